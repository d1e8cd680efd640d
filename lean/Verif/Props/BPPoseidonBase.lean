import Verif.BP.Poseidon
import Verif.Props.BPSetAlt
set_option linter.unusedSectionVars false
set_option linter.unusedSimpArgs false
set_option linter.unusedVariables false
/-!
# Poseidon: what the constraints of the rounds say (C122)
-/
namespace Verif.BP
variable {F V : Type} [Field F] [AddCommGroup V] [Module F V] [DecidableEq F] [DecidableEq V]

/-! ## Linear combinations -/

theorem lc_insert (A : Asg F) (x : Var) (c : F) : ∀ l : LC F, A.lc (LC.insert x c l) = A.lc l + c * A.val x := by
  intro l
  induction l with
  | nil => simp [LC.insert, lc_cons, lc_nil]
  | cons t l ih =>
    obtain ⟨y, d⟩ := t
    simp only [LC.insert]
    by_cases e : y = x
    · rw [if_pos e, lc_cons, lc_cons, e]; ring
    · rw [if_neg e, lc_cons, lc_cons, ih]; ring

theorem lc_simplify (A : Asg F) (l : LC F) : A.lc (LC.simplify l) = A.lc l := by
  have key : ∀ (l m : LC F), A.lc (l.foldl (fun m t => LC.insert t.1 t.2 m) m) = A.lc m + A.lc l := by
    intro l
    induction l with
    | nil => intro m; simp [lc_nil]
    | cons t l ih =>
      intro m
      obtain ⟨y, d⟩ := t
      rw [List.foldl_cons, ih, lc_insert, lc_cons]; ring
  rw [LC.simplify, key, lc_nil, zero_add]

theorem mem_insert {x : Var} {c : F} : ∀ {l : LC F} {t : Var × F}, t ∈ LC.insert x c l → t.1 = x ∨ ∃ u ∈ l, u.1 = t.1 := by
  intro l
  induction l with
  | nil => intro t ht; simp only [LC.insert, List.mem_singleton] at ht; subst ht; exact .inl rfl
  | cons u l ih =>
    intro t ht
    simp only [LC.insert] at ht
    by_cases e : u.1 = x
    · rw [if_pos e] at ht
      rcases List.mem_cons.1 ht with rfl | h
      · exact .inl rfl
      · exact .inr ⟨t, by simp [h], rfl⟩
    · rw [if_neg e] at ht
      rcases List.mem_cons.1 ht with rfl | h
      · exact .inr ⟨t, by simp, rfl⟩
      · rcases ih h with h | ⟨u', hu, e'⟩
        · exact .inl h
        · exact .inr ⟨u', by simp [hu], e'⟩

theorem mem_simplify {l : LC F} {t : Var × F} (ht : t ∈ LC.simplify l) : ∃ u ∈ l, u.1 = t.1 := by
  have key : ∀ (l m : LC F), t ∈ l.foldl (fun m t => LC.insert t.1 t.2 m) m → ∃ u ∈ m ++ l, u.1 = t.1 := by
    intro l
    induction l with
    | nil => intro m h; exact ⟨t, by simpa using h, rfl⟩
    | cons a l ih =>
      intro m h
      obtain ⟨u, hu, e⟩ := ih _ h
      rcases List.mem_append.1 hu with h1 | h1
      · rcases mem_insert h1 with h2 | ⟨w, hw, ew⟩
        · exact ⟨a, by simp, by rw [← h2, e]⟩
        · exact ⟨w, by simp [hw], ew.trans e⟩
      · exact ⟨u, by simp [h1], e⟩
  simpa using key l [] ht

theorem lc_mix (A : Asg F) (p : PoseidonParams F) (i : Nat) : ∀ (outs : List (LC F)) (k : Nat) (acc : LC F),
    A.lc ((outs.zipIdx k).foldl (fun acc q => LC.add acc (LC.scale (p.entry q.2 i) q.1)) acc) =
      A.lc acc + (((outs.map A.lc).zipIdx k).map fun q => q.1 * p.entry q.2 i).sum := by
  intro outs
  induction outs with
  | nil => intro k acc; simp
  | cons o outs ih =>
    intro k acc
    simp only [List.zipIdx_cons, List.foldl_cons, List.map_cons, List.sum_cons]
    rw [ih, lc_add, lc_scale]; ring

theorem linearLC_lc (A : Asg F) (p : PoseidonParams F) (outs : List (LC F)) : (linearLC p outs).map A.lc = p.linear (outs.map A.lc) := by
  simp only [linearLC, PoseidonParams.linear, List.map_map, List.length_map]
  refine List.map_congr_left fun i _ => ?_
  simp only [Function.comp, PoseidonParams.mix]
  rw [lc_mix, lc_nil, zero_add]

theorem mem_mix (p : PoseidonParams F) (i : Nat) {t : Var × F} : ∀ (outs : List (LC F)) (k : Nat) (acc : LC F),
    t ∈ (outs.zipIdx k).foldl (fun acc q => LC.add acc (LC.scale (p.entry q.2 i) q.1)) acc → t ∈ acc ∨ ∃ l ∈ outs, ∃ u ∈ l, u.1 = t.1 := by
  intro outs
  induction outs with
  | nil => intro k acc h; exact .inl (by simpa using h)
  | cons o outs ih =>
    intro k acc h
    simp only [List.zipIdx_cons, List.foldl_cons] at h
    rcases ih _ _ h with h | ⟨l, hl, u, hu, e⟩
    · rcases List.mem_append.1 h with h | h
      · exact .inl h
      · obtain ⟨u, hu, e⟩ := List.mem_map.1 h
        exact .inr ⟨o, by simp, u, hu, by rw [← e]⟩
    · exact .inr ⟨l, by simp [hl], u, hu, e⟩

theorem linear_length (p : PoseidonParams F) (s : List F) : (p.linear s).length = s.length := by simp [PoseidonParams.linear]
theorem linearLC_length (p : PoseidonParams F) (s : List (LC F)) : (linearLC p s).length = s.length := by simp [linearLC]
theorem fullSboxF_length (f : Nat → F → F) (off : Nat) (s : List F) : (fullSboxF f off s).length = s.length := by simp [fullSboxF]
theorem partialSbox_length (p : PoseidonParams F) (f : Nat → F → F) : ∀ (s : List F) (off : Nat), (p.partialSbox f off s).length = s.length := by
  intro s
  induction s with
  | nil => intro off; rfl
  | cons x s ih =>
    intro off
    cases s with
    | nil => rfl
    | cons y s => simp only [PoseidonParams.partialSbox, List.length_cons] at *; rw [ih]
theorem full_length (p : PoseidonParams F) (f : Nat → F → F) : ∀ (n off : Nat) (s : List F), (p.full f n off s).length = s.length := by
  intro n
  induction n with
  | zero => intro off s; rfl
  | succ n ih => intro off s; rw [PoseidonParams.full, ih, linear_length, fullSboxF_length]
theorem partials_length (p : PoseidonParams F) (f : Nat → F → F) : ∀ (n off : Nat) (s : List F), (p.partials f n off s).length = s.length := by
  intro n
  induction n with
  | zero => intro off s; rfl
  | succ n ih => intro off s; rw [PoseidonParams.partials, ih, linear_length, partialSbox_length]
theorem rounds_length (p : PoseidonParams F) (f : Nat → F → F) (s : List F) : (p.rounds f s).length = s.length := by
  rw [PoseidonParams.rounds, full_length, partials_length, full_length]

/-! ## The verifier -/

/-- the constraints of one S-box say that its output is `f off` of its input -/
def SboxImposes (V : Type) [AddCommGroup V] [Module F V] (A : Asg F) (f : Nat → F → F) (syn : Nat → LC F → Prog F (Top F V) Var Var) : Prop :=
  ∀ off l, Imposes V A (syn off l) fun v => A.val v = f off (A.lc l)

section imposes
variable {A : Asg F} {f : Nat → F → F} {syn : Nat → LC F → Prog F (Top F V) Var Var}

theorem fullSboxes_imposes (hs : SboxImposes V A f syn) : ∀ (ls : List (LC F)) (off : Nat),
    Imposes V A (fullSboxes syn off ls) fun o => o.map A.lc = fullSboxF f off (ls.map A.lc) := by
  intro ls
  induction ls with
  | nil => intro off; exact Imposes.pure rfl
  | cons l ls ih =>
    intro off
    refine Imposes.bind (hs off l) fun v hv => ?_
    refine Imposes.bind (ih (off + 1)) fun vs hvs => Imposes.pure ?_
    rw [List.map_cons, hvs, lc_ofVar, hv]
    rfl

theorem fullRounds_imposes (p : PoseidonParams F) (hs : SboxImposes V A f syn) : ∀ (n off : Nat) (ls : List (LC F)),
    Imposes V A (fullRounds p syn n off ls) fun o => o.map A.lc = p.full f n off (ls.map A.lc) := by
  intro n
  induction n with
  | zero => intro off ls; exact Imposes.pure rfl
  | succ n ih =>
    intro off ls
    refine Imposes.bind (fullSboxes_imposes hs ls off) fun vs hvs => ?_
    refine (ih _ _).mono fun o ho => ?_
    rw [ho, linearLC_lc, hvs, PoseidonParams.full, List.length_map]

theorem partialSboxes_imposes (p : PoseidonParams F) (hs : SboxImposes V A f syn) : ∀ (ls : List (LC F)) (off : Nat),
    Imposes V A (partialSboxes p syn off ls) fun o => o.map A.lc = p.partialSbox f off (ls.map A.lc) := by
  intro ls
  induction ls with
  | nil => intro off; exact Imposes.pure rfl
  | cons l ls ih =>
    intro off
    cases ls with
    | nil =>
      refine Imposes.bind (hs off l) fun v hv => Imposes.pure ?_
      simp only [List.map_cons, List.map_nil, lc_ofVar, hv]
      rfl
    | cons l' ls =>
      refine Imposes.bind (ih (off + 1)) fun vs hvs => Imposes.pure ?_
      rw [List.map_cons, hvs, lc_add, lc_ofScalar]
      rfl

theorem partialRounds_imposes (p : PoseidonParams F) (hs : SboxImposes V A f syn) : ∀ (n off : Nat) (ls : List (LC F)),
    Imposes V A (partialRoundsLC p syn n off ls) fun o => o.map A.lc = p.partials f n off (ls.map A.lc) := by
  intro n
  induction n with
  | zero => intro off ls; exact Imposes.pure rfl
  | succ n ih =>
    intro off ls
    refine Imposes.bind (partialSboxes_imposes p hs ls off) fun vs hvs => ?_
    refine (ih _ _).mono fun o ho => ?_
    have e : ((linearLC p vs).map LC.simplify).map A.lc = (linearLC p vs).map A.lc := by
      rw [List.map_map]; exact List.map_congr_left fun l _ => lc_simplify A l
    rw [ho, e, linearLC_lc, hvs, PoseidonParams.partials, List.length_map]

theorem rounds_imposes (p : PoseidonParams F) (hs : SboxImposes V A f syn) (ls : List (LC F)) :
    Imposes V A (roundsConstraints p syn ls) fun o => ls.length = p.width ∧ o.map A.lc = p.rounds f (ls.map A.lc) := by
  unfold roundsConstraints
  split
  · refine Imposes.bind (fullRounds_imposes p hs _ _ _) fun s1 h1 => ?_
    refine Imposes.bind (partialRounds_imposes p hs _ _ _) fun s2 h2 => ?_
    refine (fullRounds_imposes p hs _ _ _).mono fun o ho => ⟨by assumption, ?_⟩
    rw [ho, h2, h1]; rfl
  · exact Imposes.panic

end imposes

theorem synthSbox_imposes {A : Asg F} (sb : Sbox) (hsb : sb ≠ .inverse) (p : PoseidonParams F) :
    SboxImposes V A (fun off x => sb.apply (x + p.key off)) fun off l => synthSbox sb l (p.key off) := by
  intro off l
  cases sb with
  | cube =>
    refine Imposes.bind (Imposes.multiply _ _) fun x hx => ?_
    refine Imposes.bind (Imposes.multiply _ _) fun y hy => Imposes.pure ?_
    simp only [lc_add, lc_ofScalar, lc_ofVar] at hx hy
    rw [hy.2.2, hx.2.2, hx.1]; rfl
  | quint =>
    refine Imposes.bind (Imposes.multiply _ _) fun x hx => ?_
    refine Imposes.bind (Imposes.multiply _ _) fun y hy => ?_
    refine Imposes.bind (Imposes.multiply _ _) fun z hz => Imposes.pure ?_
    simp only [lc_add, lc_ofScalar, lc_ofVar] at hx hy hz
    rw [hz.2.2, hy.2.2, hx.2.2, hx.1]; rfl
  | inverse => exact absurd rfl hsb

theorem permutation_imposes {A : Asg F} (p : PoseidonParams F) (sb : Sbox) (hsb : sb ≠ .inverse) (ls : List (LC F)) :
    Imposes V A (permutationConstraints p sb ls) fun o => ls.length = p.width ∧ o.map A.lc = p.permute sb (ls.map A.lc) :=
  rounds_imposes p (synthSbox_imposes sb hsb p) ls

/-- the constraints of `Poseidon_hash_k_constraints`: their output is the second element of the permutation's result -/
theorem hash_imposes {A : Asg F} (k : Nat) (p : PoseidonParams F) (sb : Sbox) (hsb : sb ≠ .inverse) (ls : List (LC F)) (cap : LC F) :
    Imposes V A (hashConstraints k (permutationConstraints p sb) ls cap) fun o =>
      ls.length = k ∧ k + 1 = p.width ∧ (p.permute sb (A.lc cap :: ls.map A.lc))[1]? = some (A.lc o) := by
  unfold hashConstraints
  split
  · refine Imposes.bind (permutation_imposes p sb hsb _) fun out ho => ?_
    rw [List.map_cons] at ho
    cases e : out[1]? with
    | none => exact Imposes.panic
    | some o =>
      refine Imposes.pure ⟨by assumption, ?_, ?_⟩
      · rw [← ho.1, List.length_cons]; omega
      · rw [← ho.2, List.getElem?_map, e]; rfl
  · exact Imposes.panic

/-! ## The prover -/

/-- linear combinations of returned variables, and their values -/
structure PState.HasAll (s : PState F V) (ls : List (LC F)) (xs : List F) : Prop where
  given : ∀ l ∈ ls, ∀ t ∈ l, s.Given t.1
  value : ls.map s.asg.lc = xs

theorem PState.HasAll.head {s : PState F V} {l : LC F} {ls : List (LC F)} {x : F} {xs : List F} (h : s.HasAll (l :: ls) (x :: xs)) :
    s.Has l x ∧ s.HasAll ls xs := by
  have := h.value
  simp only [List.map_cons, List.cons.injEq] at this
  exact ⟨⟨h.given l (by simp), this.1⟩, ⟨fun l' hl => h.given l' (by simp [hl]), this.2⟩⟩

theorem PState.HasAll.cons {s : PState F V} {l : LC F} {ls : List (LC F)} {x : F} {xs : List F} (h : s.Has l x) (h' : s.HasAll ls xs) :
    s.HasAll (l :: ls) (x :: xs) := by
  refine ⟨fun l' hl => ?_, by rw [List.map_cons, h.value, h'.value]⟩
  rcases List.mem_cons.1 hl with rfl | e
  exacts [h.given, h'.given l' e]

theorem PState.HasAll.nil (s : PState F V) : s.HasAll [] [] := ⟨by simp, rfl⟩

theorem PState.HasAll.mono {s s' : PState F V} {ls : List (LC F)} {xs : List F} (h : s.HasAll ls xs) (le : s.Le s') : s'.HasAll ls xs := by
  refine ⟨fun l hl t ht => (le.var _ (h.given l hl t ht)).1, ?_⟩
  rw [← h.value]
  exact List.map_congr_left fun l hl => (PState.Has.mono ⟨h.given l hl, rfl⟩ le).value

theorem PState.HasAll.length {s : PState F V} {ls : List (LC F)} {xs : List F} (h : s.HasAll ls xs) : xs.length = ls.length := by
  rw [← h.value, List.length_map]

theorem PState.HasAll.linear {s : PState F V} {ls : List (LC F)} {xs : List F} (h : s.HasAll ls xs) (p : PoseidonParams F) :
    s.HasAll (linearLC p ls) (p.linear xs) := by
  refine ⟨fun l hl t ht => ?_, by rw [linearLC_lc, h.value]⟩
  obtain ⟨i, -, rfl⟩ := List.mem_map.1 hl
  rcases mem_mix p i _ _ _ ht with h0 | ⟨l, hl, u, hu, e⟩
  · simp at h0
  · rw [← e]; exact h.given l hl u hu

theorem PState.HasAll.simplify {s : PState F V} {ls : List (LC F)} {xs : List F} (h : s.HasAll ls xs) : s.HasAll (ls.map LC.simplify) xs := by
  refine ⟨fun l hl t ht => ?_, ?_⟩
  · obtain ⟨m, hm, rfl⟩ := List.mem_map.1 hl
    obtain ⟨u, hu, e⟩ := mem_simplify ht
    rw [← e]; exact h.given m hm u hu
  · rw [List.map_map, ← h.value]
    exact List.map_congr_left fun l _ => lc_simplify _ l

theorem PState.HasAll.get {s : PState F V} {ls : List (LC F)} {xs : List F} (h : s.HasAll ls xs) {i : Nat} {l : LC F} (e : ls[i]? = some l) :
    ∃ x, xs[i]? = some x ∧ s.Has l x := by
  refine ⟨s.asg.lc l, by rw [← h.value, List.getElem?_map, e]; rfl, h.given l (List.mem_of_getElem? e), rfl⟩

/-- a prover, whose state meets `ok`, executes the calls of one S-box on an input `x` that meets `good` -/
def SboxBuilds (g h : V) (idle : Prop) (good : Nat → F → Prop) (f : Nat → F → F) (syn : Nat → LC F → Prog F (Top F (F × F)) Var Var) : Prop :=
  ∀ off l x (s : PState F V), s.Good → (idle → s.pending = none) → s.Has l x → good off x →
    Builds g h s (syn off l) fun v s' => s'.Has (LC.ofVar v) (f off x)

/-- the inputs (with their offsets) of the S-boxes of a full round -/
def fullInputs (off : Nat) (s : List F) : List (Nat × F) := (s.zipIdx off).map fun q => (q.2, q.1)

/-- the input of the S-box of a partial round -/
def partialInputs : Nat → List F → List (Nat × F)
  | _, [] => []
  | off, [x] => [(off, x)]
  | off, _ :: y :: s => partialInputs (off + 1) (y :: s)

/-- the inputs of all S-boxes of full rounds -/
def PoseidonParams.fullIns (p : PoseidonParams F) (f : Nat → F → F) : Nat → Nat → List F → List (Nat × F)
  | 0, _, _ => []
  | n + 1, off, s => fullInputs off s ++ p.fullIns f n (off + s.length) (p.linear (fullSboxF f off s))

/-- the inputs of all S-boxes of partial rounds -/
def PoseidonParams.partialIns (p : PoseidonParams F) (f : Nat → F → F) : Nat → Nat → List F → List (Nat × F)
  | 0, _, _ => []
  | n + 1, off, s => partialInputs off s ++ p.partialIns f n (off + s.length) (p.linear (p.partialSbox f off s))

/-- the inputs (before the round key is added) of all S-boxes, each with the index of its round key -/
def PoseidonParams.sboxInputs (p : PoseidonParams F) (f : Nat → F → F) (s : List F) : List (Nat × F) :=
  p.fullIns f p.fullBeginning 0 s ++
  (p.partialIns f p.partialRounds (p.fullBeginning * p.width) (p.full f p.fullBeginning 0 s) ++
    p.fullIns f p.fullEnd ((p.fullBeginning + p.partialRounds) * p.width)
      (p.partials f p.partialRounds (p.fullBeginning * p.width) (p.full f p.fullBeginning 0 s)))

section builds
variable {g h : V} {idle : Prop} {good : Nat → F → Prop} {f : Nat → F → F} {syn : Nat → LC F → Prog F (Top F (F × F)) Var Var}

theorem fullSboxes_builds (hs : SboxBuilds g h idle good f syn) : ∀ (ls : List (LC F)) (xs : List F) (off : Nat) (s : PState F V), s.Good →
    (idle → s.pending = none) → s.HasAll ls xs → (∀ q ∈ fullInputs off xs, good q.1 q.2) →
    Builds g h s (fullSboxes syn off ls) fun o s' => s'.HasAll o (fullSboxF f off xs) := by
  intro ls
  induction ls with
  | nil =>
    intro xs off s hg hp hl hq
    have := hl.value
    subst this
    exact Builds.pure hg (PState.HasAll.nil s)
  | cons l ls ih =>
    intro xs off s hg hp hl hq
    cases xs with
    | nil => have := hl.value; simp at this
    | cons x xs =>
      refine Builds.bind (hs off l x s hg hp hl.head.1 (hq (off, x) (by simp [fullInputs, List.zipIdx_cons]))) fun v s1 g1 l1 hv => ?_
      refine Builds.bind (ih xs (off + 1) s1 g1 (fun i => l1.idle (hp i)) (hl.head.2.mono l1) fun q h' => hq q ?_) fun vs s2 g2 l2 hvs =>
        Builds.pure g2 (PState.HasAll.cons (hv.mono l2) hvs)
      simp only [fullInputs, List.zipIdx_cons, List.map_cons, List.mem_cons] at h' ⊢
      exact .inr h'

theorem fullRounds_builds (p : PoseidonParams F) (hs : SboxBuilds g h idle good f syn) : ∀ (n off : Nat) (ls : List (LC F)) (xs : List F)
    (s : PState F V), s.Good → (idle → s.pending = none) → s.HasAll ls xs → (∀ q ∈ p.fullIns f n off xs, good q.1 q.2) →
    Builds g h s (fullRounds p syn n off ls) fun o s' => s'.HasAll o (p.full f n off xs) := by
  intro n
  induction n with
  | zero => intro off ls xs s hg hp hl hq; exact Builds.pure hg hl
  | succ n ih =>
    intro off ls xs s hg hp hl hq
    simp only [PoseidonParams.fullIns, List.mem_append] at hq
    refine Builds.bind (fullSboxes_builds hs ls xs off s hg hp hl fun q h' => hq q (.inl h')) fun vs s1 g1 l1 hvs => ?_
    rw [← hl.length]
    exact ih _ _ _ s1 g1 (fun i => l1.idle (hp i)) (hvs.linear p) fun q h' => hq q (.inr h')

theorem partialSboxes_builds (p : PoseidonParams F) (hs : SboxBuilds g h idle good f syn) : ∀ (ls : List (LC F)) (xs : List F) (off : Nat)
    (s : PState F V), s.Good → (idle → s.pending = none) → s.HasAll ls xs → (∀ q ∈ partialInputs off xs, good q.1 q.2) →
    Builds g h s (partialSboxes p syn off ls) fun o s' => s'.HasAll o (p.partialSbox f off xs) := by
  intro ls
  induction ls with
  | nil =>
    intro xs off s hg hp hl hq
    have := hl.value
    subst this
    exact Builds.pure hg (PState.HasAll.nil s)
  | cons l ls ih =>
    intro xs off s hg hp hl hq
    cases xs with
    | nil => have := hl.value; simp at this
    | cons x xs =>
      cases ls with
      | nil =>
        have := hl.value
        simp only [List.map_cons, List.map_nil, List.cons.injEq] at this
        obtain ⟨-, rfl⟩ := this
        refine Builds.bind (hs off l x s hg hp hl.head.1 (hq (off, x) (by simp [partialInputs]))) fun v s1 g1 l1 hv =>
          Builds.pure g1 (PState.HasAll.cons hv (PState.HasAll.nil s1))
      | cons l' ls =>
        cases xs with
        | nil => have := hl.value; simp at this
        | cons y xs =>
          refine Builds.bind (ih (y :: xs) (off + 1) s hg hp hl.head.2 hq) fun vs s2 g2 l2 hvs =>
            Builds.pure g2 (PState.HasAll.cons ((hl.head.1.mono l2).add (PState.Has.scalar s2 _)) hvs)

theorem partialRounds_builds (p : PoseidonParams F) (hs : SboxBuilds g h idle good f syn) : ∀ (n off : Nat) (ls : List (LC F)) (xs : List F)
    (s : PState F V), s.Good → (idle → s.pending = none) → s.HasAll ls xs → (∀ q ∈ p.partialIns f n off xs, good q.1 q.2) →
    Builds g h s (partialRoundsLC p syn n off ls) fun o s' => s'.HasAll o (p.partials f n off xs) := by
  intro n
  induction n with
  | zero => intro off ls xs s hg hp hl hq; exact Builds.pure hg hl
  | succ n ih =>
    intro off ls xs s hg hp hl hq
    simp only [PoseidonParams.partialIns, List.mem_append] at hq
    refine Builds.bind (partialSboxes_builds p hs ls xs off s hg hp hl fun q h' => hq q (.inl h')) fun vs s1 g1 l1 hvs => ?_
    rw [← hl.length]
    exact ih _ _ _ s1 g1 (fun i => l1.idle (hp i)) (hvs.linear p).simplify fun q h' => hq q (.inr h')

theorem rounds_builds (p : PoseidonParams F) (hs : SboxBuilds g h idle good f syn) (ls : List (LC F)) (xs : List F) (hw : ls.length = p.width)
    (s : PState F V) (hg : s.Good) (hp : idle → s.pending = none) (hl : s.HasAll ls xs) (hq : ∀ q ∈ p.sboxInputs f xs, good q.1 q.2) :
    Builds g h s (roundsConstraints p syn ls) fun o s' => s'.HasAll o (p.rounds f xs) := by
  simp only [PoseidonParams.sboxInputs, List.mem_append] at hq
  rw [roundsConstraints, if_pos hw]
  refine Builds.bind (fullRounds_builds p hs _ _ _ _ s hg hp hl fun q h' => hq q (.inl h')) fun s1 t1 g1 l1 h1 => ?_
  refine Builds.bind (partialRounds_builds p hs _ _ _ _ t1 g1 (fun i => l1.idle (hp i)) h1 fun q h' => hq q (.inr (.inl h'))) fun s2 t2 g2 l2 h2 => ?_
  exact fullRounds_builds p hs _ _ _ _ t2 g2 (fun i => l2.idle (l1.idle (hp i))) h2 fun q h' => hq q (.inr (.inr h'))

end builds

/-! ## Prover and verifier make the same calls -/

section rel
variable {T T' R : Type} {re : T → T' → Prop} {syn : Nat → LC F → Prog F T R Var} {syn' : Nat → LC F → Prog F T' R Var}

theorem fullSboxes_rel (hs : ∀ off l, (syn off l).Rel re (fun a b => a = b) (syn' off l)) : ∀ (ls : List (LC F)) (off : Nat),
    (fullSboxes syn off ls).Rel re (fun a b => a = b) (fullSboxes syn' off ls) := by
  intro ls
  induction ls with
  | nil => intro off; exact Rel.pure rfl
  | cons l ls ih =>
    intro off
    refine Rel.seq (hs off l) fun v _ e => ?_
    subst e
    refine Rel.seq (ih (off + 1)) fun v _ e => ?_
    subst e
    exact Rel.pure rfl

theorem fullRounds_rel (p : PoseidonParams F) (hs : ∀ off l, (syn off l).Rel re (fun a b => a = b) (syn' off l)) : ∀ (n off : Nat) (ls : List (LC F)),
    (fullRounds p syn n off ls).Rel re (fun a b => a = b) (fullRounds p syn' n off ls) := by
  intro n
  induction n with
  | zero => intro off ls; exact Rel.pure rfl
  | succ n ih =>
    intro off ls
    refine Rel.seq (fullSboxes_rel hs ls off) fun v _ e => ?_
    subst e
    exact ih _ _

theorem partialSboxes_rel (p : PoseidonParams F) (hs : ∀ off l, (syn off l).Rel re (fun a b => a = b) (syn' off l)) : ∀ (ls : List (LC F)) (off : Nat),
    (partialSboxes p syn off ls).Rel re (fun a b => a = b) (partialSboxes p syn' off ls) := by
  intro ls
  induction ls with
  | nil => intro off; exact Rel.pure rfl
  | cons l ls ih =>
    intro off
    cases ls with
    | nil =>
      refine Rel.seq (hs off l) fun v _ e => ?_
      subst e
      exact Rel.pure rfl
    | cons l' ls =>
      refine Rel.seq (ih (off + 1)) fun v _ e => ?_
      subst e
      exact Rel.pure rfl

theorem partialRounds_rel (p : PoseidonParams F) (hs : ∀ off l, (syn off l).Rel re (fun a b => a = b) (syn' off l)) :
    ∀ (n off : Nat) (ls : List (LC F)), (partialRoundsLC p syn n off ls).Rel re (fun a b => a = b) (partialRoundsLC p syn' n off ls) := by
  intro n
  induction n with
  | zero => intro off ls; exact Rel.pure rfl
  | succ n ih =>
    intro off ls
    refine Rel.seq (partialSboxes_rel p hs ls off) fun v _ e => ?_
    subst e
    exact ih _ _

theorem rounds_rel (p : PoseidonParams F) (hs : ∀ off l, (syn off l).Rel re (fun a b => a = b) (syn' off l)) (ls : List (LC F)) :
    (roundsConstraints p syn ls).Rel re (fun a b => a = b) (roundsConstraints p syn' ls) := by
  unfold roundsConstraints
  split
  · refine Rel.seq (fullRounds_rel p hs _ _ _) fun v _ e => ?_
    subst e
    refine Rel.seq (partialRounds_rel p hs _ _ _) fun v _ e => ?_
    subst e
    exact fullRounds_rel p hs _ _ _
  · trivial

theorem hash_rel (k : Nat) {perm : List (LC F) → Prog F T R (List (LC F))} {perm' : List (LC F) → Prog F T' R (List (LC F))}
    (hp : ∀ ls, (perm ls).Rel re (fun a b => a = b) (perm' ls)) (ls : List (LC F)) (cap : LC F) :
    (hashConstraints k perm ls cap).Rel re (fun a b => a = b) (hashConstraints k perm' ls cap) := by
  unfold hashConstraints
  split
  · refine Rel.seq (hp _) fun v _ e => ?_
    subst e
    cases e : v[1]? with
    | none => trivial
    | some o => exact Rel.pure rfl
  · trivial

theorem hashGadget_rel (k : Nat) {perm : List (LC F) → Prog F T R (List (LC F))} {perm' : List (LC F) → Prog F T' R (List (LC F))}
    (hp : ∀ ls, (perm ls).Rel re (fun a b => a = b) (perm' ls)) (ls : List Var) (cap : Var) (image : F) :
    (hashGadget k perm ls cap image).Rel re (fun a b => a = b) (hashGadget k perm' ls cap image) := by
  refine Rel.seq (hash_rel k hp _ _) fun v _ e => ?_
  subst e
  exact Rel.constrain _

end rel

/-- the calls of an inverse S-box, with the two values that the prover allocates -/
def inverseWith {T R : Type} (l : LC F) (c : F) (w : Option F → Option (F × F)) : Prog F T R Var := do
  let v ← csEvalLc (LC.add l (LC.ofScalar c))
  let a ← csAllocSingle ((w v).map Prod.fst)
  let b ← csAllocSingle ((w v).map Prod.snd)
  isNonzeroGadget a.1 b.1
  match b.2 with
  | none => .panic
  | some o => do
    constrainScalar (LC.ofVar o) 1
    pure b.1

theorem synthSbox_inverse {T R : Type} (l : LC F) (c : F) :
    (synthSbox .inverse l c : Prog F T R Var) = inverseWith l c fun v => v.map fun x => (x, x⁻¹) := by
  refine congrArg (fun k => csEvalLc (LC.add l (LC.ofScalar c)) >>= k) (funext fun v => ?_)
  cases v <;> rfl

theorem allocSingle_rel {T T' R : Type} {re : T → T' → Prop} (a b : Option F) :
    (csAllocSingle a : Prog F T R _).Rel re (fun a b => a = b) (csAllocSingle b : Prog F T' R _) := by
  intro x
  cases x <;> first | rfl | trivial

theorem inverseWith_rel {T T' R : Type} {re : T → T' → Prop} (l : LC F) (c : F) (w w' : Option F → Option (F × F)) :
    (inverseWith l c w : Prog F T R Var).Rel re (fun a b => a = b) (inverseWith l c w' : Prog F T' R Var) := by
  refine Rel.seq (ra := fun _ _ => True) (fun _ => trivial) fun v v' _ => ?_
  refine Rel.seq (allocSingle_rel _ _) fun a _ e => ?_
  subst e
  refine Rel.seq (allocSingle_rel _ _) fun a _ e => ?_
  subst e
  refine Rel.seq (nonzero_rel _ _) fun _ _ _ => ?_
  cases e : a.2 with
  | none => trivial
  | some o =>
    refine Rel.seq (Rel.constrain _) fun _ _ _ => ?_
    exact Rel.pure rfl

theorem synthSbox_rel {T T' R : Type} {re : T → T' → Prop} (sb : Sbox) (l : LC F) (c : F) :
    (synthSbox sb l c : Prog F T R Var).Rel re (fun a b => a = b) (synthSbox sb l c : Prog F T' R Var) := by
  cases sb with
  | cube =>
    refine Rel.seq (Rel.multiply _ _) fun v _ e => ?_
    subst e
    refine Rel.seq (Rel.multiply _ _) fun v _ e => ?_
    subst e
    exact Rel.pure rfl
  | quint =>
    refine Rel.seq (Rel.multiply _ _) fun v _ e => ?_
    subst e
    refine Rel.seq (Rel.multiply _ _) fun v _ e => ?_
    subst e
    refine Rel.seq (Rel.multiply _ _) fun v _ e => ?_
    subst e
    exact Rel.pure rfl
  | inverse =>
    rw [synthSbox_inverse, synthSbox_inverse]
    exact inverseWith_rel l c _ _

/-- two single allocations, when no multiplier is pending, are one multiplier -/
theorem Builds.allocPair {g h : V} {s : PState F V} (hg : s.Good) (hp : s.pending = none) (x y : F) {β : Type}
    {k : Var × Option Var → Var × Option Var → Prog F (Top F (F × F)) Var β} {post : β → PState F V → Prop}
    (hk : ∀ i (s' : PState F V), s'.Good → s.Le s' → s'.Has (LC.ofVar (.left i)) x → s'.Has (LC.ofVar (.right i)) y → s'.Has (LC.ofVar (.out i)) (x * y) →
      Builds g h s' (k (.left i, none) (.right i, some (.out i))) post) :
    Builds g h s (csAllocSingle (some x) >>= fun a => csAllocSingle (some y) >>= fun b => k a b) post := by
  have le := allocVars_le hg.wf x y
  have w := hg.wf.allocVars x y
  obtain ⟨h1, h2, h3⟩ := allocVars_has hg.wf x y
  have hset : ∀ (m : List F) (u v : F), m.length = s.aL.length → (m ++ [u]).set s.aL.length v = m ++ [v] := by
    intro m u v e
    rw [List.set_append_right _ _ (by omega), e, Nat.sub_self]; rfl
  have e1 : s.allocate (some x) = .ok (.left s.aL.length,
      { s with pending := some s.aL.length, aL := s.aL ++ [x], aR := s.aR ++ [0], aO := s.aO ++ [0] }) := by
    simp only [PState.allocate, hp]
  have e2 : PState.allocate { s with pending := some s.aL.length, aL := s.aL ++ [x], aR := s.aR ++ [0], aO := s.aO ++ [0] } (some y) =
      .ok (.right s.aL.length, (s.allocVars x y (x * y)).2) := by
    have lR := hg.wf.lenR
    have lO := hg.wf.lenO
    simp only [PState.allocate, hset _ _ _ lR, hset _ _ _ lO]
    rw [if_pos (by rw [List.length_append, lR]; simp)]
    have a1 : (s.aL ++ [x])[s.aL.length]? = some x := by simp
    have a2 : (s.aR ++ [y])[s.aL.length]? = some y := by rw [← lR]; simp
    simp only [a1, a2, Res.unwrap_some, Res.ok_bind, hset _ _ _ lO]
    rw [if_pos (by rw [List.length_append, lO]; simp)]
    simp only [PState.allocVars, hp]
  simp only [PState.allocVars, hg.wf.lenR, hg.wf.lenO] at h2 h3
  obtain ⟨a, s1, e, g1, l1, q1⟩ := hk s.aL.length (s.allocVars x y (x * y)).2 ⟨w, fun lc hl => (hg.cons lc hl).mono le⟩ le h1 h2 h3
  refine ⟨a, s1, ?_, g1, le.trans l1, q1⟩
  rw [← e, prog_bind, Prog.runP_bind]
  simp only [csAllocSingle, Prog.runP, e1, Res.ok_bind, Res.bind, prog_bind, Prog.runP_bind, e2]

theorem inverseWith_builds {g h : V} {s : PState F V} (hg : s.Good) (hp : s.pending = none) {l : LC F} {x c y : F} (hl : s.Has l x)
    (w : Option F → Option (F × F)) (hw : w (some (x + c)) = some (y⁻¹, y)) (hy : y ≠ 0) :
    Builds g h s (inverseWith l c w) fun v s' => s'.Has (LC.ofVar v) y := by
  refine Builds.bind (Builds.evalLc hg (hl.add (PState.Has.scalar s c))) fun v s1 g1 l1 e => ?_
  subst e
  rw [hw]
  refine Builds.allocPair (k := fun a b => do
    isNonzeroGadget a.1 b.1
    match b.2 with
    | none => .panic
    | some o => do
      constrainScalar (LC.ofVar o) 1
      pure b.1) g1 (l1.idle hp) y⁻¹ y fun i s2 g2 l2 h1 h2 h3 => ?_
  refine Builds.bind (nonzero_builds _ _ y⁻¹ (inv_ne_zero hy) g2 h1 (h2.congr (inv_inv y).symm)) fun _ s3 g3 l3 _ => ?_
  refine Builds.bind (Builds.constrainScalar g3 ((h3.mono l3).congr (inv_mul_cancel₀ hy))) fun _ s4 g4 l4 _ => ?_
  exact Builds.pure g4 (h2.mono (l3.trans l4))

theorem synthSbox_builds {g h : V} (sb : Sbox) (p : PoseidonParams F) :
    SboxBuilds g h (sb = .inverse) (fun off x => sb = .inverse → x + p.key off ≠ 0) (fun off x => sb.apply (x + p.key off))
      fun off l => synthSbox sb l (p.key off) := by
  intro off l x s hg hp hl hx
  have h0 := hl.add (PState.Has.scalar s (p.key off))
  cases sb with
  | cube =>
    refine Builds.bind (Builds.multiply hg h0 h0) fun q s1 g1 l1 h1 => ?_
    refine Builds.bind (Builds.multiply g1 h1.2.2 h1.1) fun q' s2 g2 l2 h2 => ?_
    exact Builds.pure g2 h2.2.2
  | quint =>
    refine Builds.bind (Builds.multiply hg h0 h0) fun q s1 g1 l1 h1 => ?_
    refine Builds.bind (Builds.multiply g1 h1.2.2 h1.2.2) fun q' s2 g2 l2 h2 => ?_
    refine Builds.bind (Builds.multiply g2 h2.2.2 (h1.1.mono l2)) fun q' s3 g3 l3 h3 => ?_
    exact Builds.pure g3 h3.2.2
  | inverse =>
    simp only
    rw [synthSbox_inverse]
    refine inverseWith_builds hg (hp rfl) hl _ ?_ (inv_ne_zero (hx rfl))
    simp [Sbox.apply]

/-- **the calls of the hash** -/
theorem hash_builds {g h : V} {idle : Prop} {good : Nat → F → Prop} {f : Nat → F → F} {syn : Nat → LC F → Prog F (Top F (F × F)) Var Var} (k : Nat)
    (p : PoseidonParams F) (hs : SboxBuilds g h idle good f syn) (hk : k + 1 = p.width) (hk0 : 0 < k) (ls : List (LC F)) (cap : LC F) (c : F)
    (xs : List F) (hlen : ls.length = k) (s : PState F V) (hg : s.Good) (hp : idle → s.pending = none) (hl : s.HasAll ls xs) (hc : s.Has cap c)
    (hq : ∀ q ∈ p.sboxInputs f (c :: xs), good q.1 q.2) :
    Builds g h s (hashConstraints k (roundsConstraints p syn) ls cap) fun o s' => ∃ x, (p.rounds f (c :: xs))[1]? = some x ∧ s'.Has o x := by
  rw [hashConstraints, if_pos hlen]
  refine Builds.bind (rounds_builds p hs _ _ (by rw [List.length_cons, hlen, hk]) s hg hp (PState.HasAll.cons hc hl) hq) fun out s1 g1 l1 ho => ?_
  have hlen' : out.length = k + 1 := by
    have := ho.length
    rw [rounds_length, List.length_cons, hl.length, hlen] at this
    exact this.symm
  cases e : out[1]? with
  | none => rw [List.getElem?_eq_none_iff] at e; omega
  | some o =>
    obtain ⟨x, ex, hx⟩ := ho.get e
    exact Builds.pure g1 ⟨x, ex, hx⟩

end Verif.BP
