import Verif.Props.BPTreeProof
import Mathlib.Tactic.IntervalCases
import Mathlib.Data.Nat.Digits.Lemmas
set_option linter.unusedSectionVars false
set_option linter.unusedSimpArgs false
set_option linter.unusedVariables false
/-!
# Leaf inclusion in a sparse Merkle tree: the constraints of one level (for C127, C128)
-/
namespace Verif.BP
variable {F V : Type} [Field F] [AddCommGroup V] [Module F V] [DecidableEq F] [DecidableEq V]

/-! ## The children of a node, as a function of the bits -/

/-- the values of the children that the 4-ary gadget computes -/
def sel4 (b0 b0' b1 b1' n1 n2 n3 n : F) : List F :=
  [b0' * b1' * n + (1 - b0' * b1') * n1, n1 - (1 - b0' * b1') * n1 + b0 * b1' * n + b1 * n2, n2 - b1 * n2 + b0' * b1 * n + b0 * b1 * n3,
    b0 * b1 * n + (n3 - b0 * b1 * n3)]

/-- the values of the children that the 8-ary gadget computes -/
def sel8 (b0 b0' b1 b1' b2 b2' n1 n2 n3 n4 n5 n6 n7 n : F) : List F :=
  [b0' * b1' * b2' * n + (1 - b0' * b1' * b2') * n1,
    (1 - b1' * b2') * n2 + b1' * b2' * b0 * n + (n1 - (1 - b0' * b1' * b2') * n1),
    n2 - (1 - b1' * b2') * n2 + b0' * b2' * b1 * n + (1 - (1 - b0 * b1) * b2') * n3,
    n3 - (1 - (1 - b0 * b1) * b2') * n3 + b2' * (b0 * b1) * n + b2 * n4,
    n4 - b2 * n4 + b2 * (b0' * b1') * n + b2 * (1 - b0' * b1') * n5,
    n5 - b2 * (1 - b0' * b1') * n5 + b1 * b2 * n6 + b2 * b1' * b0 * n,
    b0 * b1 * b2 * n7 + b1 * b2 * b0' * n + (n6 - b1 * b2 * n6),
    b0 * b1 * b2 * n + (n7 - b0 * b1 * b2 * n7)]

/-- a bit of `d` -/
def bitAt (d i : Nat) : Nat := (d >>> i) % 2

theorem bitAt_cases (d i : Nat) : bitAt d i = 0 ∨ bitAt d i = 1 := by unfold bitAt; omega

/-- with the bits of a number `d < 4` the children are the siblings with the node at the position `d` -/
theorem sel4_insert (d : Nat) (hd : d < 4) (n1 n2 n3 n : F) :
    sel4 ((bitAt d 0 : Nat) : F) ((1 - bitAt d 0 : Nat) : F) ((bitAt d 1 : Nat) : F) ((1 - bitAt d 1 : Nat) : F) n1 n2 n3 n = [n1, n2, n3].insertIdx d n := by
  interval_cases d <;> simp [sel4, bitAt, List.insertIdx]

theorem sel8_insert (d : Nat) (hd : d < 8) (n1 n2 n3 n4 n5 n6 n7 n : F) :
    sel8 ((bitAt d 0 : Nat) : F) ((1 - bitAt d 0 : Nat) : F) ((bitAt d 1 : Nat) : F) ((1 - bitAt d 1 : Nat) : F) ((bitAt d 2 : Nat) : F)
      ((1 - bitAt d 2 : Nat) : F) n1 n2 n3 n4 n5 n6 n7 n = [n1, n2, n3, n4, n5, n6, n7].insertIdx d n := by
  interval_cases d <;> simp [sel8, bitAt, List.insertIdx]

/-! ## The verifier -/

section imposes
variable {A : Asg F}

theorem allocBit_imposes (bit : Option Nat) :
    Imposes V A (allocBit bit) fun x => ∃ i < 2, A.val x.1 = ((i : Nat) : F) ∧ A.val x.2 = ((1 - i : Nat) : F) := by
  refine Imposes.bind (Imposes.allocMult _) fun x hx => ?_
  refine Imposes.bind (Imposes.constrain _) fun _ h1 => ?_
  refine Imposes.bind (Imposes.constrain _) fun _ h2 => Imposes.pure ?_
  simp only [lc_ofVar, lc_add, lc_sub, lc_ofScalar] at h1 h2
  rw [hx, mul_eq_zero] at h1
  rcases h1 with h1 | h1
  · exact ⟨0, by decide, by simpa using h1, by rw [h1] at h2; simp; linear_combination h2⟩
  · exact ⟨1, by decide, by rw [h1] at h2; simp; linear_combination h2, by simpa using h1⟩

theorem children4_imposes (b0 b0' b1 b1' : Var) (N1 N2 N3 N : LC F) :
    Imposes V A (children4 b0 b0' b1 b1' N1 N2 N3 N) fun cs =>
      cs.map A.lc = sel4 (A.val b0) (A.val b0') (A.val b1) (A.val b1') (A.lc N1) (A.lc N2) (A.lc N3) (A.lc N) := by
  unfold children4
  iterate 11 refine Imposes.bind (Imposes.multiply _ _) fun x hx => ?_; replace hx := hx.2.2
  refine Imposes.pure ?_
  simp only [List.map_cons, List.map_nil, lc_add, lc_sub, lc_ofVar, Asg.val] at *
  simp only [sel4, *]

theorem children8_imposes (b0 b0' b1 b1' b2 b2' : Var) (N1 N2 N3 N4 N5 N6 N7 N : LC F) :
    Imposes V A (children8 b0 b0' b1 b1' b2 b2' N1 N2 N3 N4 N5 N6 N7 N) fun cs =>
      cs.map A.lc = sel8 (A.val b0) (A.val b0') (A.val b1) (A.val b1') (A.val b2) (A.val b2') (A.lc N1) (A.lc N2) (A.lc N3) (A.lc N4) (A.lc N5) (A.lc N6)
        (A.lc N7) (A.lc N) := by
  unfold children8
  iterate 31 refine Imposes.bind (Imposes.multiply _ _) fun x hx => ?_; replace hx := hx.2.2
  refine Imposes.pure ?_
  simp only [List.map_cons, List.map_nil, lc_add, lc_sub, lc_ofVar, Asg.val] at *
  simp only [sel8, *]

/-- what the constraints of one level say: there is a digit `d`, which is added to the index with the weight `e`, and the children are the siblings with the
node at the position `d` -/
def LevelImposes (V : Type) [AddCommGroup V] [Module F V] (A : Asg F) (b : Nat) (level : Level F (Top F V) Var) : Prop :=
  ∀ digit e nodes N, Imposes V A (level digit e nodes N) fun q => nodes.length = 2 ^ b - 1 ∧ ∃ d : Nat, d < 2 ^ b ∧ A.lc q.1 = e * (d : F) ∧
    q.2.map A.lc = (nodes.map A.val).insertIdx d (A.lc N)

theorem level4_imposes : LevelImposes V A 2 level4 := by
  intro digit e nodes N
  refine Imposes.bind (allocBit_imposes _) fun x0 h0 => ?_
  refine Imposes.bind (allocBit_imposes _) fun x1 h1 => ?_
  obtain ⟨i0, l0, e0, e0'⟩ := h0
  obtain ⟨i1, l1, e1, e1'⟩ := h1
  split
  · refine Imposes.bind (children4_imposes _ _ _ _ _ _ _ _) fun cs hcs => Imposes.pure ⟨rfl, i0 + 2 * i1, by omega, ?_, ?_⟩
    · simp only [lc_cons, lc_nil, e0, e1]; push_cast; ring
    · rw [hcs]
      simp only [List.map_cons, List.map_nil, lc_ofVar, e0, e0', e1, e1']
      interval_cases i0 <;> interval_cases i1 <;> simp [sel4, List.insertIdx]
  · exact Imposes.panic

theorem level8_imposes : LevelImposes V A 3 level8 := by
  intro digit e nodes N
  refine Imposes.bind (allocBit_imposes _) fun x0 h0 => ?_
  refine Imposes.bind (allocBit_imposes _) fun x1 h1 => ?_
  refine Imposes.bind (allocBit_imposes _) fun x2 h2 => ?_
  obtain ⟨i0, l0, e0, e0'⟩ := h0
  obtain ⟨i1, l1, e1, e1'⟩ := h1
  obtain ⟨i2, l2, e2, e2'⟩ := h2
  split
  · refine Imposes.bind (children8_imposes _ _ _ _ _ _ _ _ _ _ _ _ _ _) fun cs hcs => Imposes.pure ⟨rfl, i0 + 2 * i1 + 4 * i2, by omega, ?_, ?_⟩
    · simp only [lc_cons, lc_nil, e0, e1, e2]; push_cast; ring
    · rw [hcs]
      simp only [List.map_cons, List.map_nil, lc_ofVar, e0, e0', e1, e1', e2, e2']
      interval_cases i0 <;> interval_cases i1 <;> interval_cases i2 <;> simp [sel8, List.insertIdx]
  · exact Imposes.panic

theorem arity_imposes (a : Arity) : LevelImposes V A a.bits a.level := by
  cases a
  · exact level4_imposes
  · exact level8_imposes

/-- what the constraints of a hash say -/
def HashImposes (V : Type) [AddCommGroup V] [Module F V] (A : Asg F) (H : List F → F) (W : Prop) (hash : List (LC F) → Prog F (Top F V) Var (LC F)) : Prop :=
  ∀ ls, Imposes V A (hash ls) fun o => A.lc o = H (ls.map A.lc) ∧ W

/-- the loop: some of the last nodes are grouped to a proof, with digits `ds`; either all nodes were used, or as many levels as there are rounds -/
theorem loop_imposes {b : Nat} {level : Level F (Top F V) Var} (hb : 0 < 2 ^ b - 1) (hlev : LevelImposes V A b level) {H : List F → F} {W : Prop}
    {hash : List (LC F) → Prog F (Top F V) Var (LC F)} (hh : HashImposes V A H W hash) (digit : Nat → Prog F (Top F V) Var (Option Nat)) (hdig : ∀ i, digit i = pure none) : ∀ (n i : Nat) (e : F) (cv prev : LC F)
    (nodes : List Var),
    Imposes V A (merkleLoop b level digit hash n i e cv prev nodes) fun q => ∃ (ds : List Nat) (proof : List (List F)) (rest : List F),
      (nodes.map A.val).reverse = rest ++ proof.flatten ∧ ds.length = proof.length ∧ proof.length ≤ n ∧ (rest = [] ∨ proof.length = n) ∧ (∀ d ∈ ds, d < 2 ^ b) ∧
      (∀ p ∈ proof, p.length = 2 ^ b - 1) ∧ A.lc q.1 = A.lc cv + e * ((Nat.ofDigits (2 ^ b) ds : Nat) : F) ∧
      A.lc q.2 = climb H ds proof.reverse (A.lc prev) ∧ (proof = [] ∨ W) := by
  intro n
  induction n with
  | zero =>
    intro i e cv prev nodes
    exact Imposes.pure ⟨[], [], (nodes.map A.val).reverse, by simp, rfl, le_refl _, .inr rfl, by simp, by simp, by simp, rfl, .inl rfl⟩
  | succ n ih =>
    intro i e cv prev nodes
    rw [merkleLoop]
    by_cases h0 : nodes = []
    · rw [if_pos h0, h0]
      exact Imposes.pure ⟨[], [], [], by simp, rfl, Nat.zero_le _, .inl rfl, by simp, by simp, by simp, rfl, .inl rfl⟩
    rw [if_neg h0, hdig]
    refine Imposes.bind (Imposes.pure (Q := fun _ => True) trivial) fun d0 _ => ?_
    refine Imposes.bind (hlev _ _ _ _) fun q hq => ?_
    obtain ⟨hl, d, hd, hq1, hq2⟩ := hq
    refine Imposes.bind (hh _) fun o ho => ?_
    refine (ih _ _ _ _ _).mono fun q' hq' => ?_
    obtain ⟨ds, proof, rest, h1, h2, h3, h4, h5, h6, h7, h8, -⟩ := hq'
    refine ⟨d :: ds, proof ++ [(nodes.take (2 ^ b - 1)).reverse.map A.val], rest, ?_, ?_, ?_, ?_, ?_, ?_, ?_, ?_, .inr ho.2⟩
    · rw [List.flatten_append, ← List.append_assoc, ← h1]
      simp only [List.flatten_cons, List.flatten_nil, List.append_nil]
      rw [List.map_reverse, ← List.reverse_append, ← List.map_append, List.take_append_drop]
    · simp [h2]
    · simpa using h3
    · simpa using h4
    · simpa using ⟨hd, h5⟩
    · intro p hp
      rcases List.mem_append.1 hp with hp | hp
      · exact h6 p hp
      · simp only [List.mem_singleton] at hp; subst hp; rw [List.length_map, hl]
    · rw [h7, lc_append, hq1, Nat.ofDigits_cons]
      push_cast
      ring
    · rw [h8, lc_simplify, ho.1, hq2, List.reverse_append]
      simp only [List.reverse_cons, List.reverse_nil, List.nil_append, List.cons_append, climb]

end imposes

/-! ## The prover -/

theorem PState.HasAll.hd {s : PState F V} {l : LC F} {ls : List (LC F)} {x : F} {xs : List F} (h : s.HasAll (l :: ls) (x :: xs)) : s.Has l x := h.head.1

theorem PState.HasAll.tl {s : PState F V} {l : LC F} {ls : List (LC F)} {x : F} {xs : List F} (h : s.HasAll (l :: ls) (x :: xs)) : s.HasAll ls xs := h.head.2

theorem PState.HasAll.snoc {s : PState F V} {l : LC F} {ls : List (LC F)} {x : F} {xs : List F} (h : s.HasAll ls xs) (h' : s.Has l x) :
    s.HasAll (ls ++ [l]) (xs ++ [x]) := by
  refine ⟨fun l' hl => ?_, by rw [List.map_append, h.value, List.map_singleton, h'.value]⟩
  rcases List.mem_append.1 hl with e | e
  · exact h.given l' e
  · rw [List.mem_singleton] at e; subst e; exact h'.given

section builds
variable {g h : V}

/-- one multiplication, in a context of linear combinations with known values -/
theorem Builds.mulCtx {β : Type} {s : PState F V} {ls : List (LC F)} {xs : List F} {l r : LC F} {x y : F}
    {f : Var × Var × Var → Prog F (Top F (F × F)) Var β} {post : β → PState F V → Prop} (hg : s.Good) (hc : s.HasAll ls xs) (hl : s.Has l x) (hr : s.Has r y)
    (hk : ∀ (q : Var × Var × Var) (s' : PState F V), s'.Good → s'.HasAll (LC.ofVar q.2.2 :: ls) ((x * y) :: xs) → Builds g h s' (f q) post) :
    Builds g h s (csMultiply l r >>= f) post :=
  Builds.bind (Builds.multiply hg hl hr) fun q s1 g1 l1 h1 => hk q s1 g1 (.cons h1.2.2 (hc.mono l1))

theorem allocBit_builds {s : PState F V} (hg : s.Good) (i : Nat) (hi : i < 2) :
    Builds g h s (allocBit (some i)) fun x s' => s'.Has (LC.ofVar x.1) ((i : Nat) : F) ∧ s'.Has (LC.ofVar x.2) ((1 - i : Nat) : F) := by
  refine Builds.bind (Builds.allocMult hg) fun x s1 g1 l1 h1 => ?_
  obtain ⟨ha, hb, hc⟩ := h1
  have h0 : ((i : Nat) : F) * ((1 - i : Nat) : F) = 0 := by interval_cases i <;> simp
  have h1 : ((i : Nat) : F) + (((1 - i : Nat) : F) - 1) = 0 := by interval_cases i <;> simp
  refine Builds.bind (Builds.constrain g1 (hc.congr h0)) fun _ s2 g2 l2 _ => ?_
  refine Builds.bind (Builds.constrain g2 (((ha.mono l2).add ((hb.mono l2).sub (PState.Has.scalar s2 1))).congr h1)) fun _ s3 g3 l3 _ => ?_
  exact Builds.pure g3 ⟨(ha.mono l2).mono l3, (hb.mono l2).mono l3⟩

theorem children4_builds {s : PState F V} (hg : s.Good) {b0 b0' b1 b1' : Var} {N1 N2 N3 N : LC F} {x0 x0' x1 x1' n1 n2 n3 n : F}
    (hc : s.HasAll [LC.ofVar b0, LC.ofVar b0', LC.ofVar b1, LC.ofVar b1', N1, N2, N3, N] [x0, x0', x1, x1', n1, n2, n3, n]) :
    Builds g h s (children4 b0 b0' b1 b1' N1 N2 N3 N) fun cs s' => s'.HasAll cs (sel4 x0 x0' x1 x1' n1 n2 n3 n) := by
  unfold children4
  refine Builds.mulCtx hg hc (hc.tl.hd) (hc.tl.tl.tl.hd) fun q s hg hc => ?_
  refine Builds.mulCtx hg hc (hc.tl.tl.hd) (hc.tl.tl.tl.hd) fun q s hg hc => ?_
  refine Builds.mulCtx hg hc (hc.tl.tl.hd) (hc.tl.tl.tl.tl.tl.hd) fun q s hg hc => ?_
  refine Builds.mulCtx hg hc (hc.tl.tl.tl.hd) (hc.tl.tl.tl.tl.tl.hd) fun q s hg hc => ?_
  refine Builds.mulCtx hg hc (hc.tl.tl.tl.hd) (hc.tl.tl.tl.tl.tl.tl.tl.tl.tl.tl.tl.hd) fun q s hg hc => ?_
  refine Builds.mulCtx hg hc ((PState.Has.one _).sub (hc.tl.tl.tl.tl.hd)) (hc.tl.tl.tl.tl.tl.tl.tl.tl.tl.hd) fun q s hg hc => ?_
  refine Builds.mulCtx hg hc (hc.tl.tl.tl.hd) (hc.tl.tl.tl.tl.tl.tl.tl.tl.tl.tl.tl.tl.tl.hd) fun q s hg hc => ?_
  refine Builds.mulCtx hg hc (hc.tl.tl.tl.tl.tl.tl.tl.tl.tl.hd) (hc.tl.tl.tl.tl.tl.tl.tl.tl.tl.tl.tl.tl.hd) fun q s hg hc => ?_
  refine Builds.mulCtx hg hc (hc.tl.tl.tl.tl.tl.tl.hd) (hc.tl.tl.tl.tl.tl.tl.tl.tl.tl.tl.tl.tl.tl.tl.tl.hd) fun q s hg hc => ?_
  refine Builds.mulCtx hg hc (hc.tl.tl.tl.tl.tl.hd) (hc.tl.tl.tl.tl.tl.tl.tl.tl.tl.tl.tl.tl.tl.tl.tl.hd) fun q s hg hc => ?_
  refine Builds.mulCtx hg hc (hc.tl.tl.tl.tl.tl.tl.hd) (hc.tl.tl.tl.tl.tl.tl.tl.tl.tl.tl.tl.tl.tl.tl.tl.tl.tl.hd) fun q s hg hc => ?_
  exact Builds.pure hg (PState.HasAll.cons ((hc.tl.tl.tl.tl.tl.tl.hd).add (hc.tl.tl.tl.tl.tl.hd))
      (PState.HasAll.cons ((((hc.tl.tl.tl.tl.tl.tl.tl.tl.tl.tl.tl.tl.tl.tl.tl.hd).sub (hc.tl.tl.tl.tl.tl.hd)).add (hc.tl.tl.tl.tl.hd)).add (hc.tl.tl.tl.hd))
      (PState.HasAll.cons ((((hc.tl.tl.tl.tl.tl.tl.tl.tl.tl.tl.tl.tl.tl.tl.tl.tl.hd).sub (hc.tl.tl.tl.hd)).add (hc.tl.tl.hd)).add (hc.tl.hd))
      (PState.HasAll.cons ((hc.hd).add ((hc.tl.tl.tl.tl.tl.tl.tl.tl.tl.tl.tl.tl.tl.tl.tl.tl.tl.hd).sub (hc.tl.hd)))
      (PState.HasAll.nil _)))))

theorem children8_builds {s : PState F V} (hg : s.Good) {b0 b0' b1 b1' b2 b2' : Var} {N1 N2 N3 N4 N5 N6 N7 N : LC F}
    {x0 x0' x1 x1' x2 x2' n1 n2 n3 n4 n5 n6 n7 n : F}
    (hc : s.HasAll [LC.ofVar b0, LC.ofVar b0', LC.ofVar b1, LC.ofVar b1', LC.ofVar b2, LC.ofVar b2', N1, N2, N3, N4, N5, N6, N7, N]
      [x0, x0', x1, x1', x2, x2', n1, n2, n3, n4, n5, n6, n7, n]) :
    Builds g h s (children8 b0 b0' b1 b1' b2 b2' N1 N2 N3 N4 N5 N6 N7 N) fun cs s' => s'.HasAll cs (sel8 x0 x0' x1 x1' x2 x2' n1 n2 n3 n4 n5 n6 n7 n) := by
  unfold children8
  refine Builds.mulCtx hg hc (hc.tl.hd) (hc.tl.tl.tl.hd) fun q s hg hc => ?_
  refine Builds.mulCtx hg hc (hc.tl.tl.tl.tl.hd) (hc.tl.tl.tl.tl.tl.tl.hd) fun q s hg hc => ?_
  refine Builds.mulCtx hg hc (hc.tl.tl.hd) (hc.tl.tl.tl.tl.hd) fun q s hg hc => ?_
  refine Builds.mulCtx hg hc (hc.tl.tl.tl.tl.tl.hd) (hc.tl.tl.tl.tl.tl.tl.tl.hd) fun q s hg hc => ?_
  refine Builds.mulCtx hg hc (hc.tl.hd) (hc.tl.tl.tl.tl.tl.tl.tl.tl.hd) fun q s hg hc => ?_
  refine Builds.mulCtx hg hc (hc.tl.tl.tl.tl.hd) (hc.tl.tl.tl.tl.tl.tl.tl.tl.tl.tl.hd) fun q s hg hc => ?_
  refine Builds.mulCtx hg hc ((PState.Has.one _).sub (hc.tl.tl.tl.hd)) (hc.tl.tl.tl.tl.tl.tl.tl.tl.tl.tl.tl.hd) fun q s hg hc => ?_
  refine Builds.mulCtx hg hc (hc.tl.hd) (hc.tl.tl.tl.tl.tl.tl.tl.tl.tl.tl.tl.tl.tl.tl.tl.tl.tl.tl.tl.tl.hd) fun q s hg hc => ?_
  refine Builds.mulCtx hg hc ((PState.Has.one _).sub (hc.tl.tl.hd)) (hc.tl.tl.tl.tl.tl.tl.tl.tl.tl.tl.tl.tl.tl.tl.hd) fun q s hg hc => ?_
  refine Builds.mulCtx hg hc ((PState.Has.one _).sub (hc.tl.tl.tl.tl.tl.tl.tl.hd)) (hc.tl.tl.tl.tl.tl.tl.tl.tl.tl.tl.tl.tl.tl.tl.tl.tl.hd) fun q s hg hc => ?_
  refine Builds.mulCtx hg hc (hc.tl.tl.tl.tl.tl.tl.tl.tl.hd) (hc.tl.tl.tl.tl.tl.tl.tl.tl.tl.tl.hd) fun q s hg hc => ?_
  refine Builds.mulCtx hg hc (hc.hd) (hc.tl.tl.tl.tl.tl.tl.tl.tl.tl.tl.tl.tl.tl.tl.tl.tl.tl.tl.tl.tl.tl.tl.tl.tl.hd) fun q s hg hc => ?_
  refine Builds.mulCtx hg hc (hc.tl.tl.tl.tl.tl.tl.tl.tl.tl.tl.tl.tl.tl.hd) (hc.tl.tl.tl.tl.tl.tl.tl.tl.tl.tl.tl.tl.tl.tl.tl.tl.tl.hd) fun q s hg hc => ?_
  refine Builds.mulCtx hg hc (hc.hd) (hc.tl.tl.tl.tl.tl.tl.tl.tl.tl.tl.tl.tl.tl.tl.tl.hd) fun q s hg hc => ?_
  refine Builds.mulCtx hg hc (hc.hd) (hc.tl.tl.tl.tl.tl.tl.tl.tl.tl.tl.tl.tl.tl.tl.tl.tl.tl.tl.tl.tl.tl.tl.tl.tl.tl.tl.tl.hd) fun q s hg hc => ?_
  refine Builds.mulCtx hg hc ((PState.Has.one _).sub (hc.tl.tl.tl.tl.tl.tl.tl.tl.hd)) (hc.tl.tl.tl.tl.tl.tl.tl.tl.tl.tl.tl.tl.tl.tl.tl.tl.tl.tl.tl.tl.tl.tl.tl.hd) fun q s hg hc => ?_
  refine Builds.mulCtx hg hc (hc.tl.tl.tl.tl.tl.tl.tl.tl.tl.tl.tl.tl.tl.tl.tl.tl.tl.tl.tl.tl.tl.hd) (hc.tl.tl.tl.tl.tl.tl.tl.tl.tl.tl.tl.tl.tl.hd) fun q s hg hc => ?_
  refine Builds.mulCtx hg hc (hc.hd) (hc.tl.tl.tl.tl.tl.tl.tl.tl.tl.tl.tl.tl.tl.tl.tl.tl.tl.tl.tl.tl.tl.tl.tl.tl.tl.tl.tl.tl.tl.tl.hd) fun q s hg hc => ?_
  refine Builds.mulCtx hg hc (hc.tl.tl.tl.tl.tl.tl.tl.tl.tl.tl.tl.tl.tl.tl.tl.tl.tl.tl.tl.tl.tl.tl.hd) (hc.tl.tl.tl.tl.tl.tl.tl.tl.tl.tl.tl.tl.tl.tl.tl.tl.tl.tl.tl.tl.tl.tl.tl.tl.tl.tl.tl.hd) fun q s hg hc => ?_
  refine Builds.mulCtx hg hc (hc.tl.tl.tl.tl.tl.tl.tl.tl.tl.tl.tl.tl.tl.tl.tl.tl.tl.tl.tl.tl.tl.tl.tl.hd) (hc.tl.tl.tl.tl.tl.tl.tl.tl.tl.tl.tl.tl.tl.tl.tl.tl.tl.tl.hd) fun q s hg hc => ?_
  refine Builds.mulCtx hg hc (hc.hd) (hc.tl.tl.tl.tl.tl.tl.tl.tl.tl.tl.tl.tl.tl.tl.tl.tl.tl.tl.tl.tl.tl.tl.tl.tl.tl.tl.tl.tl.tl.tl.tl.tl.tl.hd) fun q s hg hc => ?_
  refine Builds.mulCtx hg hc (hc.tl.tl.tl.tl.tl.tl.tl.tl.tl.tl.tl.tl.tl.tl.tl.tl.tl.tl.tl.tl.tl.tl.tl.tl.tl.hd) ((PState.Has.one _).sub (hc.tl.tl.tl.tl.tl.tl.tl.tl.tl.tl.tl.tl.tl.tl.tl.tl.tl.tl.tl.tl.hd)) fun q s hg hc => ?_
  refine Builds.mulCtx hg hc (hc.hd) (hc.tl.tl.tl.tl.tl.tl.tl.tl.tl.tl.tl.tl.tl.tl.tl.tl.tl.tl.tl.tl.tl.tl.tl.tl.tl.tl.tl.tl.tl.tl.tl.tl.hd) fun q s hg hc => ?_
  refine Builds.mulCtx hg hc (hc.tl.tl.tl.tl.tl.tl.tl.tl.tl.tl.tl.tl.tl.tl.tl.tl.tl.tl.tl.hd) (hc.tl.tl.tl.tl.tl.tl.tl.tl.tl.tl.tl.tl.tl.tl.tl.tl.tl.tl.tl.tl.tl.tl.tl.tl.tl.tl.tl.tl.tl.tl.tl.tl.tl.tl.hd) fun q s hg hc => ?_
  refine Builds.mulCtx hg hc (hc.tl.tl.tl.tl.tl.tl.tl.tl.tl.tl.tl.tl.tl.tl.tl.tl.tl.tl.tl.tl.tl.tl.tl.tl.tl.tl.tl.tl.hd) (hc.tl.tl.tl.tl.tl.tl.tl.tl.tl.tl.tl.tl.tl.tl.tl.tl.tl.tl.tl.tl.tl.tl.tl.tl.tl.tl.tl.hd) fun q s hg hc => ?_
  refine Builds.mulCtx hg hc (hc.hd) (hc.tl.tl.tl.tl.tl.tl.tl.tl.tl.tl.tl.tl.tl.tl.tl.tl.tl.tl.tl.tl.tl.tl.tl.tl.tl.hd) fun q s hg hc => ?_
  refine Builds.mulCtx hg hc (hc.hd) (hc.tl.tl.tl.tl.tl.tl.tl.tl.tl.tl.tl.tl.tl.tl.tl.tl.tl.tl.tl.tl.tl.tl.tl.tl.tl.tl.tl.tl.tl.tl.tl.tl.tl.tl.tl.tl.tl.tl.tl.hd) fun q s hg hc => ?_
  refine Builds.mulCtx hg hc (hc.tl.tl.tl.tl.tl.tl.tl.tl.tl.tl.tl.tl.tl.tl.tl.tl.tl.tl.tl.tl.tl.tl.hd) (hc.tl.tl.tl.tl.tl.tl.tl.tl.tl.tl.tl.tl.tl.tl.tl.tl.tl.tl.tl.tl.tl.tl.tl.tl.tl.tl.tl.tl.tl.tl.tl.tl.tl.tl.tl.tl.tl.tl.tl.hd) fun q s hg hc => ?_
  refine Builds.mulCtx hg hc (hc.tl.tl.tl.tl.tl.tl.tl.tl.tl.tl.tl.tl.tl.tl.tl.tl.tl.tl.tl.tl.tl.tl.tl.tl.hd) (hc.tl.tl.tl.tl.tl.tl.tl.tl.tl.tl.tl.tl.tl.tl.tl.tl.tl.tl.tl.tl.tl.tl.tl.tl.tl.tl.tl.tl.tl.hd) fun q s hg hc => ?_
  refine Builds.mulCtx hg hc (hc.hd) (hc.tl.tl.tl.tl.tl.tl.tl.tl.tl.tl.tl.tl.tl.tl.tl.tl.tl.tl.tl.tl.tl.tl.tl.tl.tl.tl.tl.tl.tl.tl.tl.tl.tl.tl.tl.tl.tl.tl.tl.tl.tl.tl.hd) fun q s hg hc => ?_
  refine Builds.mulCtx hg hc (hc.tl.tl.tl.tl.tl.tl.tl.tl.tl.tl.tl.tl.tl.tl.tl.tl.tl.tl.tl.tl.tl.tl.tl.tl.tl.hd) (hc.tl.tl.tl.tl.tl.tl.tl.tl.tl.tl.tl.tl.tl.tl.tl.tl.tl.tl.tl.tl.tl.tl.tl.tl.tl.tl.tl.tl.tl.tl.tl.tl.tl.tl.tl.tl.tl.tl.tl.tl.tl.tl.tl.hd) fun q s hg hc => ?_
  exact Builds.pure hg (PState.HasAll.cons ((hc.tl.tl.tl.tl.tl.tl.tl.tl.tl.tl.tl.tl.tl.tl.tl.tl.tl.tl.tl.tl.tl.tl.tl.hd).add (hc.tl.tl.tl.tl.tl.tl.tl.tl.tl.tl.tl.tl.tl.tl.tl.tl.tl.tl.tl.tl.tl.tl.hd))
      (PState.HasAll.cons (((hc.tl.tl.tl.tl.tl.tl.tl.tl.tl.tl.tl.tl.tl.tl.tl.tl.tl.tl.tl.tl.tl.hd).add (hc.tl.tl.tl.tl.tl.tl.tl.tl.tl.tl.tl.tl.tl.tl.tl.tl.tl.tl.tl.hd)).add ((hc.tl.tl.tl.tl.tl.tl.tl.tl.tl.tl.tl.tl.tl.tl.tl.tl.tl.tl.tl.tl.tl.tl.tl.tl.tl.tl.tl.tl.tl.tl.tl.tl.tl.tl.tl.tl.tl.hd).sub (hc.tl.tl.tl.tl.tl.tl.tl.tl.tl.tl.tl.tl.tl.tl.tl.tl.tl.tl.tl.tl.tl.tl.hd)))
      (PState.HasAll.cons ((((hc.tl.tl.tl.tl.tl.tl.tl.tl.tl.tl.tl.tl.tl.tl.tl.tl.tl.tl.tl.tl.tl.tl.tl.tl.tl.tl.tl.tl.tl.tl.tl.tl.tl.tl.tl.tl.tl.tl.hd).sub (hc.tl.tl.tl.tl.tl.tl.tl.tl.tl.tl.tl.tl.tl.tl.tl.tl.tl.tl.tl.tl.tl.hd)).add (hc.tl.tl.tl.tl.tl.tl.tl.tl.tl.tl.tl.tl.tl.tl.tl.tl.hd)).add (hc.tl.tl.tl.tl.tl.tl.tl.tl.tl.tl.tl.tl.tl.tl.tl.hd))
      (PState.HasAll.cons ((((hc.tl.tl.tl.tl.tl.tl.tl.tl.tl.tl.tl.tl.tl.tl.tl.tl.tl.tl.tl.tl.tl.tl.tl.tl.tl.tl.tl.tl.tl.tl.tl.tl.tl.tl.tl.tl.tl.tl.tl.hd).sub (hc.tl.tl.tl.tl.tl.tl.tl.tl.tl.tl.tl.tl.tl.tl.tl.hd)).add (hc.tl.tl.tl.tl.tl.tl.tl.tl.tl.tl.tl.tl.tl.hd)).add (hc.tl.tl.tl.tl.tl.tl.tl.tl.tl.tl.tl.tl.hd))
      (PState.HasAll.cons ((((hc.tl.tl.tl.tl.tl.tl.tl.tl.tl.tl.tl.tl.tl.tl.tl.tl.tl.tl.tl.tl.tl.tl.tl.tl.tl.tl.tl.tl.tl.tl.tl.tl.tl.tl.tl.tl.tl.tl.tl.tl.hd).sub (hc.tl.tl.tl.tl.tl.tl.tl.tl.tl.tl.tl.tl.hd)).add (hc.tl.tl.tl.tl.tl.tl.tl.tl.tl.tl.hd)).add (hc.tl.tl.tl.tl.tl.tl.tl.tl.hd))
      (PState.HasAll.cons ((((hc.tl.tl.tl.tl.tl.tl.tl.tl.tl.tl.tl.tl.tl.tl.tl.tl.tl.tl.tl.tl.tl.tl.tl.tl.tl.tl.tl.tl.tl.tl.tl.tl.tl.tl.tl.tl.tl.tl.tl.tl.tl.hd).sub (hc.tl.tl.tl.tl.tl.tl.tl.tl.hd)).add (hc.tl.tl.tl.tl.tl.tl.tl.hd)).add (hc.tl.tl.tl.tl.hd))
      (PState.HasAll.cons (((hc.tl.tl.tl.hd).add (hc.tl.hd)).add ((hc.tl.tl.tl.tl.tl.tl.tl.tl.tl.tl.tl.tl.tl.tl.tl.tl.tl.tl.tl.tl.tl.tl.tl.tl.tl.tl.tl.tl.tl.tl.tl.tl.tl.tl.tl.tl.tl.tl.tl.tl.tl.tl.hd).sub (hc.tl.tl.tl.tl.tl.tl.tl.hd)))
      (PState.HasAll.cons ((hc.hd).add ((hc.tl.tl.tl.tl.tl.tl.tl.tl.tl.tl.tl.tl.tl.tl.tl.tl.tl.tl.tl.tl.tl.tl.tl.tl.tl.tl.tl.tl.tl.tl.tl.tl.tl.tl.tl.tl.tl.tl.tl.tl.tl.tl.tl.hd).sub (hc.tl.tl.tl.hd)))
      (PState.HasAll.nil _)))))))))

/-- the prover's calls of one level: with the digit `d` -/
def LevelBuilds (g h : V) (b : Nat) (level : Level F (Top F (F × F)) Var) : Prop :=
  ∀ (d : Nat) (e : F) (nodes : List Var) (N : LC F) (xs : List F) (x : F) (s : PState F V), d < 2 ^ b → nodes.length = 2 ^ b - 1 → s.Good →
    s.HasAll (nodes.map LC.ofVar) xs → s.Has N x →
    Builds g h s (level (some d) e nodes N) fun q s' => s'.Has q.1 (e * (d : F)) ∧ s'.HasAll q.2 (xs.insertIdx d x)

theorem bitAt_zero (d : Nat) : d % 2 = bitAt d 0 := rfl

theorem level4_builds : LevelBuilds (F := F) g h 2 level4 := by
  intro d e nodes N xs x s hd hl hg hns hN
  obtain ⟨N1, N2, N3, rfl⟩ : ∃ a b c, nodes = [a, b, c] := List.length_eq_three.1 hl
  have hxl := hns.length
  obtain ⟨n1, n2, n3, rfl⟩ : ∃ a b c, xs = [a, b, c] := List.length_eq_three.1 hxl
  refine Builds.bind (allocBit_builds hg (d % 2) (by omega)) fun x0 s1 g1 l1 h0 => ?_
  refine Builds.bind (allocBit_builds g1 ((d >>> 1) % 2) (by omega)) fun x1 s2 g2 l2 h1 => ?_
  have hns2 := (hns.mono l1).mono l2
  have hN2 := (hN.mono l1).mono l2
  refine Builds.bind (children4_builds g2 (.cons (h0.1.mono l2) (.cons (h0.2.mono l2) (.cons h1.1 (.cons h1.2 (hns2.snoc hN2)))))) fun cs s3 g3 l3 h3 => ?_
  refine Builds.pure g3 ⟨((((h1.1.mono l3)).cons (2 * e) ((((h0.1.mono l2).mono l3)).single e))).congr ?_, ?_⟩
  · interval_cases d <;> push_cast <;> norm_num <;> ring
  · rw [← sel4_insert d hd]; exact h3

theorem level8_builds : LevelBuilds (F := F) g h 3 level8 := by
  intro d e nodes N xs x s hd hl hg hns hN
  obtain ⟨N1, N2, N3, N4, N5, N6, N7, rfl⟩ : ∃ a b c d e f g, nodes = [a, b, c, d, e, f, g] := by
    match nodes, hl with
    | [a, b, c, d, e, f, g], _ => exact ⟨a, b, c, d, e, f, g, rfl⟩
  have hxl : xs.length = 7 := hns.length
  obtain ⟨n1, n2, n3, n4, n5, n6, n7, rfl⟩ : ∃ a b c d e f g, xs = [a, b, c, d, e, f, g] := by
    match xs, hxl with
    | [a, b, c, d, e, f, g], _ => exact ⟨a, b, c, d, e, f, g, rfl⟩
  refine Builds.bind (allocBit_builds hg (d % 2) (by omega)) fun x0 s1 g1 l1 h0 => ?_
  refine Builds.bind (allocBit_builds g1 ((d >>> 1) % 2) (by omega)) fun x1 s2 g2 l2 h1 => ?_
  refine Builds.bind (allocBit_builds g2 ((d >>> 2) % 2) (by omega)) fun x2 s3 g3 l3 h2 => ?_
  have hns2 := ((hns.mono l1).mono l2).mono l3
  have hN2 := ((hN.mono l1).mono l2).mono l3
  have h0a := (h0.1.mono l2).mono l3
  have h0b := (h0.2.mono l2).mono l3
  have h1a := h1.1.mono l3
  refine Builds.bind (children8_builds g3 (.cons h0a (.cons h0b (.cons h1a (.cons (h1.2.mono l3) (.cons h2.1 (.cons h2.2 (hns2.snoc hN2)))))))) fun cs s4 g4 l4 h3 => ?_
  refine Builds.pure g4 ⟨((h0a.mono l4).cons e ((h1a.mono l4).cons (2 * e) ((h2.1.mono l4).single (4 * e)))).congr ?_, ?_⟩
  · interval_cases d <;> push_cast <;> norm_num <;> ring
  · rw [← sel8_insert d hd]; exact h3

theorem arity_builds (a : Arity) : LevelBuilds (F := F) g h a.bits a.level := by
  cases a
  · exact level4_builds
  · exact level8_builds

end builds

/-! ## Prover and verifier make the same calls -/

section rel
variable {T T' R : Type} {re : T → T' → Prop}

theorem allocBit_rel (a b : Option Nat) : (allocBit a : Prog F T R _).Rel re (fun x y => x = y) (allocBit b : Prog F T' R _) := by
  refine Rel.seq (Rel.allocMult _ _) fun v _ e => ?_
  subst e
  refine Rel.seq (Rel.constrain _) fun _ _ _ => ?_
  refine Rel.seq (Rel.constrain _) fun _ _ _ => ?_
  exact Rel.pure rfl

theorem children4_rel (b0 b0' b1 b1' : Var) (N1 N2 N3 N : LC F) :
    (children4 b0 b0' b1 b1' N1 N2 N3 N : Prog F T R _).Rel re (fun x y => x = y) (children4 b0 b0' b1 b1' N1 N2 N3 N : Prog F T' R _) := by
  unfold children4
  iterate 11 refine Rel.seq (Rel.multiply _ _) fun v _ e => ?_; subst e
  exact Rel.pure rfl

theorem children8_rel (b0 b0' b1 b1' b2 b2' : Var) (N1 N2 N3 N4 N5 N6 N7 N : LC F) :
    (children8 b0 b0' b1 b1' b2 b2' N1 N2 N3 N4 N5 N6 N7 N : Prog F T R _).Rel re (fun x y => x = y)
      (children8 b0 b0' b1 b1' b2 b2' N1 N2 N3 N4 N5 N6 N7 N : Prog F T' R _) := by
  unfold children8
  iterate 31 refine Rel.seq (Rel.multiply _ _) fun v _ e => ?_; subst e
  exact Rel.pure rfl

theorem arity_rel (a : Arity) (d d' : Option Nat) (e : F) (nodes : List Var) (N : LC F) :
    (a.level d e nodes N : Prog F T R _).Rel re (fun x y => x = y) (a.level d' e nodes N : Prog F T' R _) := by
  cases a
  · refine Rel.seq (allocBit_rel _ _) fun v _ e => ?_
    subst e
    refine Rel.seq (allocBit_rel _ _) fun v _ e => ?_
    subst e
    split
    · refine Rel.seq (children4_rel _ _ _ _ _ _ _ _) fun v _ e => ?_
      subst e
      exact Rel.pure rfl
    · trivial
  · refine Rel.seq (allocBit_rel _ _) fun v _ e => ?_
    subst e
    refine Rel.seq (allocBit_rel _ _) fun v _ e => ?_
    subst e
    refine Rel.seq (allocBit_rel _ _) fun v _ e => ?_
    subst e
    split
    · refine Rel.seq (children8_rel _ _ _ _ _ _ _ _ _ _ _ _ _ _) fun v _ e => ?_
      subst e
      exact Rel.pure rfl
    · trivial

end rel

end Verif.BP
