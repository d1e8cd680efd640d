import Verif.Props.BPPoseidonBase
import Verif.Props.BPGadgetsE2E
set_option linter.unusedSectionVars false
set_option linter.unusedSimpArgs false
set_option linter.unusedVariables false
/-!
# Poseidon (C122, C123)
-/
namespace Verif.BP
variable {F V : Type} [Field F] [AddCommGroup V] [Module F V] [DecidableEq F] [DecidableEq V]

/-! ## Parameters and hash functions -/

/-- Parameters that `new` made: the width is 3, 5 or 9, and there are enough round keys and matrix entries for every index that is used. -/
theorem new_keys (consts : Nat → List F) (entries : Nat → List (List F)) (width fb fe pr : Nat) (p : PoseidonParams F)
    (h : PoseidonParams.new consts entries width fb fe pr = .ok p) :
    (width = 3 ∨ width = 5 ∨ width = 9) ∧ p.width = width ∧ p.fullBeginning = fb ∧ p.fullEnd = fe ∧ p.partialRounds = pr ∧
      p.roundKeys = (consts width).take ((fb + pr + fe) * width) ∧ p.roundKeys.length = (fb + pr + fe) * width ∧
      p.mds = entries width ∧ p.mds.length = width ∧ ∀ row ∈ p.mds, row.length = width := by
  unfold PoseidonParams.new at h
  split at h
  · simp at h
  · rename_i hw
    simp only at h
    split at h
    · simp at h
    · rename_i hc
      split at h
      · simp at h
      · rename_i hm
        split at h
        · simp at h
        · rename_i hf
          simp only [Res.ok.injEq] at h
          subst h
          refine ⟨by omega, rfl, rfl, rfl, rfl, rfl, ?_, rfl, by simpa using hm, fun row hr => ?_⟩
          · simp only [List.length_take]; omega
          · have := List.find?_eq_none.1 hf row hr
            simpa using this

/-- the hash of `k` elements under parameters of width `k + 1`: it exists and is the second element of the permutation of the capacity constant and the inputs -/
theorem poseidonHash_ok (k : Nat) (p : PoseidonParams F) (sb : Sbox) (xs : List F) (hk : k + 1 = p.width) (hk0 : 0 < k) (hx : xs.length = k) :
    ∃ y, poseidonHash k p sb xs = .ok y ∧ (p.permute sb ((capConst k : F) :: xs))[1]? = some y := by
  have hlen : (p.permute sb ((capConst k : F) :: xs)).length = k + 1 := by
    rw [PoseidonParams.permute, rounds_length, List.length_cons, hx]
  cases e : (p.permute sb ((capConst k : F) :: xs))[1]? with
  | none => rw [List.getElem?_eq_none_iff] at e; omega
  | some y =>
    refine ⟨y, ?_, rfl⟩
    rw [poseidonHash, if_neg (by simpa using hx), poseidonPermutation, if_pos (by rw [List.length_cons, hx, hk]), Res.ok_bind, e]
    rfl

theorem poseidonHash_eq_ok {k : Nat} {p : PoseidonParams F} {sb : Sbox} {xs : List F} {y : F} :
    poseidonHash k p sb xs = .ok y ↔ xs.length = k ∧ k + 1 = p.width ∧ (p.permute sb ((capConst k : F) :: xs))[1]? = some y := by
  constructor
  · intro h
    unfold poseidonHash at h
    split at h
    · simp at h
    · rename_i hl
      obtain ⟨out, h1, h2⟩ := Res.bind_eq_ok.1 h
      unfold poseidonPermutation at h1
      split at h1
      · rename_i hw
        simp only [Res.ok.injEq] at h1
        subst h1
        refine ⟨by simpa using hl, ?_, ?_⟩
        · rw [← hw, List.length_cons]; omega
        · cases e : (p.permute sb ((capConst k : F) :: xs))[1]? with
          | none => rw [e] at h2; simp [Res.unwrap] at h2
          | some z => rw [e] at h2; simp only [Res.unwrap, Res.ok.injEq] at h2; rw [h2]
      · simp at h1
  · rintro ⟨h1, h2, h3⟩
    rw [poseidonHash, if_neg (by simpa using h1), poseidonPermutation, if_pos (by rw [List.length_cons, h1, h2]), Res.ok_bind, h3]
    rfl

/-- the errors of the hash functions: the number of inputs is wrong; with the right number a wrong width panics -/
theorem poseidonHash_errors (k : Nat) (p : PoseidonParams F) (sb : Sbox) (xs : List F) :
    (xs.length ≠ k → poseidonHash k p sb xs = .err (.width k xs.length)) ∧
      (xs.length = k → k + 1 ≠ p.width → poseidonHash k p sb xs = .panic) := by
  refine ⟨fun h => by rw [poseidonHash, if_pos h], fun h1 h2 => ?_⟩
  rw [poseidonHash, if_neg (by simpa using h1), poseidonPermutation, if_neg (by rw [List.length_cons, h1]; exact h2)]
  rfl

/-! ## Soundness -/

/-- the verifier commits to the first `k` commitments -/
theorem commitMany_imposes {A : Asg F} (k : Nat) : ∀ (Cs : List V) (t : VState F V),
    ImposesAt A t (commitMany (F := F) k Cs) fun q t' => k ≤ Cs.length ∧ t'.V = t.V ++ Cs.take k ∧ q.2 = Cs.drop k ∧
      q.1 = (List.range k).map fun i => Var.committed (t.V.length + i) := by
  induction k with
  | zero => intro Cs t; exact ImposesAt.pure ⟨Nat.zero_le _, by simp, rfl, rfl⟩
  | succ k ih =>
    intro Cs t
    refine ImposesAt.bind (ImposesAt.commitFirst fun C Cs1 t1 e1 hV1 => ?_)
    subst e1
    refine ImposesAt.bind ((ih Cs1 t1).mono fun q t2 _ hq => ImposesAt.pure ?_)
    obtain ⟨h1, h2, h3, h4⟩ := hq
    refine ⟨by simpa using h1, by rw [h2, hV1]; simp, by rw [h3]; rfl, ?_⟩
    simp only [h4, hV1, List.length_append, List.length_singleton, List.range_succ_eq_map, List.map_cons, List.map_map, Nat.add_zero, List.cons.injEq,
      true_and]
    exact List.map_congr_left fun i _ => by simp [Function.comp]; omega

/-- the values of the commitments `n`, …, `n + k - 1` -/
def committedValues (A : Asg F) (n k : Nat) : List F := (List.range k).map fun i => A.v (n + i)

/-- **C122, soundness** (the S-boxes `x^3` and `x^5`). Values that satisfy the constraints of `verify_knowledge_of_preimage_of_Poseidon_k(image, commitments)`:
`image` is the second element of the permutation of the value committed in the commitment to the capacity constant and the values committed in the first `k`
commitments. -/
theorem poseidon_sound (k : Nat) (p : PoseidonParams F) (sb : Sbox) (hsb : sb ≠ .inverse) (g h : V) (image : F) (Cs : List V) (t0 t : VState F V)
    (run : (verifyPoseidon k p sb g h image Cs).runV VState.top t0 = .ok ((), t)) (A : Asg F) (sat : Sat t.numVars t.cons A) :
    t.V = t0.V ++ Cs.take k ++ [((capConst k : Nat) : F) • g + (0 : F) • h] ∧ k ≤ Cs.length ∧ k + 1 = p.width ∧
      (p.permute sb (A.v (t0.V.length + k) :: committedValues A t0.V.length k))[1]? = some image := by
  have key : ImposesAt A t0 (verifyPoseidon k p sb g h image Cs) fun _ t => t.V = t0.V ++ Cs.take k ++ [((capConst k : Nat) : F) • g + (0 : F) • h] ∧
      k ≤ Cs.length ∧ k + 1 = p.width ∧ (p.permute sb (A.v (t0.V.length + k) :: committedValues A t0.V.length k))[1]? = some image := by
    refine ImposesAt.bind ((commitMany_imposes k Cs t0).mono fun q t1 _ hq => ?_)
    obtain ⟨h1, h2, -, h4⟩ := hq
    refine ImposesAt.bind (ImposesAt.commitV fun t2 hV2 => ?_)
    have : Imposes V A (hashGadget k (permutationConstraints p sb) q.1 (.committed t1.V.length) image) fun _ =>
        k + 1 = p.width ∧ (p.permute sb (A.v t1.V.length :: q.1.map A.val))[1]? = some image := by
      refine Imposes.bind (hash_imposes k p sb hsb _ _) fun o ho => ?_
      refine (Imposes.constrainScalar _ _).mono fun _ h3 => ⟨ho.2.1, ?_⟩
      have := ho.2.2
      rw [h3, lc_ofVar, List.map_map] at this
      rw [← this]
      have e : (q.1.map A.val) = q.1.map (A.lc ∘ LC.ofVar) := List.map_congr_left fun x _ => (lc_ofVar A x).symm
      rw [e]
      rfl
    refine this.at t2 fun _ t3 hV3 hq => ?_
    have el : t1.V.length = t0.V.length + k := by rw [h2, List.length_append, List.length_take]; omega
    refine ⟨by rw [hV3, hV2, h2], h1, hq.1, ?_⟩
    have := hq.2
    rw [el, h4, List.map_map] at this
    exact this
  exact key () t run sat

/-- **C122, soundness of the permutation gadget**: with the S-boxes `x^3` and `x^5`, values that satisfy the constraints of `Poseidon_permutation_gadget(input,
output)`: `output` is the permutation of the values of `input`. -/
theorem permutation_sound (p : PoseidonParams F) (sb : Sbox) (hsb : sb ≠ .inverse) (input : List Var) (output : List F) (t0 t : VState F V)
    (run : (permutationGadget p sb input output).runV VState.top t0 = .ok ((), t)) (A : Asg F) (sat : Sat t.numVars t.cons A) :
    poseidonPermutation p sb (input.map A.val) = .ok output := by
  have hc : ∀ (ls : List (LC F)) (xs : List F), ls.length = xs.length → Imposes V A (constrainAll ls xs) fun _ => ls.map A.lc = xs := by
    intro ls
    induction ls with
    | nil => intro xs e; cases xs with
      | nil => exact Imposes.pure rfl
      | cons x xs => simp at e
    | cons l ls ih =>
      intro xs e
      cases xs with
      | nil => simp at e
      | cons x xs =>
        refine Imposes.bind (Imposes.constrainScalar _ _) fun _ h1 => ?_
        refine (ih xs (by simpa using e)).mono fun _ h2 => ?_
        rw [List.map_cons, h1, h2]
  have key : Imposes V A (permutationGadget p sb input output) fun _ => poseidonPermutation p sb (input.map A.val) = .ok output := by
    unfold permutationGadget
    split
    · rename_i hw
      refine Imposes.bind (permutation_imposes p sb hsb _) fun o ho => ?_
      have e : ((input.map LC.ofVar).map A.lc) = input.map A.val := by
        rw [List.map_map]; exact List.map_congr_left fun x _ => lc_ofVar A x
      rw [e, List.length_map] at ho
      have hl : o.length = output.length := by
        have := congrArg List.length ho.2
        rw [List.length_map, PoseidonParams.permute, rounds_length, List.length_map] at this
        omega
      refine (hc o output hl).mono fun _ h3 => ?_
      rw [poseidonPermutation, if_pos (by rw [List.length_map]; exact ho.1), ← ho.2, h3]
    · exact Imposes.panic
  exact (key t0 () t run sat).2

/-- **C122 with C115.** An accepted proof of the knowledge of a preimage: the values `v` committed in the first `k` commitments hash to `image` — or the last
of the openings that were computed opens the commitment to the capacity constant to something else, which is a relation between `g` and `h`. -/
theorem poseidon_accepted {tr : Transcript F V} {t0 t1 : VState F V} {T : STree F V} {g h : V} {G H : List V} {W : Nat → Weights F} {v vb : List F}
    (k : Nat) (p : PoseidonParams F) (sb : Sbox) (hsb : sb ≠ .inverse) (image : F) (Cs : List V)
    (run : (verifyPoseidon k p sb g h image Cs).runV VState.top (VState.new tr) = .ok ((), t0)) (E : Extracted t0 t1 T g h G H W v vb) :
    poseidonHash k p sb (v.take k) = .ok image ∨
      ((v.getD k 0 - (capConst k : F)) • g + vb.getD k 0 • h = 0 ∧ v.getD k 0 - (capConst k : F) ≠ 0) := by
  obtain ⟨hV, hl, hw, e⟩ := poseidon_sound k p sb hsb g h image Cs _ t0 run _ (session_sound E).1
  simp only [VState.new, List.length_nil, List.nil_append, Nat.zero_add] at e hV
  rw [(session_sound E).2] at e
  have hV0 : t0.V.length = k + 1 := by rw [hV, List.length_append, List.length_take]; simp; omega
  have hk : k < v.length := E.length k (by omega)
  have hvs : committedValues (T.scalars.witness ⟨Nat.clog 2 t1.numVars, t1.numVars, t0.numVars, W⟩ v) 0 k = v.take k := by
    apply List.ext_getElem?
    intro i
    simp only [committedValues, (session_sound E).2, Nat.zero_add, List.getElem?_map, List.getElem?_take]
    by_cases hi : i < k
    · rw [List.getElem?_range hi, if_pos hi]
      exact (getD_eq_getElem (by omega) rfl).symm
    · rw [List.getElem?_eq_none (by simp; omega), if_neg hi]; rfl
  rw [hvs] at e
  by_cases hc : v.getD k 0 = (capConst k : F)
  · left
    rw [hc] at e
    rw [poseidonHash_eq_ok]
    exact ⟨by rw [List.length_take]; omega, hw, e⟩
  · right
    refine ⟨?_, sub_ne_zero.2 hc⟩
    obtain ⟨O, e1⟩ := E.rand
    obtain ⟨r, hr⟩ := (VState.Le.createRandomized e1).V
    have h1 : t1.V[k]? = some ((capConst k : F) • g + (0 : F) • h) := by
      rw [← hr]
      simp only
      have e2 : (Cs.take k).length = k := by rw [List.length_take]; omega
      rw [hV, List.append_assoc, List.getElem?_append_right (by omega), e2, Nat.sub_self]
      rfl
    have hvb : k < vb.length := by rw [E.lenv]; exact hk
    have h2 : t1.V[k]? = some (v.getD k 0 • g + vb.getD k 0 • h) := by
      rw [E.opens, List.getElem?_zipWith, List.getElem?_eq_getElem hk, List.getElem?_eq_getElem hvb, List.getD_eq_getElem _ _ hk,
        List.getD_eq_getElem _ _ hvb]
    rw [h1, Option.some.injEq] at h2
    rw [zero_smul, add_zero] at h2
    rw [sub_smul, h2]
    abel

/-! ## Completeness -/

theorem commitAllP_rel (g h : V) (rest : List V) : ∀ ws : List (F × F),
    (commitAllP g h ws).Rel (TopRel g h) (fun a b => a.1 = ws.map (fun w => w.1 • g + w.2 • h) ∧ a.2 = b.1 ∧ b.2 = rest)
      (commitMany (F := F) ws.length (ws.map (fun w => w.1 • g + w.2 • h) ++ rest)) := by
  intro ws
  induction ws with
  | nil => exact ⟨rfl, rfl, rfl⟩
  | cons w ws ih =>
    refine Rel.commitSeq fun x => ?_
    refine Rel.seq ih fun q b hq => ?_
    obtain ⟨h1, h2, h3⟩ := hq
    exact Rel.pure ⟨by rw [h1]; rfl, by rw [h2], h3⟩

theorem commitAllP_builds {g h : V} : ∀ (ws : List (F × F)) (s : PState F V), s.Good →
    Builds g h s (commitAllP g h ws) fun q s' => q.2.length = ws.length ∧ s'.HasAll (q.2.map LC.ofVar) (ws.map Prod.fst) := by
  intro ws
  induction ws with
  | nil => intro s hg; exact Builds.pure hg ⟨rfl, PState.HasAll.nil s⟩
  | cons w ws ih =>
    intro s hg
    refine Builds.bind (Builds.commitP hg) fun c s1 g1 l1 h1 => ?_
    refine Builds.bind (ih s1 g1) fun q s2 g2 l2 h2 => Builds.pure g2 ?_
    exact ⟨by simp [h2.1], PState.HasAll.cons (h1.2.mono l2) h2.2⟩

/-- a prover that commits to the values and blindings `ws` and makes the calls `syn` for the S-boxes -/
def provePoseidonWith (k : Nat) (p : PoseidonParams F) (syn : Nat → LC F → Prog F (Top F (F × F)) Var Var) (g h : V) (ws : List (F × F)) (image : F) :
    Prog F (Top F (F × F)) Var (List V) := do
  let q ← commitAllP g h ws
  let cap ← allocCapP g h (capConst k)
  hashGadget k (roundsConstraints p syn) q.2 cap image
  pure q.1

theorem poseidonWith_complete (O : Transcript F V → F) (tr : Transcript F V) (g h : V) (k : Nat) (p : PoseidonParams F) (sb : Sbox)
    {good : Nat → F → Prop} {f : Nat → F → F} {syn : Nat → LC F → Prog F (Top F (F × F)) Var Var} {idle : Prop} (hs : SboxBuilds g h idle good f syn)
    (hrel : ∀ off l, (syn off l).Rel (TopRel g h) (fun a b => a = b) (synthSbox sb l (p.key off) : Prog F (Top F V) Var Var))
    (hk : k + 1 = p.width) (hk0 : 0 < k)
    (ws : List (F × F)) (hl : ws.length = k) (image : F) (him : (p.rounds f ((capConst k : F) :: ws.map Prod.fst))[1]? = some image)
    (hq : ∀ q ∈ p.sboxInputs f ((capConst k : F) :: ws.map Prod.fst), good q.1 q.2) :
    HonestAccepted O g h tr (provePoseidonWith k p syn g h ws image) (verifyPoseidon k p sb g h image) (ws.map fun w => w.1 • g + w.2 • h) := by
  refine honest_of_builds_new ?_ O tr ?_
  · have hr := commitAllP_rel g h [] ws
    rw [List.append_nil, hl] at hr
    refine Rel.seq hr fun q b hq => ?_
    obtain ⟨h1, h2, -⟩ := hq
    refine Rel.seq (ra := fun a b => a = b) ⟨rfl, fun _ => rfl⟩ fun c _ e => ?_
    subst e
    rw [h2]
    refine Rel.ret ?_ h1
    exact hashGadget_rel k (fun ls => rounds_rel p hrel ls) _ _ _
  · refine Builds.bind (commitAllP_builds ws _ (PState.Good.new tr)) fun q s1 g1 l1 h1 => ?_
    refine Builds.bind (post := fun c s' => s'.Has (LC.ofVar c) (capConst k : F)) ?_ fun c s2 g2 l2 h2 => ?_
    · exact Builds.bind (Builds.commitP g1) fun c s2 g2 l2 h2 => Builds.pure g2 h2.2
    refine Builds.bind (post := fun _ _ => True) ?_ fun _ s7 g7 l7 _ => Builds.pure g7 trivial
    refine Builds.bind (hash_builds k p hs hk hk0 _ _ _ _ (by rw [List.length_map, h1.1, hl]) s2 g2 (fun _ => l2.idle (l1.idle rfl)) (h1.2.mono l2) h2 hq)
      fun o s3 g3 l3 h3 => ?_
    obtain ⟨x, ex, hx⟩ := h3
    rw [him, Option.some.injEq] at ex
    subst ex
    exact Builds.constrainScalar g3 hx

/-- no S-box of the hash of `xs` gets the input 0 -/
def NoZeroInverse (k : Nat) (p : PoseidonParams F) (xs : List F) : Prop :=
  ∀ q ∈ p.sboxInputs (fun off x => Sbox.apply .inverse (x + p.key off)) ((capConst k : F) :: xs), q.2 + p.key q.1 ≠ 0

/-- **C122, completeness.** An honest prover of a preimage is accepted: always with the S-boxes `x^3` and `x^5`, with the inverse S-box if none of its inputs
is 0. -/
theorem poseidon_complete (O : Transcript F V → F) (tr : Transcript F V) (g h : V) (k : Nat) (p : PoseidonParams F) (sb : Sbox) (hk0 : 0 < k)
    (preimage : List F) (blindings rng : Option (List F)) (hb : blindings.isSome ∨ rng.isSome) (hl : (theBlinding [] blindings rng).length = k) (image : F)
    (him : poseidonHash k p sb preimage = .ok image) (hinv : sb = .inverse → NoZeroInverse k p preimage) :
    HonestAccepted O g h tr (provePoseidon k p sb g h preimage blindings image rng) (verifyPoseidon k p sb g h image)
      (List.zipWith (fun x r => x • g + r • h) preimage (theBlinding [] blindings rng)) := by
  obtain ⟨h1, h2, h3⟩ := poseidonHash_eq_ok.1 him
  have hf : (preimage.zip (theBlinding [] blindings rng)).map Prod.fst = preimage := List.map_fst_zip (by omega)
  have key := poseidonWith_complete O tr g h k p sb (synthSbox_builds (g := g) (h := h) sb p) (fun off l => synthSbox_rel sb l (p.key off)) h2 hk0
    (preimage.zip (theBlinding [] blindings rng)) (by rw [List.length_zip, h1, hl, min_self]) image (by rw [hf]; exact h3)
    (by rw [hf]; intro q hq hi; subst hi; exact hinv rfl q hq)
  have e : provePoseidon k p sb g h preimage blindings image rng =
      provePoseidonWith k p (fun off l => synthSbox sb l (p.key off)) g h (preimage.zip (theBlinding [] blindings rng)) image := by
    simp only [provePoseidon, blindingOr_eq hb ([] : List F), pure_seq]
    rw [if_neg (by omega)]
    rfl
  rw [e]
  rw [List.zip, List.map_zipWith] at key
  exact key

/-- the prover's error: the number of inputs or of blindings is wrong -/
theorem poseidon_prover_errors (g h : V) (k : Nat) (p : PoseidonParams F) (sb : Sbox) (preimage bl : List F) (image : F) (rng : Option (List F))
    (s : PState F V) (hw : preimage.length ≠ k ∨ bl.length ≠ k) :
    (provePoseidon k p sb g h preimage (some bl) image rng).runP (PState.top g h) s = .err (.gadget "Both input and blindings should be of the same size") := by
  simp only [provePoseidon, blindingOr, prog_bind, prog_pure, Prog.bind, if_pos hw, Prog.runP]

/-! ## The inverse S-box (C123) -/

/-- the calls of a prover for an inverse S-box that allocates `y⁻¹` and `y`, whatever the input is -/
def cheatSbox (p : PoseidonParams F) (y : Nat → F) (off : Nat) (l : LC F) : Prog F (Top F (F × F)) Var Var :=
  inverseWith l (p.key off) fun _ => some ((y off)⁻¹, y off)

theorem cheat_builds {g h : V} (p : PoseidonParams F) (y : Nat → F) (hy : ∀ i, y i ≠ 0) :
    SboxBuilds g h True (fun _ _ => True) (fun off _ => y off) (cheatSbox p y) :=
  fun off _ _ _ hg hp hl _ => inverseWith_builds hg (hp trivial) hl _ rfl (hy off)

theorem full_const (p : PoseidonParams F) (y : Nat → F) : ∀ (n off : Nat) (s : List F),
    p.full (fun o _ => y o) (n + 1) off s = p.linear ((List.range' (off + n * s.length) s.length).map y) := by
  intro n
  induction n with
  | zero =>
    intro off s
    have : fullSboxF (fun o _ => y o) off s = (List.range' off s.length).map y := by
      rw [← List.zipIdx_map_snd, List.map_map]
      rfl
    simp only [PoseidonParams.full, this, Nat.zero_mul, Nat.add_zero]
  | succ n ih =>
    intro off s
    rw [PoseidonParams.full, ih, linear_length, fullSboxF_length]
    congr 3
    ring

/-- the image that a prover who chooses the outputs `y` of the last S-boxes reaches -/
def chosenImage (p : PoseidonParams F) (y : Nat → F) : F :=
  p.mix ((List.range' ((p.fullBeginning + p.partialRounds + p.fullEnd - 1) * p.width) p.width).map y) 1

/-- **C123.** With the inverse S-box the constraints do not relate the output to the input: a prover who commits to *any* values `ws` and chooses the outputs
`y` of the S-boxes makes a proof that the verifier accepts for the image `chosenImage p y`. -/
theorem inverse_cheat (O : Transcript F V → F) (tr : Transcript F V) (g h : V) (k : Nat) (p : PoseidonParams F) (hk : k + 1 = p.width) (hk0 : 0 < k)
    (hfe : 0 < p.fullEnd) (y : Nat → F) (hy : ∀ i, y i ≠ 0) (ws : List (F × F)) (hl : ws.length = k) :
    HonestAccepted O g h tr (provePoseidonWith k p (cheatSbox p y) g h ws (chosenImage p y)) (verifyPoseidon k p .inverse g h (chosenImage p y))
      (ws.map fun w => w.1 • g + w.2 • h) := by
  refine poseidonWith_complete O tr g h k p .inverse (cheat_builds p y hy) ?_ hk hk0 ws hl _ ?_ fun _ _ => trivial
  · intro off l
    rw [synthSbox_inverse]
    exact inverseWith_rel l _ _ _
  · obtain ⟨n, hn⟩ : ∃ n, p.fullEnd = n + 1 := ⟨p.fullEnd - 1, by omega⟩
    rw [PoseidonParams.rounds, hn, full_const, partials_length, full_length, List.length_cons, List.length_map, hl, hk]
    have e : (p.fullBeginning + p.partialRounds) * p.width + n * p.width = (p.fullBeginning + p.partialRounds + p.fullEnd - 1) * p.width := by
      rw [hn, ← Nat.add_mul]; congr 1
    rw [e, PoseidonParams.linear, List.getElem?_map, List.getElem?_range (by simp; omega)]
    rfl

theorem mix_eq (p : PoseidonParams F) (i : Nat) (y : Nat → F) (off n : Nat) :
    p.mix ((List.range' off n).map y) i = ∑ j ∈ Finset.range n, y (off + j) * p.entry j i := by
  have key : ∀ (n off k : Nat), ((((List.range' off n).map y).zipIdx k).map fun q => q.1 * p.entry q.2 i).sum =
      ∑ j ∈ Finset.range n, y (off + j) * p.entry (k + j) i := by
    intro n
    induction n with
    | zero => intro off k; simp
    | succ n ih =>
      intro off k
      simp only [List.range'_succ, List.map_cons, List.zipIdx_cons, List.sum_cons, ih, Finset.sum_range_succ']
      rw [add_comm]
      congr 1
      exact Finset.sum_congr rfl fun j _ => by rw [show off + 1 + j = off + (j + 1) by omega, show k + 1 + j = k + (j + 1) by omega]
  have := key n off 0
  simp only [Nat.zero_add] at this
  exact this

/-- every image is such an image, if two entries `a < b` of the second column of the matrix are not 0 (and 2 ≠ 0 in the field) -/
theorem chosenImage_any (p : PoseidonParams F) (h2 : (2 : F) ≠ 0) (a b : Nat) (hab : a < b) (hb : b < p.width) (ha0 : p.entry a 1 ≠ 0)
    (hb0 : p.entry b 1 ≠ 0) (image : F) : ∃ y : Nat → F, (∀ i, y i ≠ 0) ∧ chosenImage p y = image := by
  simp only [chosenImage, mix_eq]
  generalize (p.fullBeginning + p.partialRounds + p.fullEnd - 1) * p.width = off
  generalize hc : ∑ j ∈ (Finset.range p.width).erase a |>.erase b, p.entry j 1 = c
  obtain ⟨z, hz, hz'⟩ : ∃ z : F, z ≠ 0 ∧ image - c - z * p.entry b 1 ≠ 0 := by
    by_cases h1 : image - c - 1 * p.entry b 1 = 0
    · refine ⟨2, h2, fun h3 => hb0 ?_⟩
      linear_combination h1 - h3
    · exact ⟨1, one_ne_zero, h1⟩
  refine ⟨fun i => if i = off + a then (image - c - z * p.entry b 1) / p.entry a 1 else if i = off + b then z else 1, fun i => ?_, ?_⟩
  · simp only
    split
    · exact div_ne_zero hz' ha0
    · split
      · exact hz
      · exact one_ne_zero
  · have ma : a ∈ Finset.range p.width := Finset.mem_range.2 (by omega)
    have mb : b ∈ (Finset.range p.width).erase a := Finset.mem_erase.2 ⟨by omega, Finset.mem_range.2 hb⟩
    rw [← Finset.add_sum_erase _ _ ma, ← Finset.add_sum_erase _ _ mb]
    have e : ∑ x ∈ ((Finset.range p.width).erase a).erase b,
        (if off + x = off + a then (image - c - z * p.entry b 1) / p.entry a 1 else if off + x = off + b then z else 1) * p.entry x 1 = c := by
      rw [← hc]
      refine Finset.sum_congr rfl fun x hx => ?_
      have h3 := (Finset.mem_erase.1 hx).1
      have h4 := (Finset.mem_erase.1 (Finset.mem_erase.1 hx).2).1
      rw [if_neg (by omega), if_neg (by omega), one_mul]
    rw [e]
    beta_reduce
    rw [if_pos rfl, if_neg (by omega), if_pos rfl, div_mul_cancel₀ _ ha0]
    ring

/-- **C123, every image**: if two entries `a < b` of the second column of the matrix are not 0, the verifier of the inverse S-box accepts a proof for *every*
image and *all* committed values. -/
theorem inverse_accepts_any (O : Transcript F V → F) (tr : Transcript F V) (g h : V) (k : Nat) (p : PoseidonParams F) (hk : k + 1 = p.width) (hk0 : 0 < k)
    (hfe : 0 < p.fullEnd) (h2 : (2 : F) ≠ 0) (a b : Nat) (hab : a < b) (hb : b < p.width) (ha0 : p.entry a 1 ≠ 0) (hb0 : p.entry b 1 ≠ 0)
    (ws : List (F × F)) (hl : ws.length = k) (image : F) :
    ∃ P, HonestAccepted O g h tr P (verifyPoseidon k p .inverse g h image) (ws.map fun w => w.1 • g + w.2 • h) := by
  obtain ⟨y, hy, rfl⟩ := chosenImage_any p h2 a b hab hb ha0 hb0 image
  exact ⟨_, inverse_cheat O tr g h k p hk hk0 hfe y hy ws hl⟩

/-- **C123**: the verifier panics if a multiplier is pending when an inverse S-box is added (the session made an odd number of single allocations). -/
theorem inverse_pending_panics (l : LC F) (c : F) (t : VState F V) (i : Nat) (hp : t.pending = some i) :
    (synthSbox .inverse l c : Prog F (Top F V) Var Var).runV VState.top t = .panic := by
  simp only [synthSbox, csEvalLc, csAllocSingle, prog_bind, Prog.bind, Prog.runV, VState.allocate, hp, Prog.runV_bind, isNonzeroGadget, csMultiply, csConstrain,
    Res.bind]

theorem allocSingle_imposes {A : Asg F} (a : Option F) : Imposes V A (csAllocSingle a) fun _ => True := by
  intro t b t' e s
  refine ⟨?_, trivial⟩
  simp only [csAllocSingle, Prog.runV, VState.allocate] at e
  cases hp : t.pending with
  | none => rw [hp] at e; simp only [Prog.runV, Res.ok.injEq, Prod.mk.injEq] at e; rw [← e.2]
  | some i => rw [hp] at e; simp only [Prog.runV, Res.ok.injEq, Prod.mk.injEq] at e; rw [← e.2]

/-- what does hold with the inverse S-box: its output is not 0 -/
theorem inverse_imposes {A : Asg F} (l : LC F) (c : F) : Imposes V A (synthSbox .inverse l c) fun v => A.val v ≠ 0 := by
  refine Imposes.bind (Imposes.evalLc _) fun v hv => ?_
  refine Imposes.bind (allocSingle_imposes _) fun a _ => ?_
  refine Imposes.bind (allocSingle_imposes _) fun b _ => ?_
  refine Imposes.bind (nonzero_imposes _ _) fun _ hn => ?_
  cases e : b.2 with
  | none => exact Imposes.panic
  | some o =>
    refine Imposes.bind (Imposes.constrainScalar _ _) fun _ _ => Imposes.pure fun h0 => ?_
    rw [h0, mul_zero] at hn
    exact zero_ne_one hn

/-! ## Concrete sessions -/

open Verif.Toy in
/-- parameters of width 3, with one full round, one partial round and one full round, in the field with 101 elements -/
def toyPoseidon : PoseidonParams (ZMod 101) := ⟨3, 1, 1, 1, [1, 2, 3, 4, 5, 6, 7, 8, 9], [[2, 3, 5], [7, 11, 13], [17, 19, 23]]⟩

open Verif.Toy in
example : PoseidonParams.new (fun _ => [1, 2, 3, 4, 5, 6, 7, 8, 9, 10]) (fun _ => [[2, 3, 5], [7, 11, 13], [17, 19, 23]]) 3 1 1 1 = .ok toyPoseidon := rfl

open Verif.Toy in
/-- C122: the hypotheses of the completeness theorem, and so those of the soundness theorem, are met -/
example : ∃ image, poseidonHash 2 toyPoseidon .cube [4, 5] = .ok image ∧
    ∃ Cs t A, (verifyPoseidon (F := ZMod 101) (V := ZMod 101) 2 toyPoseidon .cube 2 3 image Cs).runV VState.top (VState.new []) = .ok ((), t) ∧
      Sat t.numVars t.cons A := by
  obtain ⟨y, hy, -⟩ := poseidonHash_ok 2 toyPoseidon .cube [4, 5] rfl (by decide) rfl
  exact ⟨y, hy, _, met_of_honest (poseidon_complete (fun _ => 1) [] (2 : ZMod 101) 3 2 toyPoseidon .cube (by decide) [4, 5] (some [7, 8]) none (.inl rfl) rfl y hy
    (by simp))⟩

open Verif.Toy in
/-- C122: inputs for which no inverse S-box gets 0 -/
example : NoZeroInverse 2 toyPoseidon [4, 5] := by
  unfold NoZeroInverse
  decide +kernel

open Verif.Toy in
/-- C123: the verifier accepts 77 as the hash of 4 and 5 — and of 6 and 7 — with the inverse S-box, although the hashes are others -/
example (O : Transcript (ZMod 101) (ZMod 101) → ZMod 101) : (∃ P, HonestAccepted O (2 : ZMod 101) 3 [] P (verifyPoseidon 2 toyPoseidon .inverse 2 3 77) [4 * 2 + 7 * 3, 5 * 2 + 8 * 3]) ∧
    (∃ P, HonestAccepted O (2 : ZMod 101) 3 [] P (verifyPoseidon 2 toyPoseidon .inverse 2 3 77) [6 * 2 + 7 * 3, 7 * 2 + 8 * 3]) ∧
    poseidonHash 2 toyPoseidon .inverse [4, 5] ≠ .ok 77 ∧ poseidonHash 2 toyPoseidon .inverse [6, 7] ≠ .ok 77 :=
  ⟨inverse_accepts_any O [] 2 3 2 toyPoseidon rfl (by decide) (by decide) (by decide) 0 1 (by decide) (by decide) (by decide) (by decide) [(4, 7), (5, 8)] rfl 77,
    inverse_accepts_any O [] 2 3 2 toyPoseidon rfl (by decide) (by decide) (by decide) 0 1 (by decide) (by decide) (by decide) (by decide) [(6, 7), (7, 8)] rfl 77,
    fun h => by rw [poseidonHash_eq_ok] at h; revert h; decide +kernel, fun h => by rw [poseidonHash_eq_ok] at h; revert h; decide +kernel⟩

end Verif.BP
