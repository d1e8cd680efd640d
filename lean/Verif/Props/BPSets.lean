import Verif.Props.BPGadgets
set_option linter.unusedSectionVars false
set_option linter.unusedSimpArgs false
set_option linter.unusedVariables false
/-!
# Gadgets: values that are not zero (C117), set membership (C118), set non-membership (C119), the alternative set membership (C120), MiMC (C121)
-/
namespace Verif.BP
variable {F V : Type} [Field F] [AddCommGroup V] [Module F V] [DecidableEq F] [DecidableEq V]

/-! ## Values that are not zero (C117) -/

theorem nonzero_imposes {A : Asg F} (x y : Var) : Imposes V A (isNonzeroGadget x y) fun _ => A.val x * A.val y = 1 := by
  refine Imposes.bind (Imposes.multiply _ _) fun q h1 => ?_
  refine Imposes.bind (Imposes.constrain _) fun _ _ => ?_
  refine Imposes.bind (Imposes.multiply _ _) fun q h2 => ?_
  refine (Imposes.constrain _).mono fun _ h3 => ?_
  simp only [lc_sub, lc_ofVar, lc_ofScalar, lc_cons, lc_nil] at h2 h3
  have := h2.2.2
  linear_combination h3 - this

theorem nonzero_builds {g h : V} (x y : Var) (a : F) (ha : a ≠ 0) {s : PState F V} (hg : s.Good) (hx : s.Has (LC.ofVar x) a)
    (hy : s.Has (LC.ofVar y) a⁻¹) : Builds g h s (isNonzeroGadget x y) fun _ _ => True := by
  refine Builds.bind (Builds.multiply hg hx ((PState.Has.one s).sub (PState.Has.scalar s 1))) fun q s1 g1 l1 h1 => ?_
  refine Builds.bind (Builds.constrain g1 (h1.2.2.congr (by ring))) fun _ s2 g2 l2 _ => ?_
  refine Builds.bind (Builds.multiply g2 (hx.mono (l1.trans l2)) ((hy.mono (l1.trans l2)).single 1)) fun q s3 g3 l3 h3 => ?_
  refine Builds.constrain g3 ((h3.2.2.sub (PState.Has.scalar s3 1)).congr ?_)
  field_simp; ring

theorem nonzero_rel {T T' R : Type} {re : T → T' → Prop} (x y : Var) :
    (isNonzeroGadget x y : Prog F T R _).Rel re (fun a b => a = b) (isNonzeroGadget x y : Prog F T' R _) := by
  refine Rel.seq (Rel.multiply _ _) fun q _ e => ?_
  subst e
  refine Rel.seq (Rel.constrain _) fun _ _ _ => ?_
  refine Rel.seq (Rel.multiply _ _) fun q _ e => ?_
  subst e
  exact Rel.constrain _

/-- **C117, soundness.** Values that satisfy the constraints of `verify_non_zero_val(commitments)`: the value committed in the first commitment is not 0. -/
theorem nonZero_sound (Cs : List V) (t0 t : VState F V) (run : (verifyNonZero Cs).runV VState.top t0 = .ok ((), t)) (A : Asg F)
    (sat : Sat t.numVars t.cons A) : t.V[t0.V.length]? = Cs[0]? ∧ 2 ≤ Cs.length ∧ A.v t0.V.length ≠ 0 := by
  have key : ImposesAt A t0 (verifyNonZero (F := F) Cs) fun _ t => t.V[t0.V.length]? = Cs[0]? ∧ 2 ≤ Cs.length ∧ A.v t0.V.length ≠ 0 := by
    refine ImposesAt.bind (ImposesAt.commitFirst fun C Cs1 t1 e1 hV1 => ?_)
    refine ImposesAt.bind (ImposesAt.commitFirst fun C2 Cs2 t2 e2 hV2 => ?_)
    refine (nonzero_imposes _ _).at t2 fun _ t4 hV4 hq => ?_
    simp only at e2
    refine ⟨by rw [hV4, hV2, hV1, e1]; simp, by rw [e1, e2]; simp, fun h0 => ?_⟩
    have h0' : A.val (.committed t0.V.length) = 0 := h0
    rw [h0', zero_mul] at hq
    exact zero_ne_one hq
  exact key () t run sat

/-- **C117, completeness.** An honest prover of a value that is not 0 is accepted. -/
theorem nonZero_complete (O : Transcript F V → F) (tr : Transcript F V) (g h : V) (value : F) (blinding rng : Option F) (r : F)
    (hb : blinding.isSome ∨ rng.isSome) (hv : value ≠ 0) :
    HonestAccepted O g h tr (proveNonZero g h value blinding rng r) verifyNonZero
      [value • g + theBlinding 0 blinding rng • h, value⁻¹ • g + r • h] := by
  simp only [proveNonZero, blindingOr_eq hb (0 : F), pure_seq]
  refine honest_of_builds ?_ ?_ O tr
  · refine Rel.commitSeq fun _ => Rel.commitSeq fun _ => ?_
    exact Rel.ret (nonzero_rel _ _) rfl
  · intro s hg
    refine Builds.bind (Builds.commitP hg) fun cv s4 g4 l4 hv' => ?_
    refine Builds.bind (Builds.commitP g4) fun ca s5 g5 l5 ha => ?_
    refine Builds.bind (post := fun _ _ => True) ?_ fun _ s7 g7 l7 _ => Builds.pure g7 trivial
    exact nonzero_builds _ _ value hv g5 (hv'.2.mono l5) ha.2

/-! ## Set membership (C118) -/

theorem setMemLoop_imposes {A : Asg F} (v : Var) (set : List F) : ∀ (ds : List Var) (prod : LC F),
    Imposes V A (setMemLoop v set ds prod) fun prod' => A.lc prod' = A.lc prod * (set.map (· - A.val v)).prod := by
  induction set with
  | nil => intro ds prod; exact Imposes.pure (by simp)
  | cons a set ih =>
    intro ds prod
    cases ds with
    | nil => exact Imposes.panic
    | cons d ds =>
      refine Imposes.bind (Imposes.constrainScalar _ _) fun _ h1 => ?_
      refine Imposes.bind (Imposes.multiply _ _) fun q h2 => ?_
      refine (ih ds _).mono fun prod' h3 => ?_
      simp only [lc_add, lc_ofVar] at h1 h2 h3
      rw [h3, h2.2.2, List.map_cons, List.prod_cons, ← h1]
      ring

theorem setMembership_imposes {A : Asg F} (v : Var) (ds : List Var) (set : List F) :
    Imposes V A (setMembershipGadget v ds set) fun _ => A.val v ∈ set := by
  refine Imposes.bind (setMemLoop_imposes v set ds _) fun prod h1 => ?_
  refine (Imposes.constrain _).mono fun _ h2 => ?_
  rw [h1, lc_ofVar] at h2
  have h0 : (set.map (· - A.val v)).prod = 0 := by simpa [Asg.val] using h2
  rw [List.prod_eq_zero_iff, List.mem_map] at h0
  obtain ⟨a, ha, e⟩ := h0
  rw [← sub_eq_zero.1 e]; exact ha

/-- **C118, soundness.** Values that satisfy the constraints of `verify_set_membership(set, commitments)`: the value committed in the first commitment is in
the set (so nothing satisfies them for the empty set). -/
theorem setMembership_sound (set : List F) (Cs : List V) (t0 t : VState F V) (run : (verifySetMembership set Cs).runV VState.top t0 = .ok ((), t))
    (A : Asg F) (sat : Sat t.numVars t.cons A) : t.V[t0.V.length]? = Cs[0]? ∧ Cs ≠ [] ∧ A.v t0.V.length ∈ set := by
  have key : ImposesAt A t0 (verifySetMembership set Cs) fun _ t => t.V[t0.V.length]? = Cs[0]? ∧ Cs ≠ [] ∧ A.v t0.V.length ∈ set := by
    refine ImposesAt.bind (ImposesAt.commitFirst fun C Cs1 t1 e1 hV1 => ?_)
    refine ImposesAt.bind ((ImposesAt.any _).mono fun q t2 _ le2 => ?_)
    refine (setMembership_imposes _ _ _).at t2 fun _ t4 hV4 hq => ?_
    have := le2.V
    rw [hV1] at this
    exact ⟨by rw [hV4, prefix_at this, e1]; rfl, by rw [e1]; simp, hq⟩
  exact key () t run sat

/-- the commitments to the differences -/
def diffCommitments (g h : V) (value : F) (bl : Nat → F) (i : Nat) (set : List F) : List V :=
  (set.zipIdx i).map fun q => (q.1 - value) • g + bl q.2 • h

theorem commitDiffs_rel (g h : V) (value : F) (bl : Nat → F) (rest : List V) (set : List F) : ∀ i,
    (commitDiffs g h value bl i set).Rel (TopRel g h) (fun a b => a.1 = diffCommitments g h value bl i set ∧ a.2 = b.1)
      (commitMany set.length (diffCommitments g h value bl i set ++ rest)) := by
  induction set with
  | nil => intro i; exact Rel.pure ⟨rfl, rfl⟩
  | cons a set ih =>
    intro i
    refine Rel.commitSeq (Cs := diffCommitments g h value bl (i + 1) set ++ rest) fun x => ?_
    refine Rel.seq (ih (i + 1)) fun q q' hq => Rel.pure ⟨?_, ?_⟩
    · simp only [hq.1]; rfl
    · simp only [hq.2]

theorem commitDiffs_builds {g h : V} (value : F) (bl : Nat → F) (set : List F) : ∀ (i : Nat) (s : PState F V), s.Good →
    Builds g h s (commitDiffs g h value bl i set) fun q s' => List.Forall₂ (fun x a => s'.Has (LC.ofVar x) (a - value)) q.2 set := by
  induction set with
  | nil => intro i s hg; exact Builds.pure hg .nil
  | cons a set ih =>
    intro i s hg
    refine Builds.bind (Builds.commitP hg) fun c s1 g1 l1 h1 => ?_
    refine Builds.bind (ih (i + 1) s1 g1) fun q s2 g2 l2 h2 => ?_
    exact Builds.pure g2 (.cons (h1.2.mono l2) h2)

theorem setMemLoop_builds {g h : V} (v : Var) (x : F) (set : List F) : ∀ (ds : List Var) (prod : LC F) (c : F) (s : PState F V), s.Good →
    s.Has (LC.ofVar v) x → List.Forall₂ (fun d a => s.Has (LC.ofVar d) (a - x)) ds set → s.Has prod c →
    Builds g h s (setMemLoop v set ds prod) fun prod' s' => s'.Has prod' (c * (set.map (· - x)).prod) := by
  induction set with
  | nil => intro ds prod c s hg hv hd hc; exact Builds.pure hg (hc.congr (by simp))
  | cons a set ih =>
    intro ds prod c s hg hv hd hc
    cases hd with
    | @cons d _ ds _ hd1 hd =>
      refine Builds.bind (Builds.constrainScalar hg ((hd1.add hv).congr (by ring))) fun _ s1 g1 l1 _ => ?_
      refine Builds.bind (Builds.multiply g1 (hc.mono l1) (hd1.mono l1)) fun q s2 g2 l2 h2 => ?_
      refine (ih ds _ _ s2 g2 (hv.mono (l1.trans l2)) (hd.imp fun _ _ hh => hh.mono (l1.trans l2)) h2.2.2).mono fun prod' s' _ _ hh => hh.congr ?_
      rw [List.map_cons, List.prod_cons]; ring

theorem setMemLoop_rel {T T' R : Type} {re : T → T' → Prop} (v : Var) (set : List F) : ∀ (ds : List Var) (prod : LC F),
    (setMemLoop v set ds prod : Prog F T R _).Rel re (fun a b => a = b) (setMemLoop v set ds prod : Prog F T' R _) := by
  induction set with
  | nil => intro ds prod; exact Rel.pure rfl
  | cons a set ih =>
    intro ds prod
    cases ds with
    | nil => trivial
    | cons d ds =>
      refine Rel.seq (Rel.constrain _) fun _ _ _ => ?_
      refine Rel.seq (Rel.multiply _ _) fun q _ e => ?_
      subst e
      exact ih _ _

/-- **C118, completeness.** An honest prover of a value in the set is accepted. -/
theorem setMembership_complete (O : Transcript F V → F) (tr : Transcript F V) (g h : V) (value : F) (set : List F) (blinding rng : Option F) (bl : Nat → F)
    (hb : blinding.isSome ∨ rng.isSome) (hv : value ∈ set) :
    HonestAccepted O g h tr (proveSetMembership g h value blinding set rng bl) (verifySetMembership set)
      ((value • g + theBlinding 0 blinding rng • h) :: diffCommitments g h value bl 0 set) := by
  simp only [proveSetMembership, blindingOr_eq hb (0 : F), pure_seq]
  refine honest_of_builds ?_ ?_ O tr
  · refine Rel.commitSeq (Cs := diffCommitments g h value bl 0 set) fun x => ?_
    have := commitDiffs_rel g h value bl [] set 0
    rw [List.append_nil] at this
    refine Rel.seq this fun q q' hq => ?_
    refine Rel.ret ?_ (by rw [hq.1])
    rw [hq.2]
    refine Rel.seq (setMemLoop_rel _ _ _ _) fun q _ e => ?_
    subst e
    exact Rel.constrain _
  · intro s hg
    refine Builds.bind (Builds.commitP hg) fun c s1 g1 l1 h1 => ?_
    refine Builds.bind (commitDiffs_builds value bl set 0 s1 g1) fun q s2 g2 l2 h2 => ?_
    refine Builds.bind (post := fun _ _ => True) ?_ fun _ s7 g7 l7 _ => Builds.pure g7 trivial
    refine Builds.bind (setMemLoop_builds _ value set q.2 _ 1 s2 g2 (h1.2.mono l2) h2 (PState.Has.one s2)) fun prod s3 g3 l3 h3 => ?_
    refine Builds.constrain g3 (h3.congr ?_)
    rw [one_mul, List.prod_eq_zero_iff, List.mem_map]
    exact ⟨value, hv, sub_self _⟩

/-! ## Set non-membership (C119) -/

theorem setNonMem_imposes {A : Asg F} (v : Var) (set : List F) : ∀ (ds is : List Var),
    Imposes V A (setNonMembershipGadget v set ds is) fun _ => A.val v ∉ set := by
  induction set with
  | nil => intro ds is; exact Imposes.pure (by simp)
  | cons a set ih =>
    intro ds is
    cases ds with
    | nil => exact Imposes.panic
    | cons d ds =>
      refine Imposes.bind (Imposes.constrainScalar _ _) fun _ h1 => ?_
      cases is with
      | nil => exact Imposes.panic
      | cons i is =>
        refine Imposes.bind (nonzero_imposes _ _) fun _ h2 => ?_
        refine (ih ds is).mono fun _ h3 => ?_
        simp only [lc_add, lc_ofVar] at h1
        simp only [List.mem_cons, not_or]
        refine ⟨fun e => ?_, h3⟩
        have : A.val d = 0 := by rw [e] at h1; linear_combination h1
        rw [this, zero_mul] at h2
        exact zero_ne_one h2

/-- **C119, soundness.** Values that satisfy the constraints of `verify_set_non_membership(set, commitments)`: the value committed in the first commitment
is not in the set. -/
theorem setNonMembership_sound (set : List F) (Cs : List V) (t0 t : VState F V)
    (run : (verifySetNonMembership set Cs).runV VState.top t0 = .ok ((), t)) (A : Asg F) (sat : Sat t.numVars t.cons A) :
    t.V[t0.V.length]? = Cs[0]? ∧ Cs ≠ [] ∧ A.v t0.V.length ∉ set := by
  have key : ImposesAt A t0 (verifySetNonMembership set Cs) fun _ t => t.V[t0.V.length]? = Cs[0]? ∧ Cs ≠ [] ∧ A.v t0.V.length ∉ set := by
    refine ImposesAt.bind (ImposesAt.commitFirst fun C Cs1 t1 e1 hV1 => ?_)
    refine ImposesAt.bind ((ImposesAt.any _).mono fun q t2 _ le2 => ?_)
    refine (setNonMem_imposes _ _ _ _).at t2 fun _ t4 hV4 hq => ?_
    have := le2.V
    rw [hV1] at this
    exact ⟨by rw [hV4, prefix_at this, e1]; rfl, by rw [e1]; simp, hq⟩
  exact key () t run sat

/-- the commitments to the differences and their inverses -/
def diffInvCommitments (g h : V) (value : F) (bl : Nat → F) (i : Nat) (set : List F) : List V :=
  (set.zipIdx i).flatMap fun q => [(q.1 - value) • g + bl (2 * q.2) • h, (q.1 - value)⁻¹ • g + bl (2 * q.2 + 1) • h]

theorem commitDiffsInv_rel (g h : V) (value : F) (bl : Nat → F) (rest : List V) (set : List F) : ∀ i,
    (commitDiffsInv g h value bl i set).Rel (TopRel g h) (fun a b => a.1 = diffInvCommitments g h value bl i set ∧ a.2.1 = b.1 ∧ a.2.2 = b.2)
      (commitPairs set.length (diffInvCommitments g h value bl i set ++ rest)) := by
  induction set with
  | nil => intro i; exact Rel.pure ⟨rfl, rfl, rfl⟩
  | cons a set ih =>
    intro i
    refine Rel.commitSeq (Cs := _ :: (diffInvCommitments g h value bl (i + 1) set ++ rest)) fun x => ?_
    refine Rel.commitSeq (Cs := diffInvCommitments g h value bl (i + 1) set ++ rest) fun x => ?_
    refine Rel.seq (ih (i + 1)) fun q q' hq => Rel.pure ⟨?_, ?_, ?_⟩
    · simp only [hq.1]; rfl
    · simp only [hq.2.1]
    · simp only [hq.2.2]

theorem commitDiffsInv_builds {g h : V} (value : F) (bl : Nat → F) (set : List F) : ∀ (i : Nat) (s : PState F V), s.Good →
    Builds g h s (commitDiffsInv g h value bl i set) fun q s' => List.Forall₂ (fun x a => s'.Has (LC.ofVar x) (a - value)) q.2.1 set ∧
      List.Forall₂ (fun x a => s'.Has (LC.ofVar x) (a - value)⁻¹) q.2.2 set := by
  induction set with
  | nil => intro i s hg; exact Builds.pure hg ⟨.nil, .nil⟩
  | cons a set ih =>
    intro i s hg
    refine Builds.bind (Builds.commitP hg) fun c s1 g1 l1 h1 => ?_
    refine Builds.bind (Builds.commitP g1) fun d s2 g2 l2 h2 => ?_
    refine Builds.bind (ih (i + 1) s2 g2) fun q s3 g3 l3 h3 => ?_
    exact Builds.pure g3 ⟨.cons (h1.2.mono (l2.trans l3)) h3.1, .cons (h2.2.mono l3) h3.2⟩

theorem setNonMem_builds {g h : V} (v : Var) (x : F) (set : List F) : ∀ (ds is : List Var) (s : PState F V), s.Good → x ∉ set →
    s.Has (LC.ofVar v) x → List.Forall₂ (fun d a => s.Has (LC.ofVar d) (a - x)) ds set →
    List.Forall₂ (fun d a => s.Has (LC.ofVar d) (a - x)⁻¹) is set → Builds g h s (setNonMembershipGadget v set ds is) fun _ _ => True := by
  induction set with
  | nil => intro ds is s hg hx hv hd hi; exact Builds.pure hg trivial
  | cons a set ih =>
    intro ds is s hg hx hv hd hi
    cases hd with
    | @cons d _ ds _ hd1 hd =>
      cases hi with
      | @cons i _ is _ hi1 hi =>
        simp only [List.mem_cons, not_or] at hx
        refine Builds.bind (Builds.constrainScalar hg ((hd1.add hv).congr (by ring))) fun _ s1 g1 l1 _ => ?_
        refine Builds.bind (nonzero_builds _ _ (a - x) (fun e => hx.1 (sub_eq_zero.1 e).symm) g1 (hd1.mono l1) (hi1.mono l1)) fun _ s2 g2 l2 _ => ?_
        exact ih ds is s2 g2 hx.2 (hv.mono (l1.trans l2)) (hd.imp fun _ _ hh => hh.mono (l1.trans l2)) (hi.imp fun _ _ hh => hh.mono (l1.trans l2))

theorem setNonMem_rel {T T' R : Type} {re : T → T' → Prop} (v : Var) (set : List F) : ∀ (ds is : List Var),
    (setNonMembershipGadget v set ds is : Prog F T R _).Rel re (fun a b => a = b) (setNonMembershipGadget v set ds is : Prog F T' R _) := by
  induction set with
  | nil => intro ds prod; exact Rel.pure rfl
  | cons a set ih =>
    intro ds is
    cases ds with
    | nil => trivial
    | cons d ds =>
      refine Rel.seq (Rel.constrain _) fun _ _ _ => ?_
      cases is with
      | nil => trivial
      | cons i is =>
        refine Rel.seq (nonzero_rel _ _) fun _ _ _ => ?_
        exact ih _ _

/-- **C119, completeness.** An honest prover of a value that is not in the set is accepted. -/
theorem setNonMembership_complete (O : Transcript F V → F) (tr : Transcript F V) (g h : V) (value : F) (set : List F) (blinding rng : Option F)
    (bl : Nat → F) (hb : blinding.isSome ∨ rng.isSome) (hv : value ∉ set) :
    HonestAccepted O g h tr (proveSetNonMembership g h value blinding set rng bl) (verifySetNonMembership set)
      ((value • g + theBlinding 0 blinding rng • h) :: diffInvCommitments g h value bl 0 set) := by
  simp only [proveSetNonMembership, blindingOr_eq hb (0 : F), pure_seq]
  refine honest_of_builds ?_ ?_ O tr
  · refine Rel.commitSeq (Cs := diffInvCommitments g h value bl 0 set) fun x => ?_
    have := commitDiffsInv_rel g h value bl [] set 0
    rw [List.append_nil] at this
    refine Rel.seq this fun q q' hq => ?_
    refine Rel.ret ?_ (by rw [hq.1])
    rw [hq.2.1, hq.2.2]
    exact setNonMem_rel _ _ _ _
  · intro s hg
    refine Builds.bind (Builds.commitP hg) fun c s1 g1 l1 h1 => ?_
    refine Builds.bind (commitDiffsInv_builds value bl set 0 s1 g1) fun q s2 g2 l2 h2 => ?_
    refine Builds.bind (post := fun _ _ => True) ?_ fun _ s7 g7 l7 _ => Builds.pure g7 trivial
    exact setNonMem_builds _ value set _ _ s2 g2 hv (h1.2.mono l2) h2.1 h2.2

/-! ## MiMC (C121) -/

theorem mimc_imposes {A : Asg F} (cs : List F) : ∀ l r : LC F, Imposes V A (enforceMimc l r cs) fun o => A.lc o = mimc (A.lc l) (A.lc r) cs := by
  induction cs with
  | nil => intro l r; exact Imposes.pure rfl
  | cons c cs ih =>
    intro l r
    refine Imposes.bind (Imposes.multiply _ _) fun q h1 => ?_
    refine Imposes.bind (Imposes.multiply _ _) fun q' h2 => ?_
    refine (ih _ _).mono fun o h3 => ?_
    rw [h3, mimc]
    simp only [lc_add, lc_ofVar, lc_cons, lc_nil] at h1 h2 ⊢
    rw [h2.2.2, h1.2.2, h1.1]
    simp only [Asg.val]
    congr 1
    ring

theorem mimc_builds {g h : V} (cs : List F) : ∀ (l r : LC F) (x y : F) (s : PState F V), s.Good → s.Has l x → s.Has r y →
    Builds g h s (enforceMimc l r cs) fun o s' => s'.Has o (mimc x y cs) := by
  induction cs with
  | nil => intro l r x y s hg hl hr; exact Builds.pure hg hl
  | cons c cs ih =>
    intro l r x y s hg hl hr
    have h0 := hl.add ((PState.Has.one s).single c)
    refine Builds.bind (Builds.multiply hg h0 h0) fun q s1 g1 l1 h1 => ?_
    refine Builds.bind (Builds.multiply g1 h1.2.2 h1.1) fun q' s2 g2 l2 h2 => ?_
    have := ih _ _ _ _ s2 g2 (h2.2.2.add (hr.mono (l1.trans l2))) (hl.mono (l1.trans l2))
    rw [mul_one] at this
    exact this

theorem mimc_rel {T T' R : Type} {re : T → T' → Prop} (cs : List F) : ∀ l r : LC F,
    (enforceMimc l r cs : Prog F T R _).Rel re (fun a b => a = b) (enforceMimc l r cs : Prog F T' R _) := by
  induction cs with
  | nil => intro l r; exact Rel.pure rfl
  | cons c cs ih =>
    intro l r
    refine Rel.seq (Rel.multiply _ _) fun q _ e => ?_
    subst e
    refine Rel.seq (Rel.multiply _ _) fun q _ e => ?_
    subst e
    exact ih _ _

/-- **C121, soundness.** Values that satisfy the constraints of `verify_mimc_preimage(image, constants, commitments)`: `image` is the MiMC hash of the values
committed in the first two commitments. -/
theorem mimc_sound (image : F) (constants : List F) (Cs : List V) (t0 t : VState F V)
    (run : (verifyMimc image constants Cs).runV VState.top t0 = .ok ((), t)) (A : Asg F) (sat : Sat t.numVars t.cons A) :
    t.V[t0.V.length]? = Cs[0]? ∧ t.V[t0.V.length + 1]? = Cs[1]? ∧ 2 ≤ Cs.length ∧ mimc (A.v t0.V.length) (A.v (t0.V.length + 1)) constants = image := by
  have key : ImposesAt A t0 (verifyMimc image constants Cs) fun _ t => t.V[t0.V.length]? = Cs[0]? ∧ t.V[t0.V.length + 1]? = Cs[1]? ∧ 2 ≤ Cs.length ∧
      mimc (A.v t0.V.length) (A.v (t0.V.length + 1)) constants = image := by
    refine ImposesAt.bind (ImposesAt.commitFirst fun C Cs1 t1 e1 hV1 => ?_)
    refine ImposesAt.bind (ImposesAt.commitFirst fun C2 Cs2 t2 e2 hV2 => ?_)
    have : Imposes V A (mimcGadget (LC.ofVar (.committed t0.V.length)) (LC.ofVar (.committed t1.V.length)) constants image) fun _ =>
        mimc (A.v t0.V.length) (A.v t1.V.length) constants = image := by
      refine Imposes.bind (mimc_imposes _ _ _) fun o h1 => ?_
      refine (Imposes.constrainScalar _ _).mono fun _ h2 => ?_
      rw [h1, lc_ofVar, lc_ofVar] at h2
      exact h2
    refine this.at t2 fun _ t4 hV4 hq => ?_
    simp only at e2
    have el : t1.V.length = t0.V.length + 1 := by rw [hV1]; simp
    rw [el] at hq
    refine ⟨by rw [hV4, hV2, hV1, e1]; simp, by rw [hV4, hV2, ← el, e1, e2]; simp, by rw [e1, e2]; simp, hq⟩
  exact key () t run sat

/-- **C121, completeness.** An honest prover of a preimage is accepted. -/
theorem mimc_complete (O : Transcript F V → F) (tr : Transcript F V) (g h : V) (a b ra rb : F) (constants : List F) :
    HonestAccepted O g h tr (proveMimc g h [a, b] (some [ra, rb]) (mimc a b constants) constants none) (verifyMimc (mimc a b constants) constants)
      [a • g + ra • h, b • g + rb • h] ∧
    HonestAccepted O g h tr (proveMimc g h [a, b] none (mimc a b constants) constants (some (ra, rb))) (verifyMimc (mimc a b constants) constants)
      [a • g + ra • h, b • g + rb • h] := by
  refine ⟨?_, ?_⟩ <;>
  · refine honest_of_builds ?_ ?_ O tr
    · refine Rel.commitSeq fun _ => Rel.commitSeq fun _ => ?_
      refine Rel.ret ?_ rfl
      refine Rel.seq (mimc_rel _ _ _) fun q _ e => ?_
      subst e
      exact Rel.constrain _
    · intro s hg
      refine Builds.bind (Builds.pure hg (post := fun q s' => q = [ra, rb]) rfl) fun q s0 g0 l0 e => ?_
      subst e
      refine Builds.bind (Builds.commitP g0) fun c s1 g1 l1 h1 => ?_
      refine Builds.bind (Builds.commitP g1) fun d s2 g2 l2 h2 => ?_
      refine Builds.bind (post := fun _ _ => True) ?_ fun _ s7 g7 l7 _ => Builds.pure g7 trivial
      refine Builds.bind (mimc_builds constants _ _ a b s2 g2 (h1.2.mono l2) h2.2) fun o s3 g3 l3 h3 => ?_
      exact Builds.constrainScalar g3 h3

end Verif.BP
