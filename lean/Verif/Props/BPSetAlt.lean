import Verif.Props.BPSets
set_option linter.unusedSectionVars false
set_option linter.unusedSimpArgs false
set_option linter.unusedVariables false
/-!
# Gadgets: the alternative set membership (C120)
-/
namespace Verif.BP
variable {F V : Type} [Field F] [AddCommGroup V] [Module F V] [DecidableEq F] [DecidableEq V]

/-! ## What the constraints say -/

theorem vectorSum_imposes {A : Asg F} (vs : List Var) (n : Nat) : Imposes V A (vectorSum vs n) fun _ => (vs.map A.val).sum = (n : F) := by
  refine (Imposes.constrain _).mono fun _ h => ?_
  rw [lc_cons] at h
  have e : ∀ vs : List Var, A.lc (vs.map fun x => (x, (1 : F))) = (vs.map A.val).sum := by
    intro vs
    induction vs with
    | nil => rfl
    | cons v vs ih => rw [List.map_cons, lc_cons, ih]; simp
  rw [e] at h
  simp only [Asg.val] at h
  linear_combination h

theorem vectorProductLoop_imposes {A : Asg F} (v : Var) (items : List Nat) : ∀ (ts : List (Quantity F)) (cs : LC F),
    Imposes V A (vectorProductLoop v items ts cs) fun cs' => A.lc cs' = A.lc cs ∨ ∃ a ∈ items, A.val v = (a : F) := by
  induction items with
  | nil => intro ts cs; exact Imposes.pure (.inl rfl)
  | cons a items ih =>
    intro ts cs
    cases ts with
    | nil => exact Imposes.panic
    | cons t ts =>
      refine Imposes.bind (Imposes.allocMult _) fun x h1 => ?_
      refine Imposes.bind (Imposes.constrainScalar _ _) fun _ h2 => ?_
      refine Imposes.bind (Imposes.multiply _ _) fun y h3 => ?_
      refine Imposes.bind (Imposes.constrain _) fun _ h4 => ?_
      refine (ih ts _).mono fun cs' h5 => ?_
      simp only [lc_ofVar, lc_sub, lc_append, lc_cons, lc_nil] at h2 h3 h4 h5
      rcases h5 with h5 | ⟨b, hb, e⟩
      · rw [h3.2.2, h1, h2] at h4
        have : A.val x.1 * ((a : F) - A.val v) = 0 := by linear_combination h4
        rcases mul_eq_zero.1 this with h | h
        · left; rw [h5, h1, h]; ring
        · right; exact ⟨a, by simp, (sub_eq_zero.1 h).symm⟩
      · exact .inr ⟨b, by simp [hb], e⟩

theorem vectorProduct_imposes {A : Asg F} (items : List Nat) (ts : List (Quantity F)) (v : Quantity F) :
    Imposes V A (vectorProductGadget items ts v) fun _ => A.val v.var = 0 ∨ ∃ a ∈ items, A.val v.var = (a : F) := by
  refine Imposes.bind (vectorProductLoop_imposes _ _ _ _) fun cs h1 => ?_
  refine (Imposes.constrain _).mono fun _ h2 => ?_
  rcases h1 with h1 | h1
  · left
    rw [h1, lc_cons, lc_nil] at h2
    linear_combination -h2
  · exact .inr h1

theorem commitBits_imposes {A : Asg F} (n : Nat) : ∀ (Cs : List V) (t : VState F V),
    ImposesAt A t (commitBits n Cs) fun q t' => n ≤ Cs.length ∧ q.2 = Cs.drop n ∧ t'.V = t.V ++ Cs.take n ∧
      q.1.map (·.var) = (List.range' t.V.length n).map .committed ∧ ∀ i < n, A.v (t.V.length + i) = 0 ∨ A.v (t.V.length + i) = 1 := by
  induction n with
  | zero => intro Cs t; exact ImposesAt.pure ⟨by simp, by simp, by simp, by simp, by simp⟩
  | succ n ih =>
    intro Cs t
    refine ImposesAt.bind (ImposesAt.commitFirst fun C Cs1 t1 e1 hV1 => ?_)
    refine ImposesAt.bind ((bit_imposes _).at t1 fun _ t2 hV2 hb => ?_)
    refine ImposesAt.bind ((ih Cs1 t2).mono fun q t3 _ hq => ?_)
    obtain ⟨h1, h2, h3, h4, h5⟩ := hq
    have el : t2.V.length = t.V.length + 1 := by rw [hV2, hV1]; simp
    rw [el] at h4 h5
    refine ImposesAt.pure ⟨by rw [e1]; simp; omega, by rw [e1]; exact h2, by rw [h3, hV2, hV1, e1]; simp, ?_, ?_⟩
    · simp only [List.map_cons, h4, List.range'_succ]
    · intro i hi
      rcases i with - | i
      · exact hb
      · have := h5 i (by omega)
        rw [show t.V.length + 1 + i = t.V.length + (i + 1) by ring] at this
        exact this

/-- **C120, what the alternative proof of set membership shows** (not membership): the value committed in the last commitment is in the set **or 0**, the
set is not empty, and the committed toggles are 0 or 1 with sum 1. -/
theorem setMembershipAlt_sound_partial (set : List Nat) (Cs : List V) (t0 t : VState F V)
    (run : (verifySetMembershipAlt set Cs).runV VState.top t0 = .ok ((), t)) (A : Asg F) (sat : Sat t.numVars t.cons A) :
    t.V[t0.V.length + set.length]? = Cs[set.length]? ∧ set.length < Cs.length ∧ set ≠ [] ∧
      (A.v (t0.V.length + set.length) = 0 ∨ ∃ a ∈ set, A.v (t0.V.length + set.length) = (a : F)) ∧
      (∀ i < set.length, A.v (t0.V.length + i) = 0 ∨ A.v (t0.V.length + i) = 1) ∧
      ((List.range set.length).map fun i => A.v (t0.V.length + i)).sum = 1 := by
  have key : ImposesAt A t0 (verifySetMembershipAlt set Cs) fun _ t =>
      t.V[t0.V.length + set.length]? = Cs[set.length]? ∧ set.length < Cs.length ∧ set ≠ [] ∧
      (A.v (t0.V.length + set.length) = 0 ∨ ∃ a ∈ set, A.v (t0.V.length + set.length) = (a : F)) ∧
      (∀ i < set.length, A.v (t0.V.length + i) = 0 ∨ A.v (t0.V.length + i) = 1) ∧
      ((List.range set.length).map fun i => A.v (t0.V.length + i)).sum = 1 := by
    refine ImposesAt.bind ((commitBits_imposes set.length Cs t0).mono fun q t1 _ hq => ?_)
    obtain ⟨h1, h2, h3, h4, h5⟩ := hq
    rw [h4]
    refine ImposesAt.bind ((vectorSum_imposes _ _).at t1 fun _ t2 hV2 hs => ?_)
    refine ImposesAt.bind (ImposesAt.commitFirst fun C Cs1 t3 e3 hV3 => ?_)
    refine (vectorProduct_imposes _ _ _).at t3 fun _ t4 hV4 hp => ?_
    rw [h2] at e3
    have el : t2.V.length = t0.V.length + set.length := by rw [hV2, h3]; simp [h1]
    have hlt : set.length < Cs.length := by
      have := congrArg List.length e3
      simp only [List.length_drop, List.length_cons] at this
      omega
    have hsum : ((List.range set.length).map fun i => A.v (t0.V.length + i)).sum = 1 := by
      rw [List.range'_eq_map_range, List.map_map, List.map_map] at hs
      rw [Nat.cast_one] at hs
      rw [← hs]
      rfl
    simp only [el] at hp
    refine ⟨?_, hlt, ?_, hp, h5, hsum⟩
    · rw [hV4, hV3, ← el]
      rw [List.getElem?_concat_length]
      have := congrArg (fun l => l[0]?) e3
      simp only [List.getElem?_drop, List.getElem?_cons_zero, Nat.add_zero] at this
      rw [this]
    · rintro rfl
      simp at hsum
  exact key () t run sat

/-! ## Provers -/

/-- a prover that makes the calls of `prove_set_membership_alt`, with any value `x`, any committed toggles (the first components of `ws`), and any bits in the
products (the second components) -/
def commitTogglesWith (g h : V) (bl : Nat → F) : Nat → List (F × F) → Prog F (Top F (F × F)) Var (List V × List (Quantity F))
  | _, [] => pure ([], [])
  | i, w :: ws => do
    let c ← commitP g h w.1 (bl i)
    bitGadget ⟨c.2, some w.1⟩
    let q ← commitTogglesWith g h bl (i + 1) ws
    pure (c.1 :: q.1, ⟨c.2, some w.2⟩ :: q.2)

/-- see `commitTogglesWith` -/
def proveAltWith (g h : V) (x r : F) (set : List Nat) (ws : List (F × F)) (bl : Nat → F) : Prog F (Top F (F × F)) Var (List V) := do
  let q ← commitTogglesWith g h bl 0 ws
  vectorSum (q.2.map (·.var)) 1
  let c ← commitP g h x r
  vectorProductGadget set q.2 ⟨c.2, some x⟩
  pure (q.1 ++ [c.1])

/-- the commitments to the toggles -/
def bitCommitments (g h : V) (bl : Nat → F) (i : Nat) (bits : List F) : List V := (bits.zipIdx i).map fun q => q.1 • g + bl q.2 • h

theorem commitTogglesWith_rel (g h : V) (bl : Nat → F) (rest : List V) (ws : List (F × F)) : ∀ i,
    (commitTogglesWith g h bl i ws).Rel (TopRel g h) (fun a b => (a.1 = bitCommitments g h bl i (ws.map (·.1)) ∧ b.2 = rest) ∧
      a.2.map (·.var) = b.1.map (·.var)) (commitBits ws.length (bitCommitments g h bl i (ws.map (·.1)) ++ rest)) := by
  induction ws with
  | nil => intro i; exact Rel.pure ⟨⟨rfl, rfl⟩, rfl⟩
  | cons a ws ih =>
    intro i
    refine Rel.commitSeq (Cs := bitCommitments g h bl (i + 1) (ws.map (·.1)) ++ rest) fun x => ?_
    refine Rel.seq (bit_rel _ _ _) fun _ _ _ => ?_
    refine Rel.seq (ih (i + 1)) fun q q' hq => Rel.pure ⟨⟨?_, ?_⟩, ?_⟩
    · simp only [hq.1.1]; rfl
    · simp only [hq.1.2]
    · simp only [hq.2, List.map_cons]

theorem commitTogglesWith_builds {g h : V} (bl : Nat → F) (ws : List (F × F)) (hb : ∀ w ∈ ws, w.1 = 0 ∨ w.1 = 1) : ∀ (i : Nat) (s : PState F V), s.Good →
    Builds g h s (commitTogglesWith g h bl i ws) fun q s' => List.Forall₂ (fun x a => s'.Has (LC.ofVar x) a) (q.2.map (·.var)) (ws.map (·.1)) ∧
      (∀ x ∈ q.2, ∃ i, x.var = .committed i) ∧ List.Forall₂ (fun (t : Quantity F) b => t.asg = some b) q.2 (ws.map (·.2)) := by
  induction ws with
  | nil => intro i s hg; exact Builds.pure hg ⟨.nil, by simp, .nil⟩
  | cons a ws ih =>
    intro i s hg
    refine Builds.bind (Builds.commitP hg) fun c s1 g1 l1 h1 => ?_
    refine Builds.bind (bit_builds g1 c.2 a.1 (hb a (by simp)) h1.2) fun _ s2 g2 l2 _ => ?_
    refine Builds.bind (ih (fun b hb' => hb b (by simp [hb'])) (i + 1) s2 g2) fun q s3 g3 l3 h3 => ?_
    refine Builds.pure g3 ⟨.cons (h1.2.mono (l2.trans l3)) h3.1, fun x hx => ?_, .cons rfl h3.2.2⟩
    rcases List.mem_cons.1 hx with rfl | hx
    · exact h1.1.2
    · exact h3.2.1 x hx

theorem sum_has {s : PState F V} : ∀ (vs : List Var) (xs : List F), List.Forall₂ (fun x a => s.Has (LC.ofVar x) a) vs xs →
    s.Has (vs.map fun x => (x, (1 : F))) xs.sum := by
  intro vs xs h
  induction h with
  | nil => exact PState.Has.nil s
  | cons h _ ih => exact (h.cons 1 ih).congr (by rw [List.sum_cons]; ring)

theorem vectorProductLoop_builds {g h : V} (v : Var) (x : F) (items : List Nat) : ∀ (ts : List (Quantity F)) (bs : List F) (cs : LC F) (c : F)
    (s : PState F V), s.Good → s.Has (LC.ofVar v) x → List.Forall₂ (fun (t : Quantity F) b => t.asg = some b) ts bs →
    List.Forall₂ (fun (a : Nat) (b : F) => b * (a : F) = b * x) items bs → s.Has cs c →
    Builds g h s (vectorProductLoop v items ts cs) fun cs' s' => s'.Has cs' (c + (List.zipWith (fun (a : Nat) b => b * (a : F)) items bs).sum) := by
  induction items with
  | nil => intro ts bs cs c s hg hv ht hi hc; exact Builds.pure hg (hc.congr (by simp))
  | cons a items ih =>
    intro ts bs cs c s hg hv ht hi hc
    cases hi with
    | @cons _ b _ bs hi1 hi =>
      cases ht with
      | @cons t _ ts _ ht1 ht =>
        simp only [vectorProductLoop, ht1, Option.map_some]
        refine Builds.bind (Builds.allocMult hg) fun q s1 g1 l1 h1 => ?_
        refine Builds.bind (Builds.constrainScalar g1 h1.2.1) fun _ s2 g2 l2 _ => ?_
        refine Builds.bind (Builds.multiply g2 (h1.1.mono l2) (hv.mono (l1.trans l2))) fun q' s3 g3 l3 h3 => ?_
        refine Builds.bind (Builds.constrain g3 (((h1.2.2.mono (l2.trans l3)).sub h3.2.2).congr (by rw [hi1]; ring))) fun _ s4 g4 l4 _ => ?_
        have l := ((l1.trans l2).trans l3).trans l4
        refine (ih ts bs _ _ s4 g4 (hv.mono l) ht hi ((hc.mono l).add ((h1.2.2.mono ((l2.trans l3).trans l4)).single 1))).mono fun _ s' _ _ hh => hh.congr ?_
        rw [List.zipWith_cons_cons, List.sum_cons]; ring

theorem vectorProductLoop_rel {T T' R : Type} {re : T → T' → Prop} (v : Var) (items : List Nat) : ∀ (ts ts' : List (Quantity F)) (cs : LC F),
    ts.length = ts'.length →
    (vectorProductLoop v items ts cs : Prog F T R _).Rel re (fun a b => a = b) (vectorProductLoop v items ts' cs : Prog F T' R _) := by
  induction items with
  | nil => intro ts ts' cs e; exact Rel.pure rfl
  | cons a items ih =>
    intro ts ts' cs e
    match ts, ts', e with
    | [], [], _ => trivial
    | t :: ts, t' :: ts', e =>
      refine Rel.seq (Rel.allocMult _ _) fun q _ e' => ?_
      subst e'
      refine Rel.seq (Rel.constrain _) fun _ _ _ => ?_
      refine Rel.seq (Rel.multiply _ _) fun q _ e' => ?_
      subst e'
      refine Rel.seq (Rel.constrain _) fun _ _ _ => ?_
      exact ih _ _ _ (by simpa using e)

theorem altWith_complete (O : Transcript F V → F) (tr : Transcript F V) (g h : V) (x r : F) (set : List Nat) (ws : List (F × F)) (bl : Nat → F)
    (hl : ws.length = set.length) (hb : ∀ w ∈ ws, w.1 = 0 ∨ w.1 = 1) (hsum : (ws.map (·.1)).sum = 1)
    (hbs : List.Forall₂ (fun (a : Nat) (b : F) => b * (a : F) = b * x) set (ws.map (·.2)))
    (hx : (List.zipWith (fun (a : Nat) (b : F) => b * (a : F)) set (ws.map (·.2))).sum = x) :
    HonestAccepted O g h tr (proveAltWith g h x r set ws bl) (verifySetMembershipAlt set) (bitCommitments g h bl 0 (ws.map (·.1)) ++ [x • g + r • h]) := by
  refine honest_of_builds ?_ ?_ O tr
  · have e : verifySetMembershipAlt (F := F) set (bitCommitments g h bl 0 (ws.map (·.1)) ++ [x • g + r • h]) = (do
      let q ← commitBits ws.length (bitCommitments g h bl 0 (ws.map (·.1)) ++ [x • g + r • h])
      vectorSum (q.1.map (·.var)) 1
      let v ← commitFirst q.2
      vectorProductGadget (F := F) set q.1 ⟨v.1, none⟩) := by rw [hl]; rfl
    rw [e]
    refine Rel.seq (commitTogglesWith_rel g h bl _ ws 0) fun q q' hq => ?_
    rw [← hq.2, hq.1.2]
    refine Rel.seq (Rel.constrain _) fun _ _ _ => ?_
    refine Rel.commitSeq fun y => Rel.ret ?_ (by rw [hq.1.1])
    refine Rel.seq (vectorProductLoop_rel _ _ _ _ _ ?_) fun q _ e => ?_
    · have h2 := congrArg List.length hq.2
      rwa [List.length_map, List.length_map] at h2
    · subst e
      exact Rel.constrain _
  · intro s hg
    refine Builds.bind (commitTogglesWith_builds bl ws hb 0 s hg) fun q s1 g1 l1 h1 => ?_
    refine Builds.bind (Builds.constrain g1 ?_) fun _ s2 g2 l2 _ => ?_
    · exact ((PState.Has.one s1).cons _ (sum_has _ _ h1.1)).congr (by rw [hsum]; simp)
    refine Builds.bind (Builds.commitP g2) fun c s3 g3 l3 h3 => ?_
    refine Builds.bind (post := fun _ _ => True) ?_ fun _ s7 g7 l7 _ => Builds.pure g7 trivial
    refine Builds.bind (vectorProductLoop_builds _ x set _ _ _ _ s3 g3 h3.2 h1.2.2 hbs (h3.2.single (-1))) fun cs s4 g4 l4 h4 => ?_
    exact Builds.constrain g4 (h4.congr (by rw [hx]; ring))

/-- **C120 is false.** For every set that is not empty a prover is accepted with the value 0, whether 0 is in the set or not. -/
theorem setMembershipAlt_accepts_zero (O : Transcript F V → F) (tr : Transcript F V) (g h : V) (a : Nat) (set : List Nat) (r : F) (bl : Nat → F) :
    HonestAccepted O g h tr (proveAltWith g h 0 r (a :: set) ((1, 0) :: List.replicate set.length (0, 0)) bl)
      (verifySetMembershipAlt (a :: set)) (bitCommitments g h bl 0 (1 :: List.replicate set.length 0) ++ [(0 : F) • g + r • h]) := by
  have e1 : (((1 : F), (0 : F)) :: List.replicate set.length (0, 0)).map (·.1) = 1 :: List.replicate set.length 0 := by simp
  have e2 : (((1 : F), (0 : F)) :: List.replicate set.length (0, 0)).map (·.2) = List.replicate (a :: set).length 0 := by simp [List.replicate_succ]
  rw [← e1]
  refine altWith_complete O tr g h 0 r _ _ bl (by simp) ?_ (by rw [e1]; simp) ?_ ?_
  · intro b hb
    rcases List.mem_cons.1 hb with rfl | hb
    · exact .inr rfl
    · rw [List.eq_of_mem_replicate hb]; exact .inl rfl
  · have : ∀ l : List Nat, List.Forall₂ (fun (a : Nat) (b : F) => b * (a : F) = b * 0) l (List.replicate l.length 0) := by
      intro l
      induction l with
      | nil => exact .nil
      | cons a l ih => exact .cons (by ring) ih
    rw [e2]
    exact this (a :: set)
  · have : ∀ l : List Nat, (List.zipWith (fun (a : Nat) (b : F) => b * (a : F)) l (List.replicate l.length 0)).sum = 0 := by
      intro l
      induction l with
      | nil => rfl
      | cons a l ih => rw [List.length_cons, List.replicate_succ, List.zipWith_cons_cons, List.sum_cons, ih]; ring
    rw [e2]
    exact this (a :: set)

/-- the toggles of the honest prover -/
def honestToggles (F : Type) [Field F] (value : Nat) (set : List Nat) : List F := set.map fun e => ((if e = value then 1 else 0 : Nat) : F)

theorem honestToggles_sum (value : Nat) (set : List Nat) : (honestToggles F value set).sum = (set.count value : F) := by
  induction set with
  | nil => simp [honestToggles]
  | cons e set ih =>
    rw [honestToggles, List.map_cons, List.sum_cons]
    rw [honestToggles] at ih
    rw [ih, List.count_cons]
    by_cases he : e = value
    · simp [he, add_comm]
    · simp [he]

theorem commitToggles_eq {g h : V} (value : Nat) (bl : Nat → F) (set : List Nat) : ∀ i,
    commitToggles g h value bl i set = commitTogglesWith g h bl i ((honestToggles F value set).map fun b => (b, b)) := by
  induction set with
  | nil => intro i; rfl
  | cons e set ih => intro i; simp only [commitToggles, ih]; rfl

theorem proveAlt_eq (g h : V) (value : Nat) (blinding rng : Option F) (set : List Nat) (bl : Nat → F) (hb : blinding.isSome ∨ rng.isSome) :
    proveSetMembershipAlt g h value blinding set rng bl =
      proveAltWith g h (value : F) (theBlinding 0 blinding rng) set ((honestToggles F value set).map fun b => (b, b)) bl := by
  simp only [proveSetMembershipAlt, blindingOr_eq hb (0 : F), pure_seq, commitToggles_eq, proveAltWith]

theorem toggle01 (value : Nat) (set : List Nat) : ∀ b ∈ honestToggles F value set, b = 0 ∨ b = 1 := by
  intro b hb
  obtain ⟨e, -, rfl⟩ := List.mem_map.1 hb
  by_cases he : e = value <;> simp [he]

/-- **C120, completeness.** An honest prover of a value that occurs in the set exactly once is accepted. -/
theorem setMembershipAlt_complete (O : Transcript F V → F) (tr : Transcript F V) (g h : V) (value : Nat) (set : List Nat) (blinding rng : Option F)
    (bl : Nat → F) (hb : blinding.isSome ∨ rng.isSome) (hv : set.count value = 1) :
    HonestAccepted O g h tr (proveSetMembershipAlt g h value blinding set rng bl) (verifySetMembershipAlt set)
      (bitCommitments g h bl 0 (honestToggles F value set) ++ [(value : F) • g + theBlinding 0 blinding rng • h]) := by
  have e1 : ((honestToggles F value set).map fun b => (b, b)).map (·.1) = honestToggles F value set := by simp [Function.comp_def]
  have e2 : ((honestToggles F value set).map fun b => (b, b)).map (·.2) = honestToggles F value set := by simp [Function.comp_def]
  have hs := honestToggles_sum (F := F) value set
  rw [proveAlt_eq _ _ _ _ _ _ _ hb]
  have := altWith_complete O tr g h (value : F) (theBlinding 0 blinding rng) set ((honestToggles F value set).map fun b => (b, b)) bl
    (by simp [honestToggles]) (fun w hw => ?_) (by rw [e1, hs, hv, Nat.cast_one]) ?_ ?_
  · rwa [e1] at this
  · obtain ⟨b, hb', rfl⟩ := List.mem_map.1 hw
    exact toggle01 value set b hb'
  · rw [e2, honestToggles, List.forall₂_map_right_iff, List.forall₂_same]
    intro e _
    by_cases he : e = value
    · rw [he]
    · simp [he]
  · rw [e2]
    have : ∀ l : List Nat, (List.zipWith (fun (a : Nat) (b : F) => b * (a : F)) l (honestToggles F value l)).sum = (l.count value : F) * value := by
      intro l
      induction l with
      | nil => simp
      | cons e l ih =>
        rw [honestToggles] at ih ⊢
        rw [List.map_cons, List.zipWith_cons_cons, List.sum_cons, ih, List.count_cons]
        by_cases he : e = value
        · rw [he]; simp; ring
        · simp [he]
    rw [this, hv]; simp

/-! ## Sets in which the value occurs several times -/

/-- committed values and constraints are never removed -/
structure PState.Grow (s s' : PState F V) : Prop where
  cons : ∀ lc ∈ s.cons, lc ∈ s'.cons
  v : s.v <+: s'.v

theorem PState.Grow.refl (s : PState F V) : s.Grow s := ⟨fun _ h => h, List.prefix_refl _⟩
theorem PState.Grow.trans {s s' s'' : PState F V} (h : s.Grow s') (h' : s'.Grow s'') : s.Grow s'' :=
  ⟨fun _ x => h'.cons _ (h.cons _ x), h.v.trans h'.v⟩

theorem Prog.runP_grow {α : Type} {g h : V} (p : Prog F (Top F (F × F)) Var α) : ∀ (s s' : PState F V) (b : α),
    p.runP (PState.top g h) s = .ok (b, s') → s.Grow s' := by
  induction p with
  | pure a => intro s s' b e; simp only [Prog.runP, Res.ok.injEq, Prod.mk.injEq] at e; rw [e.2]; exact .refl _
  | fail e => intro s s' b e; simp [Prog.runP] at e
  | panic => intro s s' b e; simp [Prog.runP] at e
  | multiply l r k ih =>
    intro s s' b e
    simp only [Prog.runP] at e
    obtain ⟨q, e1, e2⟩ := Res.bind_eq_ok.1 e
    refine PState.Grow.trans ?_ (ih _ _ _ _ e2)
    simp only [PState.multiply] at e1
    obtain ⟨_, -, e1⟩ := Res.bind_eq_ok.1 e1
    obtain ⟨_, -, e1⟩ := Res.bind_eq_ok.1 e1
    simp only [Res.pure_eq, Res.ok.injEq] at e1
    rw [← e1]
    exact ⟨fun lc hl => by simp [PState.allocVars, hl], List.prefix_refl _⟩
  | allocate a k ih =>
    intro s s' b e
    simp only [Prog.runP] at e
    obtain ⟨q, e1, e2⟩ := Res.bind_eq_ok.1 e
    refine PState.Grow.trans ?_ (ih _ _ _ _ e2)
    cases a with
    | none => simp [PState.allocate] at e1
    | some a =>
      simp only [PState.allocate] at e1
      split at e1
      · simp only [Res.ok.injEq] at e1
        rw [← e1]
        exact ⟨fun lc hl => hl, List.prefix_refl _⟩
      · split at e1
        · obtain ⟨_, -, e1⟩ := Res.bind_eq_ok.1 e1
          obtain ⟨_, -, e1⟩ := Res.bind_eq_ok.1 e1
          split at e1
          · simp only [Res.ok.injEq] at e1
            rw [← e1]
            exact ⟨fun lc hl => hl, List.prefix_refl _⟩
          · simp at e1
        · simp at e1
  | allocMult a k ih =>
    intro s s' b e
    simp only [Prog.runP] at e
    obtain ⟨q, e1, e2⟩ := Res.bind_eq_ok.1 e
    refine PState.Grow.trans ?_ (ih _ _ _ _ e2)
    cases a with
    | none => simp [PState.allocMult] at e1
    | some a =>
      simp only [PState.allocMult, Res.ok.injEq] at e1
      rw [← e1]
      exact ⟨fun lc hl => hl, List.prefix_refl _⟩
  | constrain lc k ih =>
    intro s s' b e
    simp only [Prog.runP] at e
    exact PState.Grow.trans (s := s) (s' := { s with cons := s.cons ++ [lc] }) ⟨fun lc hl => by simp [hl], List.prefix_refl _⟩ (ih _ _ _ _ e)
  | evalLc lc k ih =>
    intro s s' b e
    simp only [Prog.runP] at e
    obtain ⟨q, e1, e2⟩ := Res.bind_eq_ok.1 e
    exact ih _ _ _ _ e2
  | ext c k ih =>
    intro s s' b e
    simp only [Prog.runP] at e
    obtain ⟨q, e1, e2⟩ := Res.bind_eq_ok.1 e
    refine PState.Grow.trans ?_ (ih _ _ _ _ e2)
    cases c with
    | commit w =>
      simp only [PState.top, Res.ok.injEq] at e1
      rw [← e1]
      exact ⟨fun lc hl => hl, List.prefix_append _ _⟩
    | specify cb =>
      simp only [PState.top, Res.ok.injEq] at e1
      rw [← e1]
      exact ⟨fun lc hl => hl, List.prefix_refl _⟩

/-- **C120, duplicates.** If the value occurs in the set several times (or not at all), the honest prover's values do not satisfy its own constraints. -/
theorem setMembershipAlt_duplicates (tr : Transcript F V) (g h : V) (value : Nat) (set : List Nat) (blinding rng : Option F) (bl : Nat → F)
    (hb : blinding.isSome ∨ rng.isSome) (hv : (set.count value : F) ≠ 1) (Cs : List V) (s : PState F V)
    (run : (proveSetMembershipAlt g h value blinding set rng bl).runP (PState.top g h) (PState.new tr) = .ok (Cs, s)) : ∃ lc ∈ s.cons, s.asg.lc lc ≠ 0 := by
  rw [proveAlt_eq _ _ _ _ _ _ _ hb, proveAltWith, prog_bind, Prog.runP_bind] at run
  obtain ⟨q, s1, e1, g1, -, h1, h2, -⟩ := commitTogglesWith_builds (g := g) (h := h) bl ((honestToggles F value set).map fun b => (b, b))
    (fun w hw => by obtain ⟨b, hb', rfl⟩ := List.mem_map.1 hw; exact toggle01 value set b hb') 0 (PState.new tr) (PState.Good.new tr)
  rw [e1] at run
  simp only [Res.bind] at run
  rw [prog_bind, Prog.runP_bind] at run
  simp only [vectorSum, csConstrain, Prog.runP, Res.bind] at run
  have gr := Prog.runP_grow _ _ _ _ run
  refine ⟨_, gr.cons _ (List.mem_append_right _ (List.mem_singleton.2 rfl)), ?_⟩
  have hs := sum_has _ _ h1
  have e : ∀ l : List (Quantity F), (∀ x ∈ l, s1.Given x.var ∧ ∃ i, x.var = .committed i) → s.asg.lc ((l.map (·.var)).map fun x => (x, (1 : F))) = s1.asg.lc ((l.map (·.var)).map fun x => (x, (1 : F))) := by
    intro l hl
    induction l with
    | nil => rfl
    | cons x l ih =>
      rw [List.map_cons, List.map_cons, lc_cons, lc_cons, ih fun y hy => hl y (by simp [hy])]
      obtain ⟨hx, i, hi⟩ := hl x (by simp)
      rw [hi] at hx ⊢
      have hx' : i < s1.v.length := hx
      have : s.asg.val (.committed i) = s1.asg.val (.committed i) := by
        obtain ⟨r, hr⟩ := gr.v
        show s.v.getD i 0 = s1.v.getD i 0
        rw [← hr]
        exact getD_append_lt hx'
      rw [this]
  rw [lc_cons, e q.2 fun x hx => ⟨hs.given _ (List.mem_map.2 ⟨x.var, List.mem_map.2 ⟨x, hx, rfl⟩, rfl⟩), h2 x hx⟩, hs.value]
  have e1 : ((honestToggles F value set).map fun b => (b, b)).map (·.1) = honestToggles F value set := by simp [Function.comp_def]
  rw [e1, honestToggles_sum]
  intro h0
  apply hv
  simp only [Asg.val, Nat.cast_one] at h0
  linear_combination h0

end Verif.BP
