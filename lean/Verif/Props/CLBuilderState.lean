import Verif.Props.CLPresentation
import Verif.Props.CLPanic
/-!
# C196: what a failed `add_sub_proof_request` does to a proof builder
-/
set_option linter.unusedSectionVars false
set_option linter.unusedSimpArgs false
set_option linter.unusedVariables false
namespace Verif.CL

open Verif BN

section
variable {F G1 G2 GT : Type} [Field F] [AddCommGroup G1] [Module F G1] [AddCommGroup G2] [Module F G2]
  [AddCommGroup GT] [Module F GT]

/-- the call of `add_sub_proof_request` with the data of an item -/
def callWith (e : G1 →ₗ[F] G2 →ₗ[F] GT) (cv : Conv F G1 G2 GT) (mode : Overflow) (ord : SetOrder)
    (b : Builder F G1 G2 GT) (it : Item F G1 G2 GT) : Builder F G1 G2 GT × Res String Unit :=
  b.addCall e cv mode ord it.req it.schema it.nonSchema it.sig it.vals it.pk it.reg it.witness it.x it.rnd it.nrnd

/-- credential with a revocation part, registry, revocation key and witness are all given -/
def WithRevocation (it : Item F G1 G2 GT) : Prop :=
  it.sig.r ≠ none ∧ it.reg ≠ none ∧ it.pk.rKey ≠ none ∧ it.witness ≠ none

theorem initNonRevoc_isSome (e : G1 →ₗ[F] G2 →ₗ[F] GT) (it : Item F G1 G2 GT) :
    (∃ nr, initNonRevoc e it.sig it.reg it.pk.rKey it.witness it.x = some nr) ↔ WithRevocation it := by
  unfold initNonRevoc WithRevocation
  cases it.sig.r <;> cases it.reg <;> cases it.pk.rKey <;> cases it.witness <;> simp

/-- the call on the mutable builder and the function used everywhere else agree -/
theorem addCall_result (e : G1 →ₗ[F] G2 →ₗ[F] GT) (cv : Conv F G1 G2 GT) (mode : Overflow) (ord : SetOrder)
    (b : Builder F G1 G2 GT) (it : Item F G1 G2 GT) :
    b.addSubProofRequest e cv mode ord it.req it.schema it.nonSchema it.sig it.vals it.pk it.reg it.witness it.x it.rnd it.nrnd =
      match callWith e cv mode ord b it with
      | (b', .ok ()) => .ok b'
      | (_, .err m) => .err m
      | (_, .panic) => .panic := by
  unfold callWith Builder.addCall Builder.addSubProofRequest
  cases checkBuilderParams it.vals it.req it.schema it.nonSchema with
  | err m => rfl
  | panic => rfl
  | ok u =>
    simp only [Res.ok_bind]
    cases initPrimaryProof mode ord b.common it.pk.pKey it.sig.p it.vals it.schema it.nonSchema it.req
        ((initNonRevoc e it.sig it.reg it.pk.rKey it.witness it.x).map (fun i => cv.ofF i.tauParams.m2)) it.rnd it.nrnd with
    | err m => rfl
    | panic => rfl
    | ok pi => rfl

/-- **C196** What a failed call leaves: never a sub proof or a common attribute; and the builder is exactly as before if and
only if the arguments were inconsistent or no revocation data was given. -/
theorem failed_add_effect_partial (e : G1 →ₗ[F] G2 →ₗ[F] GT) (cv : Conv F G1 G2 GT) (mode : Overflow) (ord : SetOrder)
    (b : Builder F G1 G2 GT) (it : Item F G1 G2 GT) (hf : (callWith e cv mode ord b it).2 ≠ .ok ()) :
    (callWith e cv mode ord b it).1.common = b.common ∧ (callWith e cv mode ord b it).1.inits = b.inits ∧
    ((callWith e cv mode ord b it).1 = b ↔
      checkBuilderParams it.vals it.req it.schema it.nonSchema ≠ .ok () ∨ ¬ WithRevocation it) := by
  rw [← initNonRevoc_isSome e it]
  unfold callWith Builder.addCall at hf ⊢
  cases hc : checkBuilderParams it.vals it.req it.schema it.nonSchema with
  | err m => simp
  | panic => simp
  | ok u =>
    simp only [hc] at hf ⊢
    have key : ((⟨b.common, b.inits, b.cList ++ ((initNonRevoc e it.sig it.reg it.pk.rKey it.witness it.x).map (fun i => cListBytes cv i.cList)).getD [],
        b.tauList ++ ((initNonRevoc e it.sig it.reg it.pk.rKey it.witness it.x).map (fun i => tauListBytes cv i.tauList)).getD []⟩ :
          Builder F G1 G2 GT) = b) ↔
        ¬ ∃ nr, initNonRevoc e it.sig it.reg it.pk.rKey it.witness it.x = some nr := by
      cases hn : initNonRevoc e it.sig it.reg it.pk.rKey it.witness it.x with
      | none => obtain ⟨c, i, l, t⟩ := b; simp
      | some nr =>
        simp only [Option.map_some, Option.getD_some, Option.some.injEq, exists_eq', not_true_eq_false, iff_false]
        intro h
        have := congrArg (fun b => b.tauList.length) h
        simp [tauListBytes] at this
    cases hi : initPrimaryProof mode ord b.common it.pk.pKey it.sig.p it.vals it.schema it.nonSchema it.req
        ((initNonRevoc e it.sig it.reg it.pk.rKey it.witness it.x).map (fun i => cv.ofF i.tauParams.m2)) it.rnd it.nrnd with
    | err m => simp only [ne_eq, not_true_eq_false, false_or, true_and]; exact key
    | panic => simp only [ne_eq, not_true_eq_false, false_or, true_and]; exact key
    | ok pi => rw [hi] at hf; exact absurd rfl hf

/-- **C196, limits** A builder on which a call with revocation data has failed is spoilt: whatever honest credentials are added
afterwards - the calls succeed, `finalize` succeeds - a verifier who expects just these credentials rejects the proof, unless
the two given byte strings, of different lengths, have the same hash. -/
theorem spoilt_builder_rejected (e : G1 →ₗ[F] G2 →ₗ[F] GT) (cv : Conv F G1 G2 GT) (hcv : ∀ p, cv.g1 p ≠ []) (mode : Overflow)
    (sha : Bytes → Bytes) (ord ordF ordV : SetOrder) (commons : List (String × Int)) (names : List String)
    (hnames : ∀ k ∈ names, k ∈ commons.map (·.1)) (bad : Item F G1 G2 GT) (hrev : WithRevocation bad)
    (hcons : checkBuilderParams bad.vals bad.req bad.schema bad.nonSchema = .ok ()) (msg : String)
    (hbad : (callWith e cv mode ord (commons.foldl (fun b c => b.addCommonAttribute c.1 c.2) Builder.new) bad).2 = .err msg)
    (items : List (Item F G1 G2 GT)) (cval : String → Int)
    (h : ∀ it ∈ items, Honest e it ∧ ∀ k ∈ commons.map (·.1), k ∈ unrevealedAttrs it.schema it.nonSchema it.req ∧
      attrValue it.vals k = cval k) (nonce : Int) :
    ∃ b proof v, items.foldlM (fun b it => b.addSubProofRequest e cv mode ord it.req it.schema it.nonSchema it.sig it.vals it.pk it.reg
        it.witness it.x it.rnd it.nrnd) (callWith e cv mode ord (commons.foldl (fun b c => b.addCommonAttribute c.1 c.2) Builder.new) bad).1 = .ok b ∧
      b.finalize cv sha ordF nonce = .ok proof ∧ expectItems names items = .ok v ∧
      ((v.verify e cv mode sha ordV proof nonce).2 = .ok false ∨
        (((b.tauList.drop 8 ++ b.cList ++ [toBytes nonce]).flatten.length < (b.tauList ++ b.cList ++ [toBytes nonce]).flatten.length) ∧
          fromBytes (sha (b.tauList.drop 8 ++ b.cList ++ [toBytes nonce]).flatten) =
            fromBytes (sha (b.tauList ++ b.cList ++ [toBytes nonce]).flatten))) := by
  obtain ⟨b1, b2, b3, b4⟩ := builder_commons commons (Builder.new : Builder F G1 G2 GT)
  set b0 : Builder F G1 G2 GT := commons.foldl (fun b c => b.addCommonAttribute c.1 c.2) Builder.new with hb0
  obtain ⟨nr, hnr⟩ := (initNonRevoc_isSome e bad).2 hrev
  have hst : (callWith e cv mode ord b0 bad).1 = ⟨b0.common, [], cListBytes cv nr.cList, tauListBytes cv nr.tauList⟩ := by
    unfold callWith Builder.addCall at hbad ⊢
    simp only [hcons, hnr] at hbad ⊢
    cases hi : initPrimaryProof mode ord b0.common bad.pk.pKey bad.sig.p bad.vals bad.schema bad.nonSchema bad.req
        ((some nr).map (fun i => cv.ofF i.tauParams.m2)) bad.rnd bad.nrnd with
    | err m => simp [b1, b2, b3, Builder.new]
    | panic => rw [hi] at hbad; cases hbad
    | ok pi => rw [hi] at hbad; cases hbad
  rw [hst]
  have hkey : ∀ k, b0.common.hasKey k = true ↔ k ∈ commons.map (·.1) := by
    intro k
    rw [b4 k]
    simp [Builder.new, Map.hasKey]
  obtain ⟨inis, cl, tl, hadd, hfin⟩ := items_complete e cv mode ord ordF ordV cval items
    ⟨b0.common, [], cListBytes cv nr.cList, tauListBytes cv nr.tauList⟩ (by
    intro it hit
    refine ⟨(h it hit).1, fun k hk => (h it hit).2 k ?_⟩
    rw [← hkey, hasKey_iff_mem]
    exact hk)
  have hv := expectItems_ok names items (fun it hit => ⟨(h it hit).1.revealed, fun p hp => ((h it hit).1.predicates p hp).1⟩)
  set v0 := names.foldl (fun v k => v.addCommonAttribute k) (PVerifier.new : PVerifier G1 G2 GT) with hv0
  have hvc := (verifier_commons names (PVerifier.new : PVerifier G1 G2 GT) (by intro a ha; simp [PVerifier.new] at ha)).2
  simp only [] at hadd
  set cl' := cListBytes cv nr.cList ++ cl with hcl'
  set c := getHashAsInt sha ((tauListBytes cv nr.tauList ++ tl) ++ cl' ++ [toBytes nonce]) with hc
  obtain ⟨sps, g1, g2, ⟨us, g3⟩, g5, g4⟩ := hfin c (getHashAsInt_nonneg _ _)
  obtain ⟨com', hloop⟩ := g4 v0.common (by
    intro a ha
    obtain ⟨h1, h2⟩ := hvc a ha
    have hm : a.1 ∈ names := by
      rcases h2 with h2 | h2
      · exact h2
      · simp [PVerifier.new] at h2
    obtain ⟨mt, hmt⟩ := hasKey_iff.1 ((hkey a.1).2 (hnames _ hm))
    exact ⟨mt, hmt, .inl h1⟩)
  have hdrop : (tauListBytes cv nr.tauList ++ tl).drop 8 = tl := by
    rw [List.drop_append_of_le_length (by simp [tauListBytes])]
    simp [tauListBytes]
  refine ⟨_, ⟨sps, c, cl'⟩, _, hadd, ?_, hv, ?_⟩
  · unfold Builder.finalize
    simp only [List.nil_append]
    rw [← hc, g1]
    rfl
  · simp only []
    rw [hdrop]
    by_cases heq : fromBytes (sha (tl ++ cl' ++ [toBytes nonce]).flatten) =
        fromBytes (sha ((tauListBytes cv nr.tauList ++ tl) ++ cl' ++ [toBytes nonce]).flatten)
    · right
      refine ⟨?_, heq⟩
      have hp : 0 < (cv.g1 nr.tauList.t1).length := List.length_pos_of_ne_nil (hcv _)
      simp only [List.flatten_append, List.length_append, tauListBytes, List.flatten_cons]
      omega
    · left
      unfold PVerifier.verify
      have hshape : checkVerifyParams (items.map Item.cred) (⟨sps, c, cl'⟩ : Proof F G1 G2) = .ok () := by
        unfold checkVerifyParams
        simp only []
        rw [if_neg (by rw [List.length_map, g2]; simp), g3]
        rfl
      simp only []
      rw [hshape]
      simp only []
      rw [hloop]
      simp only []
      congr 1
      rw [decide_eq_false_iff_not]
      exact heq

end

open Rev in
/-- the hypotheses of `spoilt_builder_rejected` are met: a holder of age 28 with a non-revocation witness is asked for
`age ≥ 65`; the call fails, and the builder is spoilt -/
theorem spoilt_met (cv : Conv (ZMod 101) (ZMod 101 × ZMod 101) (ZMod 101) (ZMod 101 × ZMod 101)) :
    let bad : Item (ZMod 101) (ZMod 101 × ZMod 101) (ZMod 101) (ZMod 101 × ZMod 101) :=
      { Toy77.item (ZMod 101) (ZMod 101 × ZMod 101) (ZMod 101) (ZMod 101 × ZMod 101) with sig := ⟨Toy77.sig, some toySig⟩, pk := ⟨Toy77.pk, some toyPub⟩, reg := some 2, revKeyPub := some (4, 0), witness := some 0, req := ⟨{"name"}, [⟨"age", .GE, 65⟩]⟩ }
    WithRevocation bad ∧ checkBuilderParams bad.vals bad.req bad.schema bad.nonSchema = .ok () ∧
      (callWith pair2 cv .checked Toy77.ord Builder.new bad).2 = .err "Predicate is not satisfied" ∧
      (callWith pair2 cv .checked Toy77.ord Builder.new bad).1 ≠ Builder.new := by
  intro bad
  have hw : WithRevocation bad := by
    refine ⟨?_, ?_, ?_, ?_⟩ <;> intro h <;> cases h
  have hcb : checkBuilderParams bad.vals bad.req bad.schema bad.nonSchema = .ok () := by decide
  have hcall : (callWith pair2 cv .checked Toy77.ord Builder.new bad).2 = .err "Predicate is not satisfied" := by
    have hk : KeyUnits bad.pk.pKey 77 (Toy77.u 4) (Toy77.u 9) (Toy77.u 16) Toy77.R := Toy77.key
    have hA : Rep bad.sig.p.a (Toy77.u 16) := ⟨by decide, by decide⟩
    have hne : ∀ mT rnd, initNeProof .checked bad.pk.pKey mT bad.vals ⟨"age", .GE, 65⟩ rnd = .err "Predicate is not satisfied" := by
      intro mT rnd
      unfold initNeProof
      have h1 : bad.vals.lookup "age" = some (.known 28) := by decide
      have h2 : Predicate.getDelta .checked ⟨"age", .GE, 65⟩ 28 = .ok (-37) := by decide
      have h3 : InI32 28 := by decide
      simp [h1, h2, h3, CredentialValue.value]
    have hp : ∀ m2t, initPrimaryProof .checked Toy77.ord (Builder.new : Builder (ZMod 101) (ZMod 101 × ZMod 101) (ZMod 101) (ZMod 101 × ZMod 101)).common
        bad.pk.pKey bad.sig.p bad.vals bad.schema bad.nonSchema bad.req m2t bad.rnd bad.nrnd = .err "Predicate is not satisfied" := by
      intro m2t
      unfold initPrimaryProof
      rw [initEqProof_units hk Toy77.ord _ bad.sig.p hA bad.schema bad.nonSchema bad.req m2t bad.rnd (by decide), Res.ok_bind]
      have : bad.req.predicates = [⟨"age", .GE, 65⟩] := rfl
      rw [this, List.mapM_cons, hne]
      rfl
    unfold callWith Builder.addCall
    rw [hcb]
    simp only []
    rw [hp]
  refine ⟨hw, hcb, hcall, ?_⟩
  intro h
  have := (failed_add_effect_partial pair2 cv .checked Toy77.ord Builder.new bad (by rw [hcall]; intro h; cases h)).2.2.1 h
  rcases this with h | h
  · exact h hcb
  · exact h hw

end Verif.CL
