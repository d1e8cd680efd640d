import Verif.Props.BBS
/-!
# Properties of BBS+ blind issuance and proofs of knowledge of a signature (C40–C44, C76, C79, C80)
-/
set_option linter.unusedSectionVars false
set_option linter.unusedSimpArgs false
set_option linter.unusedVariables false
namespace Verif.BBS
open Verif Verif.PoK

section
variable {F G1 G2 GT : Type} [Field F] [AddCommGroup G1] [Module F G1] [AddCommGroup G2] [Module F G2]
  [AddCommGroup GT] [Module F GT] [DecidableEq F] [DecidableEq G1] [DecidableEq G2] [DecidableEq GT]
variable (P : Params F G1 G2 GT)

/-! ## Soundness of blind issuance -/

theorem lookupBases_range : ∀ (h : List G1) (m : List (Nat × F)) (bs : List G1), lookupBases h m = .ok bs →
    ∀ p ∈ m, p.1 < h.length
  | _, [], _, _, _, hp => by cases hp
  | h, q :: m, bs, hok, p, hp => by
    rw [lookupBases] at hok
    cases hq : h[q.1]? with
    | none => rw [hq] at hok; simp at hok
    | some b =>
      rw [hq] at hok
      simp only [Res.unwrap_some, Res.ok_bind] at hok
      cases hm : lookupBases h m with
      | ok bs' =>
        rcases List.mem_cons.1 hp with rfl | hp
        · exact (List.getElem?_eq_some_iff.1 hq).1
        · exact lookupBases_range h m bs' hm p hp
      | err e => rw [hm] at hok; simp at hok
      | panic => rw [hm] at hok; simp at hok

/-- The context is accepted exactly if the proof of knowledge verifies over `h0` and the generators of the messages the issuer
does not know, and the challenge is the hash of those generators, the first message, the commitment and the nonce. -/
theorem ctx_verify_iff (ctx : BlindCtx F G1) (revealed : List Nat) (pk : PublicKey G1 G2) (nonce : F) :
    ctx.verify P revealed pk nonce = .ok true ↔
      ctx.proof.verifyComplete P.encG1.enc P.hashFr (pk.h0 :: hiddenBases (fun i => revealed.contains i) 0 pk.h)
        ctx.commitment ctx.challenge (P.encF.enc nonce) = .ok true := by
  unfold BlindCtx.verify Proof.verifyComplete
  simp only []
  generalize pk.h0 :: hiddenBases (fun i => revealed.contains i) 0 pk.h = bases
  cases hc : ctx.proof.challengeContribution bases ctx.commitment ctx.challenge with
  | ok c => simp [liftPoK]
  | err e => simp [liftPoK]
  | panic => simp [liftPoK]

/-- **C40** the issuer signs blindly only what its check of the context admits -/
theorem bbs_blind_sign_checks (ctx : BlindCtx F G1) (known : List (Nat × F)) (x : F) (pk : PublicKey G1 G2) (nonce e s : F)
    (bsig : Signature F G1) (h : blindSign P ctx known x pk nonce e s = .ok bsig) :
    ctx.verify P (known.map (·.1)) pk nonce = .ok true ∧ blindSigNew P ctx.commitment known x pk e s = .ok bsig := by
  unfold blindSign at h
  rw [Res.bind_eq_ok] at h
  obtain ⟨b, hb, h⟩ := h
  cases b with
  | true => exact ⟨hb, by simpa using h⟩
  | false => simp at h

/-- **C40** the holder keeps only a signature that verifies for its messages, and keeps every such signature -/
theorem bbs_complete_iff (pk : PublicKey G1 G2) (msgs : List F) (b sig : Signature F G1) (blinding : F) :
    completeSignature P pk msgs b blinding = .ok sig ↔ sig = ⟨b.a, b.e, b.s + blinding⟩ ∧ sig.verify P msgs pk = .ok true := by
  unfold completeSignature
  have hu : b.unblind blinding = ⟨b.a, b.e, b.s + blinding⟩ := rfl
  rw [Res.bind_eq_ok, hu]
  constructor
  · rintro ⟨v, hv, h⟩
    cases v with
    | true => simp only [if_true, Res.ok.injEq] at h; subst h; exact ⟨rfl, hv⟩
    | false => simp at h
  · rintro ⟨rfl, h⟩
    exact ⟨true, h, by simp⟩

/-- the values opening the commitment of a context, computed from two contexts: `(y' - y) / (c - c')` for the responses -/
def extractCtx (ctx ctx' : BlindCtx F G1) : List F :=
  List.zipWith (fun r r' => (ctx'.challenge - ctx.challenge)⁻¹ * (r - r')) ctx.proof.responses ctx'.proof.responses

/-- **C40, soundness** Two accepted contexts with the same commitment and first message and different challenges (the hash
function of the second one may be another one) tell the hidden messages and the blinding factor: every blind signature the issuer makes for this
commitment and these known messages is, after unblinding with that factor, a signature on the hidden messages together with the
known ones. -/
theorem bbs_blind_sound (hash' : Bytes → F) (ctx ctx' : BlindCtx F G1) (known : List (Nat × F)) (x : F) (pk : PublicKey G1 G2)
    (nonce nonce' : F) (hsk : Sorted known)
    (h : ctx.verify P (known.map (·.1)) pk nonce = .ok true)
    (h' : ctx'.verify { P with hashFr := hash' } (known.map (·.1)) pk nonce' = .ok true)
    (hC : ctx.commitment = ctx'.commitment) (hT : ctx.proof.commitment = ctx'.proof.commitment)
    (hc : ctx.challenge ≠ ctx'.challenge) :
    let blinding := (extractCtx ctx ctx').headD 0
    let msgs := fill (mapGet known) 0 pk.h.length (extractCtx ctx ctx').tail
    msm (pk.h0 :: hiddenBases (fun i => (mapGet known i).isSome) 0 pk.h) (extractCtx ctx ctx') = ctx.commitment ∧
      (∀ i m, mapGet known i = some m → i < pk.h.length → msgs[i]? = some m) ∧
      ∀ e s bsig, blindSigNew P ctx.commitment known x pk e s = .ok bsig →
        Valid P x pk (bsig.unblind blinding).a (bsig.unblind blinding).e (bsig.unblind blinding).s msgs := by
  rw [ctx_verify_iff, verify_complete_iff] at h h'
  have hv := h.1
  have hv' := h'.1
  rw [← hC] at hv'
  obtain ⟨hlen, hop⟩ := pok_sound _ _ _ _ _ _ hT hc hv hv'
  have hcontains : hiddenBases (fun i => (known.map (·.1)).contains i) 0 pk.h =
      hiddenBases (fun i => (mapGet known i).isSome) 0 pk.h := by
    apply hiddenBases_congr
    intro j _
    exact contains_keys known (0 + j)
  rw [hcontains] at hlen hop
  change (extractCtx ctx ctx').length = _ at hlen
  change msm _ (extractCtx ctx ctx') = _ at hop
  generalize extractCtx ctx ctx' = w at hlen hop
  cases w with
  | nil => simp at hlen
  | cons blinding ys =>
    obtain ⟨msgs, h1, h2, h3⟩ := merge_exists (get := mapGet known) 0 pk.h ys (by simpa using hlen)
    simp only [List.headD_cons, List.tail_cons]
    rw [← fill_spec 0 pk.h.length ys msgs h1 h2 h3]
    refine ⟨hop, fun i m hi hlt => h2 i m (by simpa using hi) hlt, ?_⟩
    intro e s bsig hb
    unfold blindSigNew at hb
    by_cases hcnt : known.length > pk.h.length
    · rw [if_pos hcnt] at hb; cases hb
    rw [if_neg hcnt] at hb
    by_cases hxe : x + e = 0
    · simp only [if_pos hxe] at hb
      cases h1 : (validateSk x : Res Error Unit) <;> rw [h1] at hb <;> try (simp at hb; done)
      cases h2 : pk.validate <;> rw [h2] at hb <;> try (simp at hb; done)
      cases h3 : lookupBases pk.h known <;> rw [h3] at hb <;> simp at hb
    simp only [if_neg hxe] at hb
    cases hsk' : (validateSk x : Res Error Unit) with
    | err e => rw [hsk'] at hb; simp at hb
    | panic => rw [hsk'] at hb; simp at hb
    | ok u =>
      cases hpk : pk.validate with
      | err e => rw [hsk', hpk] at hb; simp at hb
      | panic => rw [hsk', hpk] at hb; simp at hb
      | ok u =>
        cases hlb : lookupBases pk.h known with
        | err e => rw [hsk', hpk, hlb] at hb; simp at hb
        | panic => rw [hsk', hpk, hlb] at hb; simp at hb
        | ok bs =>
          rw [hsk', hpk, hlb] at hb
          simp only [Res.ok_bind, Res.ok.injEq] at hb
          subst hb
          have hr := lookupBases_range _ _ _ hlb
          obtain ⟨lk, vk⟩ := map_lookup hsk hr
          rw [hlb] at lk
          simp only [Res.ok.injEq] at lk
          rw [valid_iff]
          refine ⟨h1, ?_⟩
          simp only [Signature.unblind]
          rw [smul_smul, mul_inv_cancel₀ hxe, one_smul]
          have hsum := msm_split (get := mapGet known) 0 pk.h msgs h1.symm (fun j m hj hlt => h2 j m hj (by omega))
          rw [h3] at hsum
          simp only [getB, msm_cons, one_smul, hsum, lk, vk, ← hop]
          module

/-! ## Completeness of proofs of knowledge -/

/-- the message at an index, if it is revealed -/
def revealedAt (pms : List (ProofMessage F)) (i : Nat) : Option F :=
  match pms[i]? with
  | some (.revealed m) => some m
  | _ => none

theorem revealedOf_ge : ∀ (i : Nat) (pms : List (ProofMessage F)), ∀ p ∈ revealedOf i pms, i ≤ p.1
  | _, [], p, hp => by cases hp
  | i, .revealed m :: ms, p, hp => by
    rcases List.mem_cons.1 hp with rfl | hp
    · exact Nat.le_refl _
    · have := revealedOf_ge (i + 1) ms p hp; omega
  | i, .hidden m :: ms, p, hp => by have := revealedOf_ge (i + 1) ms p hp; omega
  | i, .hiddenExt m b :: ms, p, hp => by have := revealedOf_ge (i + 1) ms p hp; omega

theorem revealedOf_sorted : ∀ (i : Nat) (pms : List (ProofMessage F)), Sorted (revealedOf i pms)
  | _, [] => List.Pairwise.nil
  | i, .revealed m :: ms => List.pairwise_cons.2 ⟨fun p hp => revealedOf_ge (i + 1) ms p hp, revealedOf_sorted (i + 1) ms⟩
  | i, .hidden m :: ms => revealedOf_sorted (i + 1) ms
  | i, .hiddenExt m b :: ms => revealedOf_sorted (i + 1) ms

theorem mapGet_revealedOf : ∀ (i : Nat) (pms : List (ProofMessage F)) (j : Nat),
    mapGet (revealedOf i pms) (i + j) = revealedAt pms j := by
  intro i pms
  induction pms generalizing i with
  | nil => intro j; simp [revealedOf, revealedAt, mapGet_nil]
  | cons pm pms ih =>
    intro j
    cases j with
    | zero =>
      have hn : mapGet (revealedOf (i + 1) pms) i = none := mapGet_none_of_lt (fun p hp => revealedOf_ge (i + 1) pms p hp)
      cases pm <;> simp [revealedOf, revealedAt, mapGet_cons, hn]
    | succ j =>
      have h := ih (i + 1) j
      rw [show i + 1 + j = i + (j + 1) by omega] at h
      cases pm <;> simp only [revealedOf, revealedAt, List.getElem?_cons_succ, mapGet_cons] <;>
        (try rw [if_neg (by omega)]) <;> exact h

/-- **C41** the prover's map of revealed messages contains exactly the messages marked as revealed -/
theorem revealed_map_spec (pms : List (ProofMessage F)) (i : Nat) (m : F) :
    mapGet (revealedOf 0 pms) i = some m ↔ pms[i]? = some (.revealed m) := by
  have := mapGet_revealedOf 0 pms i
  rw [Nat.zero_add] at this
  rw [this]
  unfold revealedAt
  rcases pms[i]? with _ | (m' | m' | ⟨m', b⟩) <;> simp

theorem hiddenOf_spec (blind : Nat → F) : ∀ (i : Nat) (hs : List G1) (pms : List (ProofMessage F)) (k : Nat → Bool),
    hs.length = pms.length → (∀ j, k (i + j) = (revealedAt pms j).isSome) →
    (hiddenOf blind i hs pms).map (·.1) = hiddenBases k i hs ∧
    (hiddenOf blind i hs pms).map (·.2.2) = hiddenBases k i (pms.map (·.get)) := by
  intro i hs
  induction hs generalizing i with
  | nil => intro pms k hl _; cases pms with
    | nil => exact ⟨rfl, rfl⟩
    | cons _ _ => simp at hl
  | cons h hs ih =>
    intro pms k hl hk
    cases pms with
    | nil => simp at hl
    | cons pm pms =>
      have h0 := hk 0
      have ih' := ih (i + 1) pms k (by simpa using hl) (fun j => by
        have := hk (j + 1)
        rw [show i + (j + 1) = i + 1 + j by omega] at this
        rw [this]; simp [revealedAt])
      rw [Nat.add_zero] at h0
      cases pm <;> simp only [revealedAt, List.getElem?_cons_zero, Option.isSome_some, Option.isSome_none] at h0 <;>
        simp [hiddenOf, hiddenBases, h0, ih'.1, ih'.2, ProofMessage.get]

/-- the generators and values of the hidden messages -/
theorem hiddenOf_eq (blind : Nat → F) (hs : List G1) (pms : List (ProofMessage F)) (hl : pms.length = hs.length) :
    (hiddenOf blind 0 hs pms).map (·.1) = hiddenBases (fun i => (mapGet (revealedOf 0 pms) i).isSome) 0 hs ∧
    (hiddenOf blind 0 hs pms).map (·.2.2) =
      hiddenBases (fun i => (mapGet (revealedOf 0 pms) i).isSome) 0 (pms.map (·.get)) :=
  hiddenOf_spec blind 0 hs pms _ hl.symm (fun j => by rw [mapGet_revealedOf])

theorem revealed_agree (pms : List (ProofMessage F)) (j : Nat) (m : F) (h : mapGet (revealedOf 0 pms) (0 + j) = some m) :
    (pms.map (·.get))[j]? = some m := by
  rw [Nat.zero_add] at h
  have := (revealed_map_spec pms j m).1 h
  simp [this, ProofMessage.get]

theorem revealed_keys_lt (pms : List (ProofMessage F)) : ∀ p ∈ revealedOf 0 pms, p.1 < pms.length := by
  intro p hp
  have := (mapGet_mem (revealedOf_sorted 0 pms)).2 hp
  have := (revealed_map_spec pms p.1 p.2).1 this
  exact (List.getElem?_eq_some_iff.1 this).1

/-- the proof `gen_proof` makes from `init` -/
def honestProof (sig : Signature F G1) (pk : PublicKey G1 G2) (pms : List (ProofMessage F)) (r : Rand F) (c : F) :
    SigProof F G1 :=
  let p := initValid P sig pk pms r
  ⟨p.aPrime, p.aBar, p.d, ⟨p.vc1.commitment, List.zipWith (fun b s => b - c * s) p.vc1.blindings p.secrets1⟩,
    ⟨p.vc2.commitment, List.zipWith (fun b s => b - c * s) p.vc2.blindings p.secrets2⟩⟩

theorem genProof_eq (sig : Signature F G1) (pk : PublicKey G1 G2) (pms : List (ProofMessage F)) (r : Rand F) (c : F) :
    (initValid P sig pk pms r).genProof c = .ok (honestProof P sig pk pms r c) := by
  unfold PoKSig.genProof Committed.genProof
  simp [initValid, Committing.finish, liftPoK, honestProof]

/-- the first relation as an equation -/
theorem verify1_iff (p : SigProof F G1) (pk : PublicKey G1 G2) (c : F) :
    liftPoK (p.vc1.verify [p.aPrime, pk.h0] (p.aBar - p.d) c) = .ok true ↔
      p.vc1.responses.length = 2 ∧ msm [p.aPrime, pk.h0] p.vc1.responses + c • (p.aBar - p.d) = p.vc1.commitment := by
  have hv := verify_iff p.vc1 [p.aPrime, pk.h0] (p.aBar - p.d) c
  by_cases hl : [p.aPrime, pk.h0].length = p.vc1.responses.length
  · have := (hv.2 hl).1
    rw [← this]
    constructor
    · intro h
      refine ⟨hl.symm, ?_⟩
      cases hx : p.vc1.verify [p.aPrime, pk.h0] (p.aBar - p.d) c <;> rw [hx] at h <;> simp_all [liftPoK]
    · rintro ⟨-, h⟩; rw [h]; rfl
  · rw [hv.1 hl]
    simp only [liftPoK, reduceCtorEq, false_iff, not_and]
    intro h; exact absurd h.symm hl

/-- the second relation as an equation -/
theorem verify2_iff (p : SigProof F G1) (pk : PublicKey G1 G2) (rev : List (Nat × F)) (c : F) :
    p.verify2 P pk rev c = .ok .success ↔
      (p.d :: pk.h0 :: hiddenBases (fun i => (mapGet rev i).isSome) 0 pk.h).length = p.vc2.responses.length ∧
      msm (p.d :: pk.h0 :: hiddenBases (fun i => (mapGet rev i).isSome) 0 pk.h) p.vc2.responses -
        c • (P.g1 + msm ((revealedTerms (mapGet rev) 0 pk.h).map (·.1)) ((revealedTerms (mapGet rev) 0 pk.h).map (·.2))) =
        p.vc2.commitment := by
  unfold SigProof.verify2
  simp only [msm_cons, one_smul]
  generalize P.g1 + msm ((revealedTerms (mapGet rev) 0 pk.h).map (·.1)) ((revealedTerms (mapGet rev) 0 pk.h).map (·.2)) = R
  generalize (p.d :: pk.h0 :: hiddenBases (fun i => (mapGet rev i).isSome) 0 pk.h) = bases
  have hv := verify_iff p.vc2 bases (-R) c
  by_cases hl : bases.length = p.vc2.responses.length
  · have h1 := (hv.2 hl).1
    have h2 := (hv.2 hl).2
    have e1 : msm bases p.vc2.responses + c • (-R) = msm bases p.vc2.responses - c • R := by module
    rw [e1] at h1 h2
    by_cases heq : msm bases p.vc2.responses - c • R = p.vc2.commitment
    · rw [h1.2 heq]; simp [hl, heq]
    · rw [h2.2 heq]; simp [hl, heq]
  · rw [hv.1 hl]; simp [hl]

/-- `verify` answers `Success` exactly if the key is well formed, the revealed indices are in range, `A'` is not the neutral
element, the pairing equation holds and both relations are proved. -/
theorem pok_verify_iff (p : SigProof F G1) (pk : PublicKey G1 G2) (rev : List (Nat × F)) (c : F) :
    p.verify P pk rev c = .ok .success ↔
      WellFormed pk ∧ (∀ q ∈ rev, q.1 < pk.h.length) ∧ p.aPrime ≠ 0 ∧ P.e p.aPrime pk.w = P.e p.aBar P.g2 ∧
      (p.vc1.responses.length = 2 ∧
        msm [p.aPrime, pk.h0] p.vc1.responses + c • (p.aBar - p.d) = p.vc1.commitment) ∧
      p.verify2 P pk rev c = .ok .success := by
  unfold SigProof.verify
  rw [← verify1_iff p pk c, ← validate_ok]
  cases h0 : pk.validate with
  | err e => simp
  | panic => simp
  | ok u =>
    simp only [Res.ok_bind, true_and]
    have hany : (rev.any (fun q => decide (q.1 ≥ pk.h.length)) = true) ↔ ¬ ∀ q ∈ rev, q.1 < pk.h.length := by
      rw [List.any_eq_true]
      push Not
      simp
    by_cases hr : ∀ q ∈ rev, q.1 < pk.h.length
    · rw [if_neg (by rw [hany]; exact not_not.2 hr)]
      by_cases ha : p.aPrime = 0
      · rw [if_pos ha]; simp [ha]
      · rw [if_neg ha]
        have he : P.e p.aPrime pk.w + P.e (-p.aBar) P.g2 = 0 ↔ P.e p.aPrime pk.w = P.e p.aBar P.g2 := by
          rw [map_neg, LinearMap.neg_apply, ← sub_eq_add_neg, sub_eq_zero]
        by_cases hp : P.e p.aPrime pk.w = P.e p.aBar P.g2
        · rw [if_neg (by rw [ne_eq, he]; exact not_not.2 hp)]
          cases hl : (liftPoK (p.vc1.verify [p.aPrime, pk.h0] (p.aBar - p.d) c) : Res Error Bool) with
          | err e => simp
          | panic => simp
          | ok b =>
            have hr' : ∀ a b, (a, b) ∈ rev → a < pk.h.length := fun a b h => hr _ h
            cases b <;> simp [ha, hp]
            exact fun _ => hr'
        · rw [if_pos (by rw [ne_eq, he]; exact hp)]
          simp [hp]
    · rw [if_pos (hany.2 hr)]
      simp only [reduceCtorEq, false_iff]
      tauto

/-- The honest proof verifies for every challenge. -/
theorem honest_verifies (sig : Signature F G1) (pk : PublicKey G1 G2) (pms : List (ProofMessage F)) (r : Rand F)
    (hv : sig.verify P (pms.map (·.get)) pk = .ok true) (hr1 : r.r1 ≠ 0) (c : F) :
    (honestProof P sig pk pms r c).verify P pk (revealedOf 0 pms) c = .ok .success := by
  obtain ⟨hl, hwf, ⟨ha, -, -⟩, hpair⟩ := (verify_true_pairing P _ _ _).1 hv
  rw [List.length_map] at hl
  have hkeys : ∀ q ∈ revealedOf 0 pms, q.1 < pk.h.length := by rw [← hl]; exact revealed_keys_lt pms
  obtain ⟨hb, hx⟩ := hiddenOf_eq r.blind pk.h pms hl
  have hsum := msm_split (get := mapGet (revealedOf 0 pms)) 0 pk.h (pms.map (·.get)) (by simp [hl])
    (fun j m hj _ => revealed_agree pms j m hj)
  rw [pok_verify_iff, verify2_iff]
  simp only [map_add, map_smul] at hpair
  refine ⟨hwf, hkeys, smul_ne_zero hr1 ha, ?_, ⟨by simp [honestProof, initValid, Committing.finish], ?_⟩, ?_, ?_⟩
  · simp only [honestProof, initValid, map_sub, map_smul, LinearMap.sub_apply, LinearMap.smul_apply, ← hpair]
    module
  · simp only [honestProof, initValid, Committing.finish, List.zipWith_cons_cons, List.zipWith_nil_left, msm_cons, msm_nil]
    module
  · rw [← hb]
    simp [honestProof, initValid, Committing.finish]
  · rw [← hb] at hsum ⊢
    rw [← hx] at hsum
    simp only [honestProof, initValid, Committing.finish, List.zipWith_cons_cons, msm_cons, msm_nil, getB, hsum, one_smul]
    rw [msm_sub_mul _ _ _ _ (by simp)]
    have h3 : r.r1⁻¹ * r.r1 = 1 := inv_mul_cancel₀ hr1
    generalize msm ((hiddenOf r.blind 0 pk.h pms).map (·.1)) ((hiddenOf r.blind 0 pk.h pms).map (·.2.2)) = H
    generalize msm ((hiddenOf r.blind 0 pk.h pms).map (·.1)) ((hiddenOf r.blind 0 pk.h pms).map (·.2.1)) = T
    generalize msm ((revealedTerms (mapGet (revealedOf 0 pms)) 0 pk.h).map (·.1))
      ((revealedTerms (mapGet (revealedOf 0 pms)) 0 pk.h).map (·.2)) = R
    generalize r.r1⁻¹ = r3 at h3
    have e1 : ∀ X : G1, (c * r3 * r.r1) • X = c • X := by intro X; rw [mul_assoc, h3, mul_one]
    have := e1 (P.g1 + (sig.s • pk.h0 + (R + H)))
    linear_combination (norm := module) this

/-- the bytes the verifier hashes for an honest proof are the bytes the prover hashed -/
theorem honest_bytes (sig : Signature F G1) (pk : PublicKey G1 G2) (pms : List (ProofMessage F)) (r : Rand F) (c : F)
    (hl : pms.length = pk.h.length) :
    (honestProof P sig pk pms r c).bytesForChallenge P ((revealedOf 0 pms).map (·.1)) pk =
      (initValid P sig pk pms r).toBytes P := by
  obtain ⟨hb, -⟩ := hiddenOf_eq r.blind pk.h pms hl
  have hcontains : hiddenBases (fun i => ((revealedOf 0 pms).map (·.1)).contains i) 0 pk.h =
      hiddenBases (fun i => (mapGet (revealedOf 0 pms) i).isSome) 0 pk.h :=
    hiddenBases_congr 0 pk.h (fun j _ => contains_keys _ (0 + j))
  simp only [SigProof.bytesForChallenge, hcontains, ← hb]
  simp [honestProof, PoKSig.toBytes, initValid, Committed.toBytes, Committing.finish]

/-- **C41** Proving with a valid signature, any choice of revealed messages and any randomness (`r1 ≠ 0`): `init` succeeds; for
every challenge `gen_proof` makes a proof that `verify` accepts for the revealed messages; prover and verifier hash the same
bytes. -/
theorem bbs_pok_complete (sig : Signature F G1) (pk : PublicKey G1 G2) (pms : List (ProofMessage F)) (r : Rand F)
    (hv : sig.verify P (pms.map (·.get)) pk = .ok true) (hr1 : r.r1 ≠ 0) :
    ∃ pok, init P sig pk pms r = .ok pok ∧
      (∀ i m, mapGet pok.revealed i = some m ↔ pms[i]? = some (.revealed m)) ∧
      ∀ c, ∃ proof, pok.genProof c = .ok proof ∧ proof.verify P pk pok.revealed c = .ok .success ∧
        proof.bytesForChallenge P (pok.revealed.map (·.1)) pk = pok.toBytes P := by
  have hl : pms.length = pk.h.length := by simpa using ((verify_true_pairing P _ _ _).1 hv).1
  refine ⟨initValid P sig pk pms r, ?_, fun i m => revealed_map_spec pms i m, fun c => ⟨honestProof P sig pk pms r c,
    genProof_eq P sig pk pms r c, honest_verifies P sig pk pms r hv hr1 c, honest_bytes P sig pk pms r c hl⟩⟩
  simp [init, hl, hv]

/-- **C41** no proof is started from a signature that does not verify for the given messages -/
theorem bbs_init_ok_iff (sig : Signature F G1) (pk : PublicKey G1 G2) (pms : List (ProofMessage F)) (r : Rand F) :
    (∃ pok, init P sig pk pms r = .ok pok) ↔ sig.verify P (pms.map (·.get)) pk = .ok true := by
  constructor
  · rintro ⟨pok, h⟩
    unfold init at h
    split_ifs at h with hl
    cases hx : sig.verify P (pms.map (·.get)) pk with
    | ok b => cases b with
      | true => rfl
      | false => rw [hx] at h; simp at h
    | err e => rw [hx] at h; simp at h
    | panic => rw [hx] at h; simp at h
  · intro h
    have hl : pms.length = pk.h.length := by simpa using ((verify_true_pairing P _ _ _).1 h).1
    exact ⟨initValid P sig pk pms r, by simp [init, hl, h]⟩

theorem proverChallenge_single (pok : PoKSig F G1) (nonce : F) :
    proverChallenge P [pok] [] nonce = P.hashFr (pok.toBytes P ++ P.encF.enc nonce) := by
  simp [proverChallenge]

theorem verifySignaturePok_ok (request : ProofRequest G1 G2) (sp : SignatureProof F G1) (nonce : F) (out : List F) :
    verifySignaturePok P request sp nonce = .ok out ↔ out = sp.revealed.map (·.2) ∧
      sp.proof.verify P request.key sp.revealed
        (P.hashFr (sp.proof.bytesForChallenge P request.revealed request.key ++ P.encF.enc nonce)) = .ok .success := by
  unfold verifySignaturePok
  cases h : sp.proof.verify P request.key sp.revealed
    (P.hashFr (sp.proof.bytesForChallenge P request.revealed request.key ++ P.encF.enc nonce)) with
  | ok st => cases st <;> simp [h, eq_comm]
  | err e => simp [h]
  | panic => simp [h]

/-- **C41** End to end: a prover answering a request for exactly the messages it reveals is accepted, and the verifier gets the
revealed messages in index order. -/
theorem bbs_presentation_accepted (sig : Signature F G1) (pk : PublicKey G1 G2) (pms : List (ProofMessage F)) (r : Rand F)
    (nonce : F) (hv : sig.verify P (pms.map (·.get)) pk = .ok true) (hr1 : r.r1 ≠ 0) :
    ∃ pok sp, init P sig pk pms r = .ok pok ∧
      generateSignaturePok pok (proverChallenge P [pok] [] nonce) = .ok sp ∧
      verifySignaturePok P ⟨(revealedOf 0 pms).map (·.1), pk⟩ sp nonce = .ok ((revealedOf 0 pms).map (·.2)) := by
  have hl : pms.length = pk.h.length := by simpa using ((verify_true_pairing P _ _ _).1 hv).1
  let pok := initValid P sig pk pms r
  let c := proverChallenge P [pok] [] nonce
  refine ⟨pok, ⟨revealedOf 0 pms, honestProof P sig pk pms r c⟩, by simp [init, hl, hv, pok], ?_, ?_⟩
  · unfold generateSignaturePok
    rw [genProof_eq]
    rfl
  · rw [verifySignaturePok_ok]
    refine ⟨rfl, ?_⟩
    simp only
    rw [honest_bytes P sig pk pms r c hl, ← proverChallenge_single]
    exact honest_verifies P sig pk pms r hv hr1 c

/-- **C41** several proofs under one challenge: prover and verifier compute the same challenge, so every proof of the list is
accepted under the verifier's challenge -/
theorem bbs_joint_challenge (items : List (Signature F G1 × PublicKey G1 G2 × List (ProofMessage F) × Rand F)) (c nonce : F)
    (claims : List Bytes) (hl : ∀ it ∈ items, it.2.2.1.length = it.2.1.h.length) :
    verifierChallenge P
      (items.map (fun it => ⟨revealedOf 0 it.2.2.1, honestProof P it.1 it.2.1 it.2.2.1 it.2.2.2 c⟩))
      (items.map (fun it => ⟨(revealedOf 0 it.2.2.1).map (·.1), it.2.1⟩)) nonce claims =
    proverChallenge P (items.map (fun it => initValid P it.1 it.2.1 it.2.2.1 it.2.2.2)) claims nonce := by
  unfold verifierChallenge proverChallenge
  congr 4
  induction items with
  | nil => rfl
  | cons it items ih =>
    simp only [List.map_cons, List.zipWith_cons_cons]
    rw [ih (fun x hx => hl x (List.mem_cons_of_mem _ hx)), honest_bytes P _ _ _ _ _ (hl it List.mem_cons_self)]

/-! ## Special soundness -/

/-- the signature computed from two proofs: with `δ = (y' - y) / (c - c')` for each pair of responses, `A = -δ₂₀ A'`, `e = -δ₁₀`,
`s = δ₂₁ - δ₂₀ δ₁₁` -/
def extractSig (c c' : F) (p p' : SigProof F G1) : Signature F G1 :=
  let d1 (i : Nat) := (c - c')⁻¹ * (p'.vc1.responses.getD i 0 - p.vc1.responses.getD i 0)
  let d2 (i : Nat) := (c - c')⁻¹ * (p'.vc2.responses.getD i 0 - p.vc2.responses.getD i 0)
  ⟨(-d2 0) • p.aPrime, -d1 0, d2 1 - d2 0 * d1 1⟩

/-- the messages computed from two proofs: the revealed ones at their indices, `(y' - y) / (c - c')` at the others -/
def extractMsgs (c c' : F) (p p' : SigProof F G1) (rev : List (Nat × F)) (n : Nat) : List F :=
  fill (mapGet rev) 0 n (List.zipWith (fun y' y => (c - c')⁻¹ * (y' - y)) (p'.vc2.responses.drop 2) (p.vc2.responses.drop 2))

/-- `bbs_pok_sound` with the extracted hidden messages: they are `(y' - y) / (c - c')` for the responses `y`, `y'`. -/
theorem bbs_pok_extract (hnd : Nondeg P) (p p' : SigProof F G1) (pk : PublicKey G1 G2) (x : F) (rev : List (Nat × F)) (c c' : F)
    (hw : pk.w = x • P.g2)
    (h : p.verify P pk rev c = .ok .success) (h' : p'.verify P pk rev c' = .ok .success) (hc : c ≠ c')
    (ha : p.aPrime = p'.aPrime) (hb : p.aBar = p'.aBar) (hd : p.d = p'.d)
    (hT1 : p.vc1.commitment = p'.vc1.commitment) (hT2 : p.vc2.commitment = p'.vc2.commitment) :
    let sig := extractSig c c' p p'
    let msgs := extractMsgs c c' p p' rev pk.h.length
    Valid P x pk sig.a sig.e sig.s msgs ∧ (∀ i m, mapGet rev i = some m → i < pk.h.length → msgs[i]? = some m) ∧
      hiddenBases (fun i => (mapGet rev i).isSome) 0 msgs =
        List.zipWith (fun y' y => (c - c')⁻¹ * (y' - y)) (p'.vc2.responses.drop 2) (p.vc2.responses.drop 2) ∧
      (sig.a = 0 → P.g1 + sig.s • pk.h0 + ((pk.h.zip msgs).map (fun q => q.2 • q.1)).sum = 0) ∧
      (sig.a ≠ 0 → sig.e ≠ 0 → sig.s ≠ 0 → sig.verify P msgs pk = .ok true) := by
  intro sig msgs'
  rw [pok_verify_iff, verify2_iff] at h h'
  obtain ⟨hwf, -, hne, hpair, ⟨hl1, e1⟩, hl2, e2⟩ := h
  obtain ⟨-, -, -, -, ⟨hl1', e1'⟩, hl2', e2'⟩ := h'
  rw [← ha, ← hb, ← hd, ← hT1] at e1'
  rw [← hd, ← hT2] at e2'
  rw [← hd] at hl2'
  set HB := hiddenBases (fun i => (mapGet rev i).isSome) 0 pk.h with hHB
  -- responses
  obtain ⟨u, v, huv⟩ : ∃ u v, p.vc1.responses = [u, v] := List.length_eq_two.1 hl1
  obtain ⟨u', v', huv'⟩ : ∃ u v, p'.vc1.responses = [u, v] := List.length_eq_two.1 hl1'
  rcases hq : p.vc2.responses with _ | ⟨a, _ | ⟨b, ys⟩⟩
  · rw [hq] at hl2; simp at hl2
  · rw [hq] at hl2; simp at hl2
  rcases hq' : p'.vc2.responses with _ | ⟨a', _ | ⟨b', ys'⟩⟩
  · rw [hq'] at hl2'; simp at hl2'
  · rw [hq'] at hl2'; simp at hl2'
  rw [huv] at e1
  rw [huv'] at e1'
  rw [hq] at e2 hl2
  rw [hq'] at e2' hl2'
  simp only [msm_cons, msm_nil, add_zero, List.length_cons] at e1 e1' e2 e2' hl2 hl2'
  have hcc : c - c' ≠ 0 := sub_ne_zero.2 hc
  let k := (c - c')⁻¹
  have hk : k * (c - c') = 1 := inv_mul_cancel₀ hcc
  -- extracted hidden values; scalar k (y' - y)
  let zs := List.zipWith (fun y' y => k * (y' - y)) ys' ys
  have hzs : msm HB zs = k • (msm HB ys' - msm HB ys) := msm_mul_sub _ _ _ _ (by omega)
  obtain ⟨msgs, m1, m2, m3⟩ := merge_exists (get := mapGet rev) 0 pk.h zs (by
    simp only [zs, List.length_zipWith]; rw [← hHB]; omega)
  have hsum := msm_split (get := mapGet rev) 0 pk.h msgs m1.symm (fun j m hj hlt => m2 j m hj (by omega))
  rw [m3, ← hHB, hzs] at hsum
  set R := msm ((revealedTerms (mapGet rev) 0 pk.h).map (·.1)) ((revealedTerms (mapGet rev) 0 pk.h).map (·.2)) with hR
  -- aBar = x aPrime
  have hx : p.aBar = x • p.aPrime := by
    have : P.e (p.aBar - x • p.aPrime) P.g2 = 0 := by
      rw [hw] at hpair
      simp only [map_sub, map_smul, LinearMap.sub_apply, LinearMap.smul_apply] at hpair ⊢
      rw [hpair]; simp
    exact sub_eq_zero.1 (hnd _ this)
  -- subtract the transcripts
  have E1 : (c - c') • (p.aBar - p.d) = (u' - u) • p.aPrime + (v' - v) • pk.h0 := by
    have := e1.trans e1'.symm
    linear_combination (norm := module) this
  have E2 : (c - c') • (P.g1 + R) = (a - a') • p.d + (b - b') • pk.h0 + (msm HB ys - msm HB ys') := by
    have := e2.trans e2'.symm
    linear_combination (norm := module) (-1 : F) • this
  have E1' : p.d = p.aBar - (k * (u' - u)) • p.aPrime - (k * (v' - v)) • pk.h0 := by
    have : p.aBar - p.d = k • ((u' - u) • p.aPrime + (v' - v) • pk.h0) := by
      rw [← E1, smul_smul, hk, one_smul]
    linear_combination (norm := module) (-1 : F) • this
  have E2' : P.g1 + R = k • ((a - a') • p.d + (b - b') • pk.h0 + (msm HB ys - msm HB ys')) := by
    rw [← E2, smul_smul, hk, one_smul]
  let r3 := k * (a - a')
  let e := -(k * (u' - u))
  let s := k * (b' - b) + r3 * (k * (v' - v))
  have hval : Valid P x pk (r3 • p.aPrime) e s msgs := by
    rw [valid_iff]
    refine ⟨m1, ?_⟩
    simp only [getB, msm_cons, one_smul, hsum]
    rw [E1', hx] at E2'
    simp only [r3, e, s]
    linear_combination (norm := module) (-1 : F) • E2'
  have hms : msgs' = msgs := by
    rw [fill_spec 0 pk.h.length zs msgs m1 m2 m3]
    simp only [msgs', extractMsgs, hq, hq', List.drop_succ_cons, List.drop_zero, zs, k]
  have hsig : sig = ⟨r3 • p.aPrime, e, s⟩ := by
    simp only [sig, extractSig, hq, hq', huv, huv', r3, e, s, k, List.getD_cons_zero, List.getD_cons_succ, Signature.mk.injEq, true_and]
    constructor
    · congr 1; ring
    · ring
  rw [hms, hsig]
  refine ⟨hval, fun i m hi hlt => m2 i m (by simpa using hi) hlt, by rw [m3]; rfl, fun h0 => ?_, fun h0 he hs => ?_⟩
  · have := hval.2
    simp only at h0
    rw [h0] at this
    rw [← this]; simp
  · rw [bbs_verify_iff P hnd _ _ _ x hw]
    exact ⟨hwf, ⟨h0, he, hs⟩, hval⟩

/-- **C42** Two accepted proofs with the same `A'`, `Ā`, `d`, first messages and revealed messages, and different challenges, give
(computed by `extractSig`, `extractMsgs`) a solution `(A, e, s, messages)` of the BBS+ equation whose messages contain the revealed ones.  If `A` is
neutral the solution is a non-trivial relation `g1 + s h0 + Σ m_i h_i = 0` between the generators; if `A`, `e` and `s` are not zero, `verify`
accepts it. -/
theorem bbs_pok_sound (hnd : Nondeg P) (p p' : SigProof F G1) (pk : PublicKey G1 G2) (x : F) (rev : List (Nat × F)) (c c' : F)
    (hw : pk.w = x • P.g2)
    (h : p.verify P pk rev c = .ok .success) (h' : p'.verify P pk rev c' = .ok .success) (hc : c ≠ c')
    (ha : p.aPrime = p'.aPrime) (hb : p.aBar = p'.aBar) (hd : p.d = p'.d)
    (hT1 : p.vc1.commitment = p'.vc1.commitment) (hT2 : p.vc2.commitment = p'.vc2.commitment) :
    let sig := extractSig c c' p p'
    let msgs := extractMsgs c c' p p' rev pk.h.length
    Valid P x pk sig.a sig.e sig.s msgs ∧ (∀ i m, mapGet rev i = some m → i < pk.h.length → msgs[i]? = some m) ∧
      (sig.a = 0 → P.g1 + sig.s • pk.h0 + ((pk.h.zip msgs).map (fun q => q.2 • q.1)).sum = 0) ∧
      (sig.a ≠ 0 → sig.e ≠ 0 → sig.s ≠ 0 → sig.verify P msgs pk = .ok true) := by
  obtain ⟨h1, h2, -, h3⟩ := bbs_pok_extract P hnd p p' pk x rev c c' hw h h' hc ha hb hd hT1 hT2
  exact ⟨h1, h2, h3⟩

/-- the responses `get_resp_for_message` reads are the third one and the following -/
theorem respForMessage_ok (p : SigProof F G1) (i : Nat) (v : F) :
    p.respForMessage i = .ok v ↔ (p.vc2.responses.drop 2)[i]? = some v := by
  unfold SigProof.respForMessage
  rw [List.getElem?_drop]
  by_cases h : p.vc2.responses.length < 2
  · rw [if_pos h, List.getElem?_eq_none (by omega)]; simp
  · rw [if_neg h]
    by_cases h2 : i ≥ p.vc2.responses.length - 2
    · rw [if_pos h2, List.getElem?_eq_none (by omega)]; simp
    · rw [if_neg h2, List.getElem?_eq_getElem (by omega)]
      simp

/-- **C76** Comparing responses compares messages: if two provers answer two challenges `c ≠ c'`, all proofs are accepted, and
`get_resp_for_message(i)` of the first prover's proofs equals `get_resp_for_message(j)` of the second one's under both challenges,
then the signatures extracted from both are on message lists whose `i`-th and `j`-th hidden entries are equal. -/
theorem bbs_equal_responses_sound (hnd : Nondeg P) (p p' q q' : SigProof F G1) (pk pk2 : PublicKey G1 G2) (x x2 : F)
    (rev rev2 : List (Nat × F)) (c c' : F) (i j : Nat) (v v' : F) (hw : pk.w = x • P.g2) (hw2 : pk2.w = x2 • P.g2)
    (hp : p.verify P pk rev c = .ok .success) (hp' : p'.verify P pk rev c' = .ok .success)
    (hq : q.verify P pk2 rev2 c = .ok .success) (hq' : q'.verify P pk2 rev2 c' = .ok .success) (hc : c ≠ c')
    (ha : p.aPrime = p'.aPrime ∧ p.aBar = p'.aBar ∧ p.d = p'.d ∧ p.vc1.commitment = p'.vc1.commitment ∧
      p.vc2.commitment = p'.vc2.commitment)
    (hb : q.aPrime = q'.aPrime ∧ q.aBar = q'.aBar ∧ q.d = q'.d ∧ q.vc1.commitment = q'.vc1.commitment ∧
      q.vc2.commitment = q'.vc2.commitment)
    (h1 : p.respForMessage i = .ok v) (h2 : q.respForMessage j = .ok v)
    (h1' : p'.respForMessage i = .ok v') (h2' : q'.respForMessage j = .ok v') :
    let sig := extractSig c c' p p'
    let sig2 := extractSig c c' q q'
    let msgs := extractMsgs c c' p p' rev pk.h.length
    let msgs2 := extractMsgs c c' q q' rev2 pk2.h.length
    ∃ m : F,
      Valid P x pk sig.a sig.e sig.s msgs ∧ Valid P x2 pk2 sig2.a sig2.e sig2.s msgs2 ∧
      (hiddenBases (fun i => (mapGet rev i).isSome) 0 msgs)[i]? = some m ∧
      (hiddenBases (fun i => (mapGet rev2 i).isSome) 0 msgs2)[j]? = some m := by
  obtain ⟨a1, -, a2, -⟩ := bbs_pok_extract P hnd p p' pk x rev c c' hw hp hp' hc ha.1 ha.2.1 ha.2.2.1 ha.2.2.2.1
    ha.2.2.2.2
  obtain ⟨b1, -, b2, -⟩ := bbs_pok_extract P hnd q q' pk2 x2 rev2 c c' hw2 hq hq' hc hb.1 hb.2.1 hb.2.2.1
    hb.2.2.2.1 hb.2.2.2.2
  rw [respForMessage_ok] at h1 h2 h1' h2'
  refine ⟨(c - c')⁻¹ * (v' - v), a1, b1, ?_, ?_⟩
  · rw [a2, List.getElem?_zipWith, h1, h1']
  · rw [b2, List.getElem?_zipWith, h2, h2']

/-! ## What the verifier does not enforce -/

/-- **C43** (negated) Whatever the verifier requests, a prover with a valid signature is accepted while revealing any set of messages it
likes, in particular none. -/
theorem bbs_request_not_enforced (sig : Signature F G1) (pk : PublicKey G1 G2) (pms : List (ProofMessage F)) (r : Rand F)
    (nonce : F) (requested : List Nat) (hv : sig.verify P (pms.map (·.get)) pk = .ok true) (hr1 : r.r1 ≠ 0) :
    ∃ sp, (∀ i m, mapGet sp.revealed i = some m ↔ pms[i]? = some (.revealed m)) ∧
      verifySignaturePok P ⟨requested, pk⟩ sp nonce = .ok (sp.revealed.map (·.2)) := by
  let bytes := (honestProof P sig pk pms r 0).bytesForChallenge P requested pk
  let c := P.hashFr (bytes ++ P.encF.enc nonce)
  refine ⟨⟨revealedOf 0 pms, honestProof P sig pk pms r c⟩, fun i m => revealed_map_spec pms i m, ?_⟩
  rw [verifySignaturePok_ok]
  refine ⟨rfl, ?_⟩
  have : (honestProof P sig pk pms r c).bytesForChallenge P requested pk = bytes := rfl
  simp only
  rw [this]
  exact honest_verifies P sig pk pms r hv hr1 c

/-- change the value of one revealed message -/
def shiftAt (k : Nat) (δ : F) (rev : List (Nat × F)) : List (Nat × F) :=
  rev.map (fun q => if q.1 = k then (q.1, q.2 + δ) else q)

theorem mapGet_shiftAt (k : Nat) (δ : F) (rev : List (Nat × F)) (i : Nat) :
    mapGet (shiftAt k δ rev) i = (mapGet rev i).map (fun m => if i = k then m + δ else m) := by
  induction rev with
  | nil => rfl
  | cons q rev ih =>
    obtain ⟨j, v⟩ := q
    simp only [shiftAt, List.map_cons] at ih ⊢
    by_cases hjk : j = k
    · simp only [hjk, if_true, mapGet_cons]
      by_cases hki : k = i
      · simp [hki]
      · simp only [if_neg hki]; exact ih
    · simp only [if_neg hjk, mapGet_cons]
      by_cases hji : j = i
      · subst hji; simp [hjk]
      · simp only [if_neg hji]; exact ih

theorem revealed_shift {get : Nat → Option F} (k : Nat) (δ : F) (g : G1) (m : F) : ∀ (i : Nat) (hs : List G1),
    (∀ j : Nat, i + j = k → hs[j]? = some g) → (i ≤ k) → get k = some m →
    msm ((revealedTerms (fun i => (get i).map (fun m => if i = k then m + δ else m)) i hs).map (·.1))
      ((revealedTerms (fun i => (get i).map (fun m => if i = k then m + δ else m)) i hs).map (·.2)) =
    msm ((revealedTerms get i hs).map (·.1)) ((revealedTerms get i hs).map (·.2)) + δ • g := by
  intro i hs
  have later : ∀ (hs : List G1) (i : Nat), k < i →
      revealedTerms (fun i => (get i).map (fun m => if i = k then m + δ else m)) i hs = revealedTerms get i hs := by
    intro hs
    induction hs with
    | nil => intro _ _; rfl
    | cons h hs ih =>
      intro i hi
      simp only [revealedTerms, ih (i + 1) (by omega), if_neg (show i ≠ k by omega)]
      cases get i <;> rfl
  induction hs generalizing i with
  | nil =>
    intro H hik _
    have := H (k - i) (by omega)
    simp at this
  | cons h hs ih =>
    intro H hik hg
    by_cases hik' : i = k
    · subst hik'
      have hh : h = g := by simpa using H 0 (by omega)
      subst hh
      simp only [revealedTerms, later hs (i + 1) (by omega), hg, Option.map_some, if_true, List.map_cons, msm_cons]
      module
    · have := ih (i + 1) (fun j hj => by
        have := H (j + 1) (by omega)
        simpa using this) (by omega) hg
      simp only [revealedTerms, if_neg hik']
      cases get i with
      | none => exact this
      | some m' =>
        simp only [Option.map_some, List.map_cons, msm_cons, this]
        abel

/-- **C44** (negated) The values of the revealed messages are not part of the challenge.  A prover with a valid signature who reveals
message `k` chooses any `δ`, adds `δ h_k` to the second first message and, once the challenge `c ≠ 0` is known, claims
`m_k - δ / c` instead of the signed `m_k`: the verifier accepts and returns the unsigned value. -/
theorem bbs_revealed_value_forged (sig : Signature F G1) (pk : PublicKey G1 G2) (pms : List (ProofMessage F)) (r : Rand F)
    (nonce : F) (k : Nat) (m δ : F) (hv : sig.verify P (pms.map (·.get)) pk = .ok true) (hr1 : r.r1 ≠ 0)
    (hk : pms[k]? = some (.revealed m)) :
    ∃ (hk' : G1) (sp : SignatureProof F G1) (c : F), pk.h[k]? = some hk' ∧
      sp.proof.vc2.commitment = (initValid P sig pk pms r).vc2.commitment + δ • hk' ∧
      c = P.hashFr (sp.proof.bytesForChallenge P ((revealedOf 0 pms).map (·.1)) pk ++ P.encF.enc nonce) ∧
      (c ≠ 0 →
        mapGet sp.revealed k = some (m - δ / c) ∧
        (∀ i, i ≠ k → mapGet sp.revealed i = mapGet (revealedOf 0 pms) i) ∧
        verifySignaturePok P ⟨(revealedOf 0 pms).map (·.1), pk⟩ sp nonce = .ok (sp.revealed.map (·.2))) := by
  obtain ⟨hl, hwf, ⟨ha, -, -⟩, hpair⟩ := (verify_true_pairing P _ _ _).1 hv
  rw [List.length_map] at hl
  have hklt : k < pk.h.length := by
    rw [← hl]; exact (List.getElem?_eq_some_iff.1 hk).1
  obtain ⟨g, hg⟩ : ∃ g, pk.h[k]? = some g := ⟨pk.h[k], by simp [hklt]⟩
  -- forged proof for challenge c
  let forged : F → SigProof F G1 := fun c =>
    { honestProof P sig pk pms r c with
      vc2 := ⟨(initValid P sig pk pms r).vc2.commitment + δ • g, (honestProof P sig pk pms r c).vc2.responses⟩ }
  let bytes := (forged 0).bytesForChallenge P ((revealedOf 0 pms).map (·.1)) pk
  let c := P.hashFr (bytes ++ P.encF.enc nonce)
  have hbytes : (forged c).bytesForChallenge P ((revealedOf 0 pms).map (·.1)) pk = bytes := rfl
  refine ⟨g, ⟨shiftAt k (-(δ / c)) (revealedOf 0 pms), forged c⟩, c, hg, rfl, rfl, fun hc => ⟨?_, ?_, ?_⟩⟩
  · rw [mapGet_shiftAt, (revealed_map_spec pms k m).2 hk]
    simp [sub_eq_add_neg]
  · intro i hi
    rw [mapGet_shiftAt]
    cases mapGet (revealedOf 0 pms) i <;> simp [hi]
  · rw [verifySignaturePok_ok]
    refine ⟨rfl, ?_⟩
    simp only
    rw [hbytes]
    change (forged c).verify P pk _ c = _
    have hh := (pok_verify_iff P _ _ _ _).1 (honest_verifies P sig pk pms r hv hr1 c)
    obtain ⟨w1, w2, w3, w4, w5, w6⟩ := hh
    rw [verify2_iff] at w6
    rw [pok_verify_iff, verify2_iff]
    have hfun : mapGet (shiftAt k (-(δ / c)) (revealedOf 0 pms)) =
        fun i => (mapGet (revealedOf 0 pms) i).map (fun m => if i = k then m + -(δ / c) else m) := by
      funext i; exact mapGet_shiftAt _ _ _ _
    have hsome : (fun i => (mapGet (shiftAt k (-(δ / c)) (revealedOf 0 pms)) i).isSome) =
        fun i => (mapGet (revealedOf 0 pms) i).isSome := by
      funext i; rw [hfun]; simp
    have hshift := revealed_shift (get := mapGet (revealedOf 0 pms)) k (-(δ / c)) g m 0 pk.h
      (fun j hj => by rw [Nat.zero_add] at hj; rw [hj]; exact hg) (Nat.zero_le _) ((revealed_map_spec pms k m).2 hk)
    refine ⟨w1, ?_, w3, w4, w5, ?_⟩
    · intro q hq
      obtain ⟨q', hq', rfl⟩ := List.mem_map.1 hq
      have := w2 q' hq'
      split_ifs <;> exact this
    · rw [hsome, hfun, hshift]
      refine ⟨w6.1, ?_⟩
      have w7 := w6.2
      have hcm : (forged c).vc2.commitment = (honestProof P sig pk pms r c).vc2.commitment + δ • g := rfl
      have hre : (forged c).vc2.responses = (honestProof P sig pk pms r c).vc2.responses := rfl
      have hd : (forged c).d = (honestProof P sig pk pms r c).d := rfl
      rw [hcm, hre, hd, ← w7]
      have hcd : c * (δ / c) = δ := mul_div_cancel₀ δ hc
      rw [show δ • g = (c * (δ / c)) • g by rw [hcd]]
      module

end
end Verif.BBS
