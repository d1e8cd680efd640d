import Verif.Props.BBSProof
import Verif.Toy
/-!
# More properties of BBS+ (C76 message responses, C78 deterministic keys, C80 unlinkability, index checks) and examples
-/
set_option linter.unusedSectionVars false
set_option linter.unusedSimpArgs false
set_option linter.unusedVariables false
namespace Verif.BBS
open Verif Verif.PoK

section
variable {F G1 G2 GT : Type} [Field F] [AddCommGroup G1] [Module F G1] [AddCommGroup G2] [Module F G2]
  [AddCommGroup GT] [Module F GT] [DecidableEq F] [DecidableEq G1] [DecidableEq G2] [DecidableEq GT]
variable (P : Params F G1 G2 GT)

theorem zipWith_map_map {A B C D : Type} (f : B → C → D) (g : A → B) (h : A → C) : ∀ l : List A,
    List.zipWith f (l.map g) (l.map h) = l.map (fun x => f (g x) (h x))
  | [] => rfl
  | a :: l => by simp [zipWith_map_map f g h l]

/-! ## Responses for message equality -/

theorem honest_responses (sig : Signature F G1) (pk : PublicKey G1 G2) (pms : List (ProofMessage F)) (r : Rand F) (c : F) :
    ∃ a b, (honestProof P sig pk pms r c).vc2.responses =
      a :: b :: (hiddenOf r.blind 0 pk.h pms).map (fun t => t.2.1 - c * t.2.2) := by
  refine ⟨r.bd - c * -r.r1⁻¹, r.bh' - c * (-(r.r2 * r.r1⁻¹) + sig.s), ?_⟩
  simp only [honestProof, initValid, Committing.finish, List.zipWith_cons_cons, zipWith_map_map]

/-- **C76** `get_resp_for_message(j)` of an honest proof is the response of the `j`-th *hidden* message (not of message `j`), and an
error from the number of hidden messages on. -/
theorem resp_for_message_spec (sig : Signature F G1) (pk : PublicKey G1 G2) (pms : List (ProofMessage F)) (r : Rand F) (c : F)
    (j : Nat) :
    (honestProof P sig pk pms r c).respForMessage j =
      match (hiddenOf r.blind 0 pk.h pms)[j]? with
      | some t => .ok (t.2.1 - c * t.2.2)
      | none => .err (.general "Message index") := by
  obtain ⟨a, b, h⟩ := honest_responses P sig pk pms r c
  unfold SigProof.respForMessage
  rw [h]
  simp only [List.length_cons, List.length_map]
  rw [if_neg (by omega)]
  by_cases hj : j < (hiddenOf r.blind 0 pk.h pms).length
  · rw [if_neg (by omega), List.getElem?_eq_getElem hj]
    rw [show 2 + j = j + 1 + 1 by omega]
    simp [hj]
  · rw [if_pos (by omega), List.getElem?_eq_none (by omega)]

/-- **C76** (negated) With message 0 revealed and messages 1 and 2 hidden under external blindings, asking for the response of message 1
returns the response of message 2, and asking for message 2 is an error. -/
theorem resp_for_message_shifted (sig : Signature F G1) (h0 g0 g1 g2 : G1) (w : G2) (m0 m1 m2 b1 b2 : F) (r : Rand F) (c : F) :
    let p := honestProof P sig ⟨h0, [g0, g1, g2], w⟩ [.revealed m0, .hiddenExt m1 b1, .hiddenExt m2 b2] r c
    p.respForMessage 0 = .ok (b1 - c * m1) ∧ p.respForMessage 1 = .ok (b2 - c * m2) ∧
      p.respForMessage 2 = .err (.general "Message index") := by
  intro p
  refine ⟨?_, ?_, ?_⟩ <;> simp only [p, resp_for_message_spec] <;> simp [hiddenOf]

/-- **C76** two proofs under the same challenge, with the same message hidden under the same external blinding as the `i`-th and `j`-th
hidden message, have the same response there: this is how a verifier compares messages -/
theorem equal_messages_equal_responses (sig sig' : Signature F G1) (pk pk' : PublicKey G1 G2)
    (pms pms' : List (ProofMessage F)) (r r' : Rand F) (c : F) (i j : Nat) (t t' : G1 × F × F)
    (hi : (hiddenOf r.blind 0 pk.h pms)[i]? = some t) (hj : (hiddenOf r'.blind 0 pk'.h pms')[j]? = some t')
    (hb : t.2.1 = t'.2.1) (hm : t.2.2 = t'.2.2) :
    (honestProof P sig pk pms r c).respForMessage i = (honestProof P sig' pk' pms' r' c).respForMessage j ∧
    ∃ v, (honestProof P sig pk pms r c).respForMessage i = .ok v := by
  rw [resp_for_message_spec, resp_for_message_spec, hi, hj]
  simp [hb, hm]

/-- **C77** a proof with fewer than two responses (as parsed from bytes) makes `get_resp_for_message` panic -/
theorem resp_for_message_panics (p : SigProof F G1) (idx : Nat) :
    p.respForMessage idx = .panic ↔ p.vc2.responses.length < 2 := by
  unfold SigProof.respForMessage
  by_cases h : p.vc2.responses.length < 2
  · simp [h]
  · rw [if_neg h]
    simp only [h, iff_false]
    split_ifs with h2
    · simp
    · rw [List.getElem?_eq_getElem (by omega)]; simp

/-! ## Index checks -/

/-- **C77** (negated) the holder's index check is off by one: the index equal to the number of messages panics; larger ones
are an error -/
theorem blind_ctx_index_panics (pk : PublicKey G1 G2) (m : F) (i : Nat) (nonce blinding r0 : F) (rs : List F) :
    (i = pk.h.length → newBlindCtx P pk [(i, m)] nonce blinding r0 rs = .panic) ∧
    (i > pk.h.length → newBlindCtx P pk [(i, m)] nonce blinding r0 rs = .err (.countMismatch i pk.h.length)) := by
  constructor
  · intro h
    simp [newBlindCtx, ctxBases, h]
  · intro h
    simp [newBlindCtx, ctxBases, h]

/-- **C77** (negated) the issuer panics on a known message with an index out of range, if the context is accepted -/
theorem blind_sign_index_panics (ctx : BlindCtx F G1) (x : F) (pk : PublicKey G1 G2) (nonce e s : F) (i : Nat) (m : F)
    (hi : pk.h.length ≤ i) (hx : x ≠ 0) (hpk : WellFormed pk) (hn : 0 < pk.h.length)
    (h : ctx.verify P [i] pk nonce = .ok true) : blindSign P ctx [(i, m)] x pk nonce e s = .panic := by
  unfold blindSign
  simp only [List.map_cons, List.map_nil, h, Res.ok_bind, if_true, blindSigNew]
  rw [if_neg (by simp only [List.length_cons, List.length_nil]; omega)]
  simp [validateSk, hx, (validate_ok pk).2 hpk, lookupBases, hi]

theorem setInsert_mem (i j : Nat) : ∀ l : List Nat, j ∈ setInsert i l ↔ j = i ∨ j ∈ l
  | [] => by simp [setInsert]
  | k :: l => by
    unfold setInsert
    split_ifs with h1 h2
    · simp
    · subst h2; simp
    · simp only [List.mem_cons, setInsert_mem i j l]; tauto

/-- **C79** `new_proof_request` succeeds exactly if no index exceeds the number of messages (an index equal to it is accepted although
there is no such message), and then requests exactly the given indices -/
theorem new_proof_request_spec (indices : List Nat) (pk : PublicKey G1 G2) :
    (∀ i ∈ indices, i ≤ pk.h.length) ↔
      ∃ req, newProofRequest indices pk = .ok req ∧ req.key = pk ∧ ∀ i, i ∈ req.revealed ↔ i ∈ indices := by
  have hmem : ∀ (l : List Nat) (acc : List Nat) (i : Nat),
      i ∈ l.foldl (fun s i => setInsert i s) acc ↔ i ∈ l ∨ i ∈ acc := by
    intro l
    induction l with
    | nil => intro acc i; simp
    | cons k l ih => intro acc i; rw [List.foldl_cons, ih, setInsert_mem, List.mem_cons]; tauto
  unfold newProofRequest
  simp only []
  constructor
  · intro h
    have : (indices.foldl (fun s i => setInsert i s) []).find? (fun i => decide (i > pk.h.length)) = none := by
      rw [List.find?_eq_none]
      intro i hi
      rw [hmem] at hi
      have := h i (by simpa using hi)
      simp only [decide_eq_true_eq]; omega
    refine ⟨⟨indices.foldl (fun s i => setInsert i s) [], pk⟩, by rw [this], rfl, fun i => ?_⟩
    simp only [hmem]; simp
  · rintro ⟨req, h, -, -⟩ i hi
    cases hf : (indices.foldl (fun s i => setInsert i s) []).find? (fun i => decide (i > pk.h.length)) with
    | some k => rw [hf] at h; cases h
    | none =>
      rw [List.find?_eq_none] at hf
      have := hf i (by rw [hmem]; exact Or.inl hi)
      simp only [decide_eq_true_eq] at this; omega

/-! ## Keys -/

/-- **C78** Keys for zero messages are refused; otherwise the derived key has exactly `count` message generators, depends on the short
key and the count alone, and generator `i` (0 for `h0`) is the hash of key, `i` and count. -/
theorem to_public_key_spec (w : G2) (n : Nat) :
    (n = 0 → toPublicKey P w n = .err .keyGenError) ∧
    (n ≠ 0 → ∃ pk, toPublicKey P w n = .ok pk ∧ pk.w = w ∧ pk.h.length = n ∧ pk.h0 = P.hashG1 (generatorInput P w n 0) ∧
      ∀ i, i < n → pk.h[i]? = some (P.hashG1 (generatorInput P w n (i + 1)))) := by
  constructor
  · intro h; simp [toPublicKey, h]
  · intro h
    refine ⟨_, by rw [toPublicKey, if_neg h], rfl, by simp, rfl, fun i hi => ?_⟩
    simp [hi, Nat.add_comm]

theorem beU32_injective {a b : Nat} (ha : a < 2 ^ 32) (hb : b < 2 ^ 32) (h : beU32 a = beU32 b) : a = b := by
  have := congrArg ofBe h
  rwa [ofBe_beU32_of_lt ha, ofBe_beU32_of_lt hb] at this

/-- **C78** different keys, counts or generator positions (below 2^32) are hashed from different byte strings -/
theorem generator_inputs_distinct (w w' : G2) (n n' i i' : Nat) (hn : n < 2 ^ 32) (hn' : n' < 2 ^ 32) (hi : i < 2 ^ 32)
    (hi' : i' < 2 ^ 32) (h : generatorInput P w n i = generatorInput P w' n' i') : w = w' ∧ n = n' ∧ i = i' := by
  unfold generatorInput at h
  obtain ⟨h1, h2⟩ := List.append_inj' h (by simp)
  obtain ⟨h3, h4⟩ := List.append_inj' h1 rfl
  obtain ⟨h5, h6⟩ := List.append_inj' h3 (by simp)
  obtain ⟨h7, h8⟩ := List.append_inj' h5 rfl
  exact ⟨P.encG2.enc_injective h7, beU32_injective hn hn' h2, beU32_injective hi hi' h6⟩

/-- **C78** with a non-zero secret, `DeterministicPublicKey::new` gives the commitment `x g2`; zero is refused.  `generate` refuses zero
messages and otherwise gives `count` generators and the commitment to the secret it returns. -/
theorem key_generation (x : F) (n : Nat) (gens : List G1) (hg : gens.length = n + 1) :
    (x = 0 → deterministicNew P x = .err .malformedSecretKey) ∧
    (x ≠ 0 → deterministicNew P x = .ok (x • P.g2, x)) ∧
    (n = 0 → generate P n x gens = .err .keyGenError) ∧
    (n ≠ 0 → ∃ pk, generate P n x gens = .ok (pk, x) ∧ pk.w = x • P.g2 ∧ pk.h.length = n ∧ pk.h0 :: pk.h = gens) := by
  refine ⟨fun h => by simp [deterministicNew, validateSk, h], fun h => by simp [deterministicNew, validateSk, h],
    fun h => by simp [generate, h], fun h => ?_⟩
  cases gens with
  | nil => simp at hg
  | cons a l => exact ⟨⟨a, l, x • P.g2⟩, by simp [generate, h], rfl, by simpa using hg, rfl⟩

/-! ## Unlinkability -/

/-- the response of the message at an index -/
def respAt (blind : Nat → F) (c : F) (pms : List (ProofMessage F)) (i : Nat) : F :=
  match pms[i]? with
  | some (.hidden m) => blind i - c * m
  | some (.hiddenExt m b) => b - c * m
  | _ => 0

theorem hidden_responses_match (blind blind' : Nat → F) (c : F) : ∀ (i : Nat) (hs : List G1) (pms pms' : List (ProofMessage F)),
    pms.length = pms'.length → (∀ j, (revealedAt pms j).isSome = (revealedAt pms' j).isSome) →
    (∀ pm ∈ pms', ∀ m b, pm ≠ .hiddenExt m b) →
    (∀ j m, pms'[j]? = some (.hidden m) → blind' (i + j) = (match pms[j]? with
      | some (.hidden m1) => blind (i + j) - c * m1
      | some (.hiddenExt m1 b) => b - c * m1
      | _ => 0) + c * m) →
    (hiddenOf blind' i hs pms').map (fun t => t.2.1 - c * t.2.2) =
      (hiddenOf blind i hs pms).map (fun t => t.2.1 - c * t.2.2) := by
  intro i hs
  induction hs generalizing i with
  | nil => intro pms pms' _ _ _ _; simp [hiddenOf]
  | cons h hs ih =>
    intro pms pms' hl hr hne hb
    cases pms with
    | nil => cases pms' with
      | nil => rfl
      | cons _ _ => simp at hl
    | cons pm pms =>
      cases pms' with
      | nil => simp at hl
      | cons pm' pms' =>
        have ih' := ih (i + 1) pms pms' (by simpa using hl)
          (fun j => by have := hr (j + 1); simpa [revealedAt] using this)
          (fun q hq => hne q (List.mem_cons_of_mem _ hq))
          (fun j m hj => by
            have := hb (j + 1) m (by simpa using hj)
            rw [show i + (j + 1) = i + 1 + j by omega] at this
            simpa using this)
        have h0 := hr 0
        have hb0 := hb 0
        simp only [Nat.add_zero, List.getElem?_cons_zero, Option.some.injEq] at hb0
        cases pm' with
        | hiddenExt m b => exact absurd rfl (hne _ List.mem_cons_self m b)
        | revealed m =>
          cases pm <;> simp [revealedAt] at h0
          simpa [hiddenOf] using ih'
        | hidden m =>
          have := hb0 m rfl
          cases pm <;> simp [revealedAt] at h0
          · simp [hiddenOf, ih', this]
          · simp [hiddenOf, ih', this]

/-- **C80** Presentations hide everything but the revealed messages: for any two signatures under the same key whose messages agree where
they are revealed, every proof made from the first one is also made from the second one, for suitable randomness (in a group of
prime order; the `r2` needed may be zero, which `rand_non_zero_fr` excludes, in one case out of the group order). -/
theorem bbs_unlinkable (hcyc : ∀ a b : G1, a ≠ 0 → ∃ k : F, b = k • a) (x : F) (pk : PublicKey G1 G2)
    (sig sig' : Signature F G1) (pms pms' : List (ProofMessage F)) (r : Rand F) (c : F)
    (hwf : WellFormed pk) (hw : pk.w = x • P.g2) (hnd : Nondeg P)
    (hv : sig.verify P (pms.map (·.get)) pk = .ok true) (hv' : sig'.verify P (pms'.map (·.get)) pk = .ok true)
    (hrev : ∀ i, revealedAt pms i = revealedAt pms' i)
    (hfresh : ∀ pm ∈ pms', ∀ m b, pm ≠ .hiddenExt m b) (hr1 : r.r1 ≠ 0) :
    ∃ r' : Rand F, r'.r1 ≠ 0 ∧ r'.r2 • pk.h0 = r.r2 • pk.h0 + ((sig'.e - sig.e) * r.r1) • sig.a ∧
      honestProof P sig' pk pms' r' c = honestProof P sig pk pms r c := by
  obtain ⟨-, ⟨hA, -, -⟩, hval⟩ := (bbs_verify_iff P hnd _ _ _ x hw).1 hv
  obtain ⟨-, ⟨hA', -, -⟩, hval'⟩ := (bbs_verify_iff P hnd _ _ _ x hw).1 hv'
  rw [valid_iff] at hval hval'
  have hl : pms.length = pk.h.length := by simpa using hval.1
  have hl' : pms'.length = pk.h.length := by simpa using hval'.1
  obtain ⟨q1, hq1⟩ := hcyc sig'.a (r.r1 • sig.a) hA'
  have hq1ne : q1 ≠ 0 := by
    intro h; rw [h, zero_smul] at hq1
    exact smul_ne_zero hr1 hA hq1
  obtain ⟨q2, hq2⟩ := hcyc pk.h0 (r.r2 • pk.h0 + ((sig'.e - sig.e) * r.r1) • sig.a) hwf.1
  -- the revealed maps are equal
  have hrevOf : ∀ (i : Nat) (l l' : List (ProofMessage F)), l.length = l'.length →
      (∀ j, revealedAt l j = revealedAt l' j) → revealedOf i l = revealedOf i l' := by
    intro i l
    induction l generalizing i with
    | nil => intro l' h _; cases l' with
      | nil => rfl
      | cons _ _ => simp at h
    | cons a l ih =>
      intro l' h hr
      cases l' with
      | nil => simp at h
      | cons a' l' =>
        have ih' := ih (i + 1) l' (by simpa using h) (fun j => by
          have := hr (j + 1); simpa [revealedAt] using this)
        have h0 := hr 0
        cases a <;> cases a' <;> simp [revealedAt] at h0 <;> simp [revealedOf, ih', h0]
  have hrm : revealedOf 0 pms' = revealedOf 0 pms := hrevOf 0 pms' pms (by omega) (fun j => (hrev j).symm)
  let r' : Rand F :=
    { r1 := q1
      r2 := q2
      ba := (r.ba - c * -sig.e) + c * -sig'.e
      bh := (r.bh - c * r.r2) + c * q2
      bd := (r.bd - c * -r.r1⁻¹) + c * -q1⁻¹
      bh' := (r.bh' - c * (-(r.r2 * r.r1⁻¹) + sig.s)) + c * (-(q2 * q1⁻¹) + sig'.s)
      blind := fun i => respAt r.blind c pms i + c * (match pms'[i]? with | some pm => pm.get | none => 0) }
  have haP : (honestProof P sig' pk pms' r' c).aPrime = (honestProof P sig pk pms r c).aPrime := hq1.symm
  have haB : (honestProof P sig' pk pms' r' c).aBar = (honestProof P sig pk pms r c).aBar := by
    simp only [honestProof, initValid, r']
    rw [← hval.2, ← hval'.2, ← hq1]
    have : q1 • (x + sig'.e) • sig'.a = (x + sig'.e) • (r.r1 • sig.a) := by rw [hq1, smul_comm]
    rw [this]; module
  have hdd : (honestProof P sig' pk pms' r' c).d = (honestProof P sig pk pms r c).d := by
    simp only [honestProof, initValid, r', msm_cons, msm_nil, add_zero]
    rw [← hval.2, ← hval'.2]
    have : q1 • (x + sig'.e) • sig'.a = (x + sig'.e) • (r.r1 • sig.a) := by rw [hq1, smul_comm]
    rw [this, neg_smul, ← hq2]; module
  have hres1 : (honestProof P sig' pk pms' r' c).vc1.responses = (honestProof P sig pk pms r c).vc1.responses := by
    simp only [honestProof, initValid, Committing.finish, r', List.zipWith_cons_cons, List.zipWith_nil_left, List.cons.injEq,
      and_true]
    constructor <;> ring
  have hres2 : (honestProof P sig' pk pms' r' c).vc2.responses = (honestProof P sig pk pms r c).vc2.responses := by
    simp only [honestProof, initValid, Committing.finish, r', List.zipWith_cons_cons, zipWith_map_map, List.cons.injEq]
    refine ⟨by ring, by ring, ?_⟩
    apply hidden_responses_match r.blind _ c 0 pk.h pms pms' (by omega) (fun j => by rw [hrev j]) hfresh
    intro j m hj
    simp only [Nat.zero_add, respAt, hj, ProofMessage.get]
  -- the first messages follow from the verification equations
  have v := (pok_verify_iff P _ _ _ _).1 (honest_verifies P sig pk pms r hv hr1 c)
  have v' := (pok_verify_iff P _ _ _ _).1 (honest_verifies P sig' pk pms' r' hv' hq1ne c)
  obtain ⟨-, -, -, -, ⟨-, t1⟩, w1⟩ := v
  obtain ⟨-, -, -, -, ⟨-, t1'⟩, w1'⟩ := v'
  rw [verify2_iff] at w1 w1'
  have hT1 : (honestProof P sig' pk pms' r' c).vc1.commitment = (honestProof P sig pk pms r c).vc1.commitment := by
    rw [← t1, ← t1', haP, haB, hdd, hres1]
  have hT2 : (honestProof P sig' pk pms' r' c).vc2.commitment = (honestProof P sig pk pms r c).vc2.commitment := by
    rw [← w1.2, ← w1'.2, hdd, hres2, hrm]
  refine ⟨r', hq1ne, hq2.symm, ?_⟩
  have ext : ∀ p q : SigProof F G1, p.aPrime = q.aPrime → p.aBar = q.aBar → p.d = q.d → p.vc1.commitment = q.vc1.commitment →
      p.vc1.responses = q.vc1.responses → p.vc2.commitment = q.vc2.commitment → p.vc2.responses = q.vc2.responses → p = q := by
    rintro ⟨a, b, c, ⟨d, e⟩, ⟨f, g⟩⟩ ⟨a', b', c', ⟨d', e'⟩, ⟨f', g'⟩⟩ rfl rfl rfl rfl rfl rfl rfl
    rfl
  exact ext _ _ haP haB hdd hT1 hres1 hT2 hres2

end

/-! ## Concrete cases -/

namespace Toy
open Verif.Toy
local instance : Fact (Nat.Prime 101) := fact101

/-- the field with 101 elements as scalar field and as all three groups; multiplication as pairing -/
@[reducible] def par : Params (ZMod 101) (ZMod 101) (ZMod 101) (ZMod 101) where
  g1 := 1
  g2 := 1
  e := toyE
  hashFr b := (b.map (fun x => (x.toNat : ZMod 101))).sum + 1
  hashG1 b := (b.map (fun x => (x.toNat : ZMod 101))).sum
  encG1 := codec101
  encG2 := codec101
  encF := codec101

/-- a key for three messages with secret 7 -/
@[reducible] def key : PublicKey (ZMod 101) (ZMod 101) := ⟨2, [3, 5, 11], 7⟩

theorem nondeg : Nondeg par := by
  intro a h
  simpa [toyE_apply] using h

theorem wf : WellFormed key := ⟨by decide, by decide, by decide⟩

/-- the conditions of `bbs_sign_verify` hold for messages 4, 6, 8 -/
example : ∃ sig, sigNew par [4, 6, 8] 7 key 20 31 = .ok sig ∧ sig.verify par [4, 6, 8] key = .ok true :=
  bbs_sign_verify par nondeg _ 7 key 20 31 (by decide) wf (by decide +kernel) rfl (by decide) (by decide) (by decide)
    (by decide +kernel)

/-- the signature of that example -/
@[reducible] def sig : Signature (ZMod 101) (ZMod 101) := ⟨(27 : ZMod 101)⁻¹ * 92, 20, 31⟩

theorem sig_ok : sig.verify par [4, 6, 8] key = .ok true := by
  rw [bbs_verify_iff par nondeg _ _ _ 7 (by decide +kernel)]
  exact ⟨wf, by decide +kernel, rfl, by decide +kernel⟩

/-- another signature, on 4, 50, 60 -/
@[reducible] def sig2 : Signature (ZMod 101) (ZMod 101) := ⟨(10 : ZMod 101)⁻¹ * (1 + 5 * 2 + 4 * 3 + 50 * 5 + 60 * 11), 3, 5⟩

theorem sig2_ok : sig2.verify par [4, 50, 60] key = .ok true := by
  rw [bbs_verify_iff par nondeg _ _ _ 7 (by decide +kernel)]
  exact ⟨wf, by decide +kernel, rfl, by decide +kernel⟩

/-- another message list is refused, with `false` -/
example : sig.verify par [4, 6, 9] key = .ok false := by
  obtain ⟨b, hb⟩ := (bbs_verify_errors par sig [4, 6, 9] key).2.2.2 rfl wf (by decide +kernel)
  cases b with
  | false => exact hb
  | true =>
    obtain ⟨-, -, -, h⟩ := (bbs_verify_iff par nondeg _ _ _ 7 (by decide +kernel)).1 hb
    revert h
    decide +kernel

/-- blind issuance with message 1 hidden -/
example : ∃ ctx bsig s,
      newBlindCtx par key [(1, 6)] 9 12 13 [14] = .ok (ctx, 12) ∧
      ctx.verify par [0, 2] key 9 = .ok true ∧
      blindSign par ctx [(0, 4), (2, 8)] 7 key 9 20 19 = .ok bsig ∧
      completeSignature par key [4, 6, 8] bsig 12 = .ok s ∧
      sigNew par [4, 6, 8] 7 key 20 (19 + 12) = .ok s :=
  bbs_blind_issuance par nondeg [4, 6, 8] [(1, 6)] [(0, 4), (2, 8)] 7 key 9 12 13 20 19 [14] (by simp [Sorted])
    (by simp [Sorted]) (by
      intro i m
      rcases i with _ | _ | _ | i <;> simp [mapGet])
    (by
      intro i
      rcases i with _ | _ | _ | i <;> simp [mapGet])
    rfl (by decide) wf (by decide +kernel) rfl (by decide) (by decide) (by decide) (by decide +kernel)

/-- the context of that example for a given nonce -/
@[reducible] def ctx (nonce : ZMod 101) : BlindCtx (ZMod 101) (ZMod 101) :=
  match newBlindCtx par key [(1, 6)] nonce 12 13 [14] with
  | .ok (c, _) => c
  | _ => ⟨0, 0, ⟨0, []⟩⟩

/-- two accepted contexts with the same commitment and first message and different challenges, as in `bbs_blind_sound` -/
example :=
  bbs_blind_sound par par.hashFr (ctx 9) (ctx 10) [(0, 4), (2, 8)] 7 key 9 10 (by simp [Sorted])
    (by decide +kernel) (by decide +kernel) (by decide +kernel) (by decide +kernel) (by decide +kernel)

/-- what was committed to is computed from them -/
example : extractCtx (ctx 9) (ctx 10) = [12, 6] ∧ fill (mapGet [(0, 4), (2, 8)]) 0 3 (extractCtx (ctx 9) (ctx 10)).tail = [4, 6, 8] := by
  decide +kernel

/-- message 0 revealed, message 1 hidden, message 2 hidden under an external blinding -/
@[reducible] def pms : List (ProofMessage (ZMod 101)) := [.revealed 4, .hidden 6, .hiddenExt 8 5]
@[reducible] def rnd : Rand (ZMod 101) := ⟨2, 3, 4, 5, 6, 7, fun i => i⟩

example := bbs_presentation_accepted par sig key pms rnd 11 sig_ok (by decide)
example := bbs_pok_complete par sig key pms rnd sig_ok (by decide)
example := bbs_request_not_enforced par sig key pms rnd 11 [0, 1, 2] sig_ok (by decide)
example := bbs_revealed_value_forged par sig key pms rnd 11 0 4 1 sig_ok (by decide) rfl

/-- two accepted transcripts as in `bbs_pok_sound` -/
example := bbs_pok_sound par nondeg (honestProof par sig key pms rnd 3) (honestProof par sig key pms rnd 4) key 7 (revealedOf 0 pms)
  3 4 (by decide +kernel) (honest_verifies par sig key pms rnd sig_ok (by decide) 3)
  (honest_verifies par sig key pms rnd sig_ok (by decide) 4) (by decide) rfl rfl rfl rfl rfl

/-- the signature and the messages are computed from them -/
example : extractSig 3 4 (honestProof par sig key pms rnd 3) (honestProof par sig key pms rnd 4) = sig ∧
    extractMsgs 3 4 (honestProof par sig key pms rnd 3) (honestProof par sig key pms rnd 4) (revealedOf 0 pms) 3 = [4, 6, 8] := by
  decide +kernel

/-- two provers with message 8 under the same external blinding, as in `bbs_equal_responses_sound` -/
example := bbs_equal_responses_sound par nondeg (honestProof par sig key pms rnd 3) (honestProof par sig key pms rnd 4)
  (honestProof par sig key pms ⟨9, 8, 7, 6, 5, 4, fun _ => 1⟩ 3) (honestProof par sig key pms ⟨9, 8, 7, 6, 5, 4, fun _ => 1⟩ 4)
  key key 7 7 (revealedOf 0 pms) (revealedOf 0 pms) 3 4 1 1 (5 - 3 * 8) (5 - 4 * 8) (by decide +kernel) (by decide +kernel)
  (honest_verifies par sig key pms rnd sig_ok (by decide) 3)
  (honest_verifies par sig key pms rnd sig_ok (by decide) 4)
  (honest_verifies par sig key pms _ sig_ok (by decide) 3)
  (honest_verifies par sig key pms _ sig_ok (by decide) 4) (by decide) ⟨rfl, rfl, rfl, rfl, rfl⟩ ⟨rfl, rfl, rfl, rfl, rfl⟩
  (by rw [resp_for_message_spec]; rfl) (by rw [resp_for_message_spec]; rfl)
  (by rw [resp_for_message_spec]; rfl) (by rw [resp_for_message_spec]; rfl)

/-- the presentations of the two signatures that reveal message 0 are the same set -/
example := bbs_unlinkable par (fun a b ha => ⟨b * a⁻¹, by
    rw [smul_eq_mul, mul_assoc, inv_mul_cancel₀ ha, mul_one]⟩) 7 key sig sig2 pms [.revealed 4, .hidden 50, .hidden 60] rnd 3 wf
  (by decide +kernel) nondeg sig_ok sig2_ok (by
    intro i
    rcases i with _ | _ | _ | i <;> simp [revealedAt]) (by simp) (by decide)

/-- a context for a key with one message whose known index is out of range, as in `blind_sign_index_panics` -/
example : ∃ c, blindSign par c [(1, 5)] 7 ⟨2, [3], 7⟩ 9 1 1 = .panic := by
  refine ⟨(match newBlindCtx par ⟨2, [3], 7⟩ [(0, 6)] 9 12 13 [14] with
    | .ok (c, _) => c
    | _ => ⟨0, 0, ⟨0, []⟩⟩), ?_⟩
  exact blind_sign_index_panics par _ 7 _ 9 1 1 1 5 (by decide) (by decide) ⟨by decide, by decide, by decide⟩ (by decide)
    (by decide +kernel)

/-- a blind signature that is completed: the signature above, short by the blinding factor 12 -/
example := (bbs_complete_iff par key [4, 6, 8] ⟨sig.a, sig.e, sig.s - 12⟩ sig 12).2 ⟨by simp, sig_ok⟩

end Toy

end Verif.BBS
