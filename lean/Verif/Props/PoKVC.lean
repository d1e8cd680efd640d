import Verif.PoKVC.Model
import Verif.Toy
import Mathlib.Tactic.Module
import Mathlib.Tactic.LinearCombination
import Mathlib.Tactic.FieldSimp
import Mathlib.Data.List.Zip
/-!
# Properties of the proof of knowledge of a vector commitment (C48, part of C45)
-/
set_option linter.unusedSectionVars false
namespace Verif.PoK
open Verif

variable {F G : Type} [Field F] [AddCommGroup G] [Module F G]

/-! ## Linear algebra of `msm` -/

@[simp] theorem msm_nil (s : List F) : msm ([] : List G) s = 0 := by simp [msm]
@[simp] theorem msm_nil_right (b : List G) : msm b ([] : List F) = 0 := by simp [msm]
@[simp] theorem msm_cons (b : G) (bs : List G) (s : F) (ss : List F) : msm (b :: bs) (s :: ss) = s • b + msm bs ss := by
  simp [msm]

theorem msm_append : ∀ (bs bs' : List G) (ss ss' : List F), bs.length = ss.length →
    msm (bs ++ bs') (ss ++ ss') = msm bs ss + msm bs' ss'
  | [], bs', [], ss', _ => by simp
  | b :: bs, bs', s :: ss, ss', h => by
    simp only [List.cons_append, msm_cons, msm_append bs bs' ss ss' (by simpa using h), add_assoc]

/-- `Σ (a_i - c·b_i) g_i = Σ a_i g_i - c Σ b_i g_i` -/
theorem msm_sub_mul : ∀ (bs : List G) (as cs : List F) (c : F), as.length = cs.length →
    msm bs (List.zipWith (fun a x => a - c * x) as cs) = msm bs as - c • msm bs cs
  | [], _, _, _, _ => by simp
  | _ :: _, [], [], _, _ => by simp
  | b :: bs, a :: as, x :: cs, c, h => by
    simp only [List.zipWith_cons_cons, msm_cons, msm_sub_mul bs as cs c (by simpa using h)]
    module

/-- `Σ k (a_i - b_i) g_i = k (Σ a_i g_i - Σ b_i g_i)` -/
theorem msm_mul_sub : ∀ (bs : List G) (as cs : List F) (k : F), as.length = cs.length →
    msm bs (List.zipWith (fun a x => k * (a - x)) as cs) = k • (msm bs as - msm bs cs)
  | [], _, _, _, _ => by simp
  | _ :: _, [], [], _, _ => by simp
  | b :: bs, a :: as, x :: cs, k, h => by
    simp only [List.zipWith_cons_cons, msm_cons, msm_mul_sub bs as cs k (by simpa using h)]
    module

/-! ## Specification -/

/-- `w` opens the commitment `C` over the bases. -/
def Opens (bases : List G) (C : G) (w : List F) : Prop := w.length = bases.length ∧ msm bases w = C

variable [DecidableEq G] [DecidableEq F]

/-- `verify` is an error exactly if the number of bases differs from the number of responses, and otherwise accepts exactly if
`Σ response_i · base_i + challenge · C = T`. -/
theorem verify_iff (p : Proof F G) (bases : List G) (C : G) (c : F) :
    (bases.length ≠ p.responses.length →
      p.verify bases C c = .err (.unequalNoOfBasesExponents bases.length p.responses.length)) ∧
    (bases.length = p.responses.length →
      (p.verify bases C c = .ok true ↔ msm bases p.responses + c • C = p.commitment) ∧
      (p.verify bases C c = .ok false ↔ msm bases p.responses + c • C ≠ p.commitment)) := by
  constructor
  · intro h
    simp [Proof.verify, Proof.challengeContribution, h]
  · intro h
    have : msm (bases ++ [C]) (p.responses ++ [c]) = msm bases p.responses + c • C := by
      rw [msm_append _ _ _ _ h]; simp
    simp [Proof.verify, Proof.challengeContribution, h, this, sub_eq_zero]

/-- The prover object after committing to the bases with the given blinding factors, in order. -/
def commitAll (pairs : List (G × F)) : Committing F G :=
  pairs.foldl (fun c p => (c.commit p.1 p.2).1) Committing.new

theorem commitAll_eq (pairs : List (G × F)) : commitAll pairs = ⟨pairs.map (·.1), pairs.map (·.2)⟩ := by
  have : ∀ (l : List (G × F)) (c : Committing F G), l.foldl (fun c p => (c.commit p.1 p.2).1) c =
      ⟨c.bases ++ l.map (·.1), c.blindings ++ l.map (·.2)⟩ := by
    intro l
    induction l with
    | nil => intro c; simp
    | cons p l ih => intro c; rw [List.foldl_cons, ih]; simp [Committing.commit]
  unfold commitAll
  rw [this]
  simp [Committing.new]

/-- `commit` returns the position of the new base, and `get_index` at that position returns the base and its blinding; beyond
the end it is an error, never a panic. -/
theorem commit_get_index (pairs : List (G × F)) (i : Nat) :
    (∀ g r, ((commitAll pairs).commit g r).2 = pairs.length) ∧
    (commitAll pairs).getIndex i = match pairs[i]? with
      | some p => .ok p
      | none => .err (.general "index greater than size") := by
  rw [commitAll_eq]
  refine ⟨fun g r => by simp [Committing.commit], ?_⟩
  by_cases h : i < pairs.length
  · simp [Committing.getIndex, h, Nat.not_le.mpr h]
  · simp [Committing.getIndex, Nat.not_lt.mp h]

/-- **C48, completeness** For all bases, blinding factors, challenge and secrets (one per base): the proof made by the
prover is accepted for the commitment to the secrets; with any other number of secrets no proof is made. -/
theorem pok_complete (pairs : List (G × F)) (secrets : List F) (c : F) :
    (secrets.length = pairs.length →
      ∃ p, (commitAll pairs).finish.genProof c secrets = .ok p ∧
        p.verify (pairs.map (·.1)) (msm (pairs.map (·.1)) secrets) c = .ok true) ∧
    (secrets.length ≠ pairs.length →
      (commitAll pairs).finish.genProof c secrets = .err (.unequalNoOfBasesExponents pairs.length secrets.length)) := by
  rw [commitAll_eq]
  constructor
  · intro h
    refine ⟨⟨msm (pairs.map (·.1)) (pairs.map (·.2)), List.zipWith (fun b s => b - c * s) (pairs.map (·.2)) secrets⟩,
      by simp [Committing.finish, Committed.genProof, h], ?_⟩
    refine (((verify_iff _ _ _ _).2 (by simp [h])).1).2 ?_
    rw [msm_sub_mul _ _ _ _ (by simp [h])]
    simp
  · intro h
    simp [Committing.finish, Committed.genProof, h]

/-- **C48, special soundness** Two accepted proofs with the same first message `T` and different challenges give an opening of
the commitment. -/
theorem pok_sound (p p' : Proof F G) (bases : List G) (C : G) (c c' : F) (hT : p.commitment = p'.commitment) (hc : c ≠ c')
    (h : p.verify bases C c = .ok true) (h' : p'.verify bases C c' = .ok true) :
    Opens bases C (List.zipWith (fun r r' => (c' - c)⁻¹ * (r - r')) p.responses p'.responses) := by
  have hl : bases.length = p.responses.length := by
    by_contra hne
    rw [(verify_iff p bases C c).1 hne] at h; cases h
  have hl' : bases.length = p'.responses.length := by
    by_contra hne
    rw [(verify_iff p' bases C c').1 hne] at h'; cases h'
  have e := (((verify_iff p bases C c).2 hl).1).1 h
  have e' := (((verify_iff p' bases C c').2 hl').1).1 h'
  refine ⟨by rw [List.length_zipWith]; omega, ?_⟩
  rw [msm_mul_sub _ _ _ _ (by omega)]
  have hne : c' - c ≠ 0 := sub_ne_zero.mpr (Ne.symm hc)
  have : msm bases p.responses - msm bases p'.responses = (c' - c) • C := by
    have h1 : msm bases p.responses = p.commitment - c • C := by rw [← e]; simp
    have h2 : msm bases p'.responses = p.commitment - c' • C := by rw [hT, ← e']; simp
    rw [h1, h2]; module
  rw [this, smul_smul, inv_mul_cancel₀ hne, one_smul]

/-- **C48, nothing is revealed** Whatever the secrets are, for every challenge and every list of responses of the right length
there is exactly one choice of blinding factors that produces it, and the first message is then the one value that can be
computed from challenge, responses and commitment alone: every transcript is consistent with every opening. -/
theorem pok_perfect_hiding (bases : List G) (C : G) (secrets responses : List F) (c : F) (hs : Opens bases C secrets)
    (hr : responses.length = bases.length) :
    ∃! blindings : List F, blindings.length = bases.length ∧
      (⟨bases, blindings, msm bases blindings⟩ : Committed F G).genProof c secrets =
        .ok ⟨msm bases responses + c • C, responses⟩ := by
  obtain ⟨hl, hC⟩ := hs
  have hz : ∀ (r s : List F), r.length = s.length →
      List.zipWith (fun b s => b - c * s) (List.zipWith (fun r s => r + c * s) r s) s = r := by
    intro r
    induction r with
    | nil => intro s _; simp
    | cons x r ih => intro s h; cases s with
      | nil => simp at h
      | cons y s => simp [ih s (by simpa using h)]
  have hz' : ∀ (b s : List F), b.length = s.length →
      List.zipWith (fun r s => r + c * s) (List.zipWith (fun b s => b - c * s) b s) s = b := by
    intro b
    induction b with
    | nil => intro s _; simp
    | cons x r ih => intro s h; cases s with
      | nil => simp at h
      | cons y s => simp [ih s (by simpa using h)]
  have hmsm : ∀ (b : List F), b.length = secrets.length →
      msm bases b = msm bases (List.zipWith (fun b s => b - c * s) b secrets) + c • C := by
    intro b hb
    rw [msm_sub_mul _ _ _ _ hb, hC]; simp
  refine ⟨List.zipWith (fun r s => r + c * s) responses secrets, ⟨by rw [List.length_zipWith]; omega, ?_⟩, ?_⟩
  · simp only [Committed.genProof, hl, ne_eq, not_true_eq_false, if_false, Res.ok.injEq, Proof.mk.injEq]
    refine ⟨?_, hz _ _ (by omega)⟩
    rw [hmsm _ (by rw [List.length_zipWith]; omega), hz _ _ (by omega)]
  · rintro b ⟨hb, hg⟩
    simp only [Committed.genProof, hl, ne_eq, not_true_eq_false, if_false, Res.ok.injEq, Proof.mk.injEq] at hg
    rw [← hg.2, hz' _ _ (by omega)]

/-- `verify_complete_proof` accepts exactly if `verify` does and the challenge is the hash of bases, recomputed first message,
commitment and nonce. -/
theorem verify_complete_iff (enc : G → Bytes) (hash : Bytes → F) (p : Proof F G) (bases : List G) (C : G) (c : F) (nonce : Bytes) :
    p.verifyComplete enc hash bases C c nonce = .ok true ↔
      p.verify bases C c = .ok true ∧
      c = hash ((bases.map enc).flatten ++ enc p.commitment ++ enc C ++ nonce) := by
  by_cases hl : bases.length = p.responses.length
  · simp only [Proof.verifyComplete, Proof.verify, Proof.challengeContribution, hl, ne_eq, not_true_eq_false, if_false,
      Res.ok_bind, Res.pure_eq, Res.ok.injEq, Bool.and_eq_true, decide_eq_true_eq]
    constructor
    · rintro ⟨h1, h2⟩
      refine ⟨h1, ?_⟩
      rw [sub_eq_zero] at h1 h2
      rw [← h2, h1]
    · rintro ⟨h1, h2⟩
      refine ⟨h1, ?_⟩
      rw [sub_eq_zero] at h1 ⊢
      rw [h1, ← h2]
  · simp [Proof.verifyComplete, Proof.verify, Proof.challengeContribution, hl]

/-- A prover who draws the challenge with `gen_challenge`, adding the commitment and the nonce, is accepted by
`verify_complete_proof`. -/
theorem pok_complete_fiat_shamir (enc : G → Bytes) (hash : Bytes → F) (pairs : List (G × F)) (secrets : List F) (nonce : Bytes)
    (h : secrets.length = pairs.length) :
    let C := msm (pairs.map (·.1)) secrets
    let c := (commitAll pairs).finish.genChallenge enc hash (enc C ++ nonce)
    ∃ p, (commitAll pairs).finish.genProof c secrets = .ok p ∧
      p.verifyComplete enc hash (pairs.map (·.1)) C c nonce = .ok true := by
  intro C c
  obtain ⟨p, hp, hv⟩ := (pok_complete pairs secrets c).1 h
  refine ⟨p, hp, (verify_complete_iff _ _ _ _ _ _ _).2 ⟨hv, ?_⟩⟩
  have hpc : p.commitment = (commitAll pairs).finish.commitment := by
    simp only [Committed.genProof] at hp
    split_ifs at hp
    simp only [Res.ok.injEq] at hp
    rw [← hp]
  rw [hpc]
  simp [c, Committed.genChallenge, Committed.toBytes, commitAll_eq, Committing.finish]

/-! ## Wire format -/

theorem readElem_enc {R : Type} (c : Codec R) (r : R) (rest : Bytes) : readElem c (c.enc r ++ rest) = some (r, rest) := by
  have hl := c.enc_length r
  simp only [readElem, List.length_append, hl]
  rw [if_neg (by omega), List.take_left' hl, List.drop_left' hl, c.dec_enc]
  rfl

theorem readMany_enc {R : Type} (c : Codec R) : ∀ (rs : List R) (rest : Bytes),
    readMany c rs.length ((rs.map c.enc).flatten ++ rest) = some (rs, rest)
  | [], rest => rfl
  | r :: rs, rest => by
    simp only [List.map_cons, List.flatten_cons, List.length_cons, readMany, List.append_assoc]
    rw [readElem_enc]
    simp only [Option.bind_eq_bind, Option.bind_some]
    rw [readMany_enc c rs rest]
    rfl

theorem flatten_enc_length {R : Type} (c : Codec R) (rs : List R) : ((rs.map c.enc).flatten).length = rs.length * c.size := by
  induction rs with
  | nil => simp
  | cons r rs ih => simp [ih, c.enc_length, Nat.succ_mul, Nat.add_comm]

/-- A proof with fewer than 2^32 responses survives serialization, whatever follows it in the buffer. -/
theorem proof_round_trip (cG : Codec G) (cF : Codec F) (p : Proof F G) (hlen : p.responses.length < 2 ^ 32) (rest : Bytes) :
    Proof.fromBytes cG cF (p.toBytes cG cF ++ rest) = .ok p := by
  have h1 : (p.toBytes cG cF ++ rest).length = cG.size + 4 + p.responses.length * cF.size + rest.length := by
    simp only [Proof.toBytes, List.length_append, flatten_enc_length, cG.enc_length, beU32_length]
  unfold Proof.fromBytes
  rw [if_neg (by rw [h1]; omega), h1]
  have h2 : readElem cG (p.toBytes cG cF ++ rest) =
      some (p.commitment, beU32 p.responses.length ++ ((p.responses.map cF.enc).flatten ++ rest)) := by
    rw [Proof.toBytes, List.append_assoc, List.append_assoc, readElem_enc]
  rw [h2]
  simp only [Res.ofOption_some, Res.ok_bind]
  rw [List.take_left' (beU32_length _), List.drop_left' (beU32_length _), ofBe_beU32_of_lt hlen]
  rw [if_neg (by omega), readMany_enc]
  rfl

/-- Parsing never panics. -/
theorem proof_parse_no_panic (cG : Codec G) (cF : Codec F) (data : Bytes) : Proof.fromBytes cG cF data ≠ .panic := by
  unfold Proof.fromBytes
  split
  · simp
  · cases readElem cG data with
    | none => simp
    | some x =>
      simp only [Res.ofOption_some, Res.ok_bind]
      split
      · simp
      · cases readMany cF _ _ <;> simp

/-! ## Concrete instance -/
section Examples
open Verif.Toy
local instance : Fact (Nat.Prime 101) := fact101

/-- bases 2 and 3 of the field with 101 elements, secrets 5 and 7, challenge 10 -/
example : ((⟨[2, 3], [20, 30], msm [2, 3] ([20, 30] : List (ZMod 101))⟩ : Committed (ZMod 101) (ZMod 101)).genProof 10 [5, 7]) =
    .ok ⟨130, [-30, -40]⟩ := by
  simp only [Committed.genProof, msm, List.length_cons, List.length_nil, ne_eq, not_true_eq_false, if_false, Res.ok.injEq,
    Proof.mk.injEq]
  decide +kernel

example : (⟨130, [-30, -40]⟩ : Proof (ZMod 101) (ZMod 101)).verify [2, 3] (msm [2, 3] [(5 : ZMod 101), 7]) 10 = .ok true := by
  decide +kernel

example : Opens ([2, 3] : List (ZMod 101)) (31 : ZMod 101) [(5 : ZMod 101), 7] := ⟨rfl, by decide +kernel⟩
end Examples

end Verif.PoK
