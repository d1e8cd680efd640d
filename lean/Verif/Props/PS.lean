import Verif.PS.Model
import Verif.Props.BBS
import Verif.Props.PoKVC
import Mathlib.Tactic.Abel
import Mathlib.Tactic.Module
import Mathlib.Tactic.LinearCombination
import Mathlib.Algebra.Algebra.Bilinear
/-!
# Properties of Pointcheval–Sanders signatures (C46, C47, C82–C86)
-/
set_option linter.unusedSectionVars false
set_option linter.unusedVariables false
set_option linter.unusedSimpArgs false
namespace Verif.PS
open Verif Verif.PoK
open Verif.BBS (hiddenBases mapGet revealedTerms mapGet_nil mapGet_cons)

section
variable {F S O GT : Type} [Field F] [AddCommGroup S] [Module F S] [AddCommGroup O] [Module F O]
  [AddCommGroup GT] [Module F GT] [DecidableEq F] [DecidableEq S] [DecidableEq O] [DecidableEq GT]

/-! ## Specification -/

/-- `Σ y_i m_i` -/
def dot (ys ms : List F) : F := (List.zipWith (fun y m => y * m) ys ms).sum

/-- The PS equation for a secret key `(x, ys)`: `σ2 = (x + Σ y_i m_i) σ1`, with one message per `y_i` and `σ1 ≠ 0`. -/
def Valid (x : F) (ys : List F) (sig : Signature S) (ms : List F) : Prop :=
  ms.length = ys.length ∧ sig.s1 ≠ 0 ∧ sig.s2 = (x + dot ys ms) • sig.s1

variable (P : Params F S O GT)

/-- The pairing with the generator of the other group is injective. -/
def Nondeg : Prop := ∀ a : S, P.e a P.gt = 0 → a = 0

/-! ## Lists -/

theorem dot_cons (y m : F) (ys ms : List F) : dot (y :: ys) (m :: ms) = y * m + dot ys ms := by simp [dot]
@[simp] theorem dot_nil_left (ms : List F) : dot ([] : List F) ms = 0 := by simp [dot]
@[simp] theorem dot_nil_right (ys : List F) : dot ys ([] : List F) = 0 := by simp [dot]

theorem dot_append : ∀ (ys ys' ms ms' : List F), ys.length = ms.length → dot (ys ++ ys') (ms ++ ms') = dot ys ms + dot ys' ms'
  | [], ys', [], ms', _ => by simp
  | y :: ys, ys', m :: ms, ms', h => by
    rw [List.cons_append, List.cons_append, dot_cons, dot_cons, dot_append ys ys' ms ms' (by simpa using h)]; ring

theorem expLoop_eq : ∀ (ys ms : List F) (acc : F), expLoop acc ys ms = acc + dot ys ms
  | [], ms, acc => by simp [expLoop]
  | _ :: _, [], acc => by simp [expLoop]
  | y :: ys, m :: ms, acc => by rw [expLoop, expLoop_eq ys ms, dot_cons]; ring

theorem msm_smul {G : Type} [AddCommGroup G] [Module F G] (g : G) : ∀ (ys ms : List F),
    msm (ys.map (fun y => y • g)) ms = dot ys ms • g
  | [], ms => by simp
  | _ :: _, [] => by simp
  | y :: ys, m :: ms => by rw [List.map_cons, msm_cons, msm_smul g ys ms, dot_cons]; module

/-! ## Signing and verifying -/

/-- what `verify` accepts, for any key -/
theorem verify_true_pairing (sig : Signature S) (ms : List F) (vk : Verkey O) :
    sig.verify P ms vk = .ok true ↔
      sig.s1 ≠ 0 ∧ sig.s2 ≠ 0 ∧ ms.length = vk.Y.length ∧ P.e sig.s1 (vk.X + msm vk.Y ms) = P.e sig.s2 P.gt := by
  unfold Signature.verify checkCompat
  by_cases h1 : sig.s1 = 0
  · simp [h1]
  by_cases h2 : sig.s2 = 0
  · simp [h2]
  by_cases hl : ms.length = vk.Y.length
  · simp only [h1, h2, or_self, if_false, hl, ne_eq, not_true_eq_false, Res.ok_bind, Res.pure_eq, Res.ok.injEq, decide_eq_true_eq,
      map_neg, LinearMap.neg_apply, not_false_eq_true, true_and]
    rw [add_neg_eq_zero]
  · simp [h1, h2, hl]

/-- **C46** For a key made by `keygen` and a non-degenerate pairing, `verify` answers true exactly for the solutions of the PS equation
with both components different from the neutral element. -/
theorem ps_verify_iff (hnd : Nondeg P) (x : F) (ys : List F) (sig : Signature S) (ms : List F) :
    sig.verify P ms (keygen P x ys).1 = .ok true ↔ Valid x ys sig ms ∧ sig.s2 ≠ 0 := by
  rw [verify_true_pairing]
  have key : P.e sig.s1 (x • P.gt + msm (ys.map (fun y => y • P.gt)) ms) = P.e ((x + dot ys ms) • sig.s1) P.gt := by
    rw [msm_smul, ← add_smul, map_smul, map_smul, LinearMap.smul_apply]
  simp only [keygen, List.length_map, key, Valid]
  constructor
  · rintro ⟨h1, h2, hl, h⟩
    refine ⟨⟨hl, h1, ?_⟩, h2⟩
    have : P.e (sig.s2 - (x + dot ys ms) • sig.s1) P.gt = 0 := by rw [map_sub, LinearMap.sub_apply, ← h, sub_self]
    exact sub_eq_zero.1 (hnd _ this)
  · rintro ⟨⟨hl, h1, h⟩, h2⟩
    exact ⟨h1, h2, hl, by rw [← h]⟩

/-- **C46** the other answers of `verify`: `false` for a neutral component (before the messages are counted), an error for a wrong number
of messages, never a panic -/
theorem ps_verify_cases (sig : Signature S) (ms : List F) (vk : Verkey O) :
    (sig.s1 = 0 ∨ sig.s2 = 0 → sig.verify P ms vk = .ok false) ∧
    (sig.s1 ≠ 0 → sig.s2 ≠ 0 → ms.length ≠ vk.Y.length →
      sig.verify P ms vk = .err (.unsupportedNoOfMessages ms.length vk.Y.length)) ∧
    (ms.length = vk.Y.length → ∃ b, sig.verify P ms vk = .ok b) := by
  unfold Signature.verify checkCompat
  refine ⟨fun h => by rw [if_pos h], fun h1 h2 hl => by simp [h1, h2, hl], fun hl => ?_⟩
  by_cases h : sig.s1 = 0 ∨ sig.s2 = 0
  · exact ⟨_, if_pos h⟩
  · rw [if_neg h]; simp [hl]

/-- **C46** `Signature::new` signs exactly the lists with one message per key element, and the result is the pair `(u g, (x + Σ y_i m_i) u g)` -/
theorem ps_sign_spec (ms : List F) (x : F) (ys : List F) (u : F) :
    (ms.length = ys.length → sigNew P ms ⟨x, ys⟩ u = .ok ⟨u • P.g, (x + dot ys ms) • (u • P.g)⟩) ∧
    (ms.length ≠ ys.length → sigNew P ms ⟨x, ys⟩ u = .err (.unsupportedNoOfMessages ms.length ys.length)) := by
  constructor
  · intro h
    simp [sigNew, signWith, h, expLoop_eq]
  · intro h
    simp [sigNew, h]

/-- **C46** A signature made by `Signature::new` verifies.  (The two conditions fail with negligible probability over `u` and the key; in
those cases the signature has a neutral component and is refused.) -/
theorem ps_sign_verify (hnd : Nondeg P) (ms : List F) (x : F) (ys : List F) (u : F) (hl : ms.length = ys.length) (hg : P.g ≠ 0)
    (hu : u ≠ 0) (hx : x + dot ys ms ≠ 0) :
    ∃ sig, sigNew P ms (keygen P x ys).2 u = .ok sig ∧ sig.verify P ms (keygen P x ys).1 = .ok true := by
  refine ⟨_, (ps_sign_spec P ms x ys u).1 hl, ?_⟩
  have h1 : u • P.g ≠ 0 := smul_ne_zero hu hg
  rw [ps_verify_iff P hnd]
  exact ⟨⟨hl, h1, rfl⟩, smul_ne_zero hx h1⟩

/-- **C46** (the exceptional cases) with `u = 0` or `x + Σ y_i m_i = 0` the signature is made and refused -/
theorem ps_sign_exceptional (ms : List F) (x : F) (ys : List F) (u : F) (hl : ms.length = ys.length)
    (h : u = 0 ∨ x + dot ys ms = 0) :
    ∃ sig, sigNew P ms (keygen P x ys).2 u = .ok sig ∧ sig.verify P ms (keygen P x ys).1 = .ok false := by
  refine ⟨_, (ps_sign_spec P ms x ys u).1 hl, (ps_verify_cases P _ _ _).1 ?_⟩
  rcases h with rfl | h
  · left; simp
  · right; simp [h]

/-! ## Blind signatures -/

theorem signWith_ok (ks : List F) (x : F) (ys : List F) (u : F) (n : Nat) (h : n + ks.length = ys.length) :
    signWith ks ⟨x, ys⟩ u n P.g = .ok (u • P.g, (x + dot (ys.drop n) ks) • (u • P.g)) := by
  simp [signWith, h, expLoop_eq]

/-- **C46** A blind signature on a commitment `b g + Σ m_i Y_i` to the first messages, unblinded with `b`, is the signature
`Signature::new` makes for all messages with the same random exponent -/
theorem ps_blind_eq_direct (hs ks : List F) (x : F) (ys : List F) (b u : F) (hne : hs ≠ []) (hl : hs.length + ks.length = ys.length) :
    ∃ s, blindNew P (b • P.g + msm ((blindingKey P ⟨x, ys⟩).Y.take hs.length) hs) ks ⟨x, ys⟩ (blindingKey P ⟨x, ys⟩) u = .ok s ∧
      sigNew P (hs ++ ks) ⟨x, ys⟩ u = .ok (unblind s b) := by
  have h0 : 0 < hs.length := List.length_pos_iff.2 hne
  have e1 : ys.length - ks.length = hs.length := by omega
  refine ⟨_, by
    unfold blindNew checkBlinding blindingKey
    simp only [List.length_map]
    rw [if_neg (by omega)]
    simp only [Res.ok_bind, e1]
    rw [signWith_ok P ks x ys u _ hl]
    rfl, ?_⟩
  rw [(ps_sign_spec P (hs ++ ks) x ys u).1 (by simpa using hl)]
  have hd : dot ys (hs ++ ks) = dot (ys.take hs.length) hs + dot (ys.drop hs.length) ks := by
    conv_lhs => rw [← List.take_append_drop hs.length ys]
    exact dot_append _ _ _ _ (by simp; omega)
  simp only [unblind, blindingKey, ← List.map_take, msm_smul, hd, Res.ok.injEq, Signature.mk.injEq, true_and]
  module

/-- **C46** the two blind signing routines agree -/
theorem ps_blind_paper_eq (c : S) (ks : List F) (x : F) (ys : List F) (u : F) :
    blindNewFromPaper P c ks (x • P.g) (blindingKey P ⟨x, ys⟩) u = blindNew P c ks ⟨x, ys⟩ (blindingKey P ⟨x, ys⟩) u := by
  unfold blindNew blindNewFromPaper checkBlinding blindingKey
  simp only [List.length_map]
  by_cases h : ks.length ≥ ys.length
  · simp [h]
  · rw [if_neg h]
    simp only [Res.ok_bind]
    rw [signWith_ok P ks x ys u _ (by omega), ← List.map_drop, msm_smul]
    simp only [Res.ok_bind, Res.pure_eq, Res.ok.injEq, Signature.mk.injEq, true_and]
    module

/-- **C46** a blind signature needs at least one committed message: otherwise the issuer refuses -/
theorem ps_blind_errors (c : S) (ks : List F) (sk : Sigkey F) (bk : BlindingKey S) (u : F) (h : ks.length ≥ bk.Y.length) :
    blindNew P c ks sk bk u = .err (.unsupportedNoOfMessages ks.length bk.Y.length) := by
  simp [blindNew, checkBlinding, h]

/-- **C46** the issuer refuses to sign with a blinding key for another number of messages than the signing key has -/
theorem ps_blind_key_mismatch (c : S) (ks : List F) (sk : Sigkey F) (bk : BlindingKey S) (u : F) (h : ks.length < bk.Y.length)
    (hne : bk.Y.length ≠ sk.y.length) :
    blindNew P c ks sk bk u = .err (.unsupportedNoOfMessages bk.Y.length sk.y.length) := by
  have h1 : bk.Y.length - ks.length + ks.length = bk.Y.length := by omega
  simp [blindNew, checkBlinding, signWith, Nat.not_le.mpr h, h1, hne]

/-- **C46, soundness** If the commitment passes the issuer's proof of knowledge over the blinding key of the committed messages and `g`
(two accepted transcripts with the same first message and different challenges), then the values `(y' - y) / (c - c')` computed from the
responses are messages and, last, a blinding factor, with which the unblinded signature solves the PS equation for these messages
followed by the issuer's. -/
theorem ps_blind_sound (c : S) (ks : List F) (x : F) (ys : List F) (u : F) (n : Nat) (hn : n + ks.length = ys.length) (hn0 : n ≠ 0)
    (hu : u • P.g ≠ 0) (pf pf' : PoK.Proof F S) (ch ch' : F) (hT : pf.commitment = pf'.commitment) (hc : ch ≠ ch')
    (h : pf.verify ((blindingKey P ⟨x, ys⟩).Y.take n ++ [P.g]) c ch = .ok true)
    (h' : pf'.verify ((blindingKey P ⟨x, ys⟩).Y.take n ++ [P.g]) c ch' = .ok true) :
    let w := List.zipWith (fun r r' => (ch' - ch)⁻¹ * (r - r')) pf.responses pf'.responses
    ∃ s : Signature S, blindNew P c ks ⟨x, ys⟩ (blindingKey P ⟨x, ys⟩) u = .ok s ∧ w.length = n + 1 ∧
      Valid x ys (unblind s (w.getLastD 0)) (w.dropLast ++ ks) := by
  have hop := pok_sound pf pf' _ c ch ch' hT hc h h'
  obtain ⟨hlen, hC⟩ := hop
  intro w
  change w.length = _ at hlen
  change msm _ w = _ at hC
  have hYl : ((blindingKey P ⟨x, ys⟩).Y.take n).length = n := by simp [blindingKey]; omega
  have hwl : w.length = n + 1 := by
    have := hlen; simp only [List.length_append, hYl, List.length_singleton] at this; omega
  have hw0 : w ≠ [] := by intro e; rw [e] at hwl; simp at hwl
  obtain ⟨hs, b, hsplit, hsl⟩ : ∃ hs b, w = hs ++ [b] ∧ hs.length = n :=
    ⟨w.dropLast, w.getLast hw0, (List.dropLast_append_getLast hw0).symm, by simp [hwl]⟩
  have hcomm : c = b • P.g + msm ((blindingKey P ⟨x, ys⟩).Y.take n) hs := by
    rw [← hC, hsplit, msm_append _ _ _ _ (by rw [hYl, hsl])]
    simp [add_comm]
  have hne : hs ≠ [] := by intro e; rw [e] at hsl; simp at hsl; omega
  obtain ⟨s, h1, h2⟩ := ps_blind_eq_direct P hs ks x ys b u hne (by omega)
  rw [hsl, ← hcomm] at h1
  refine ⟨s, h1, hwl, ?_⟩
  have hb1 : w.getLastD 0 = b := by rw [hsplit]; simp
  have hb2 : w.dropLast = hs := by rw [hsplit]; simp
  rw [hb1, hb2]
  rw [(ps_sign_spec P (hs ++ ks) x ys u).1 (by simp; omega)] at h2
  simp only [Res.ok.injEq] at h2
  rw [← h2]
  exact ⟨by simp; omega, hu, rfl⟩

end
end Verif.PS
