import Verif.Props.BBSLinked
/-!
# C238: what an external blinding that is used twice gives away

C237 needs a common blinding to be drawn for one hidden value and one presentation.  Used in two presentations it gives the value away; used for two values in one presentation it gives
their difference away.
-/
set_option linter.unusedSectionVars false
set_option linter.unusedVariables false

namespace Verif.BBS
open Verif.PoK

variable {F G1 G2 GT : Type} [Field F] [DecidableEq F] [AddCommGroup G1] [Module F G1] [DecidableEq G1] [AddCommGroup G2] [Module F G2] [DecidableEq G2]
  [AddCommGroup GT] [Module F GT] [DecidableEq GT]

/-! ## Specification -/

/-- how many messages are hidden -/
def hiddenCount : List (ProofMessage F) → Nat
  | [] => 0
  | .revealed _ :: l => hiddenCount l
  | _ :: l => hiddenCount l + 1

/-- A presentation that hides `m` with the blinding `b` as message number `pre.length`: it is made from a signature without an error, and answers the challenge `c` with `p`. -/
def HidesWith (P : Params F G1 G2 GT) (pre : List (ProofMessage F)) (m b c : F) (p : SigProof F G1) : Prop :=
  ∃ (sig : Signature F G1) (pk : PublicKey G1 G2) (post : List (ProofMessage F)) (r : Rand F) (pok : PoKSig F G1),
    init P sig pk (pre ++ .hiddenExt m b :: post) r = .ok pok ∧ pok.genProof c = .ok p

/-! ## Proof -/

theorem hiddenOf_at (bl : Nat → F) (m b : F) (post : List (ProofMessage F)) : ∀ (i : Nat) (hs : List G1) (pre : List (ProofMessage F)), pre.length < hs.length →
    ∃ h, (hiddenOf bl i hs (pre ++ .hiddenExt m b :: post))[hiddenCount pre]? = some (h, b, m)
  | i, [], pre, hl => by simp at hl
  | i, h :: hs, [], _ => ⟨h, by simp [hiddenOf, hiddenCount]⟩
  | i, h :: hs, pm :: pre, hl => by
    obtain ⟨h', e⟩ := hiddenOf_at bl m b post (i + 1) hs pre (by simpa using hl)
    refine ⟨h', ?_⟩
    cases pm <;> simpa [hiddenOf, hiddenCount] using e

/-- the response is read off with `get_resp_for_message` -/
theorem hides_response (P : Params F G1 G2 GT) (pre : List (ProofMessage F)) (m b c : F) (p : SigProof F G1) (h : HidesWith P pre m b c p) :
    p.respForMessage (hiddenCount pre) = .ok (b - c * m) := by
  obtain ⟨sig, pk, post, r, pok, h1, h2⟩ := h
  unfold init at h1
  split at h1
  · cases h1
  · rename_i hl
    rw [Res.bind_eq_ok] at h1
    obtain ⟨ok, -, h1⟩ := h1
    split at h1
    · cases h1
      rw [genProof_eq] at h2
      cases h2
      obtain ⟨g, e⟩ := hiddenOf_at r.blind m b post 0 pk.h pre (by
        have : (pre ++ .hiddenExt m b :: post).length = pk.h.length := not_not.1 hl
        rw [← this, List.length_append, List.length_cons]
        omega)
      rw [resp_for_message_spec, e]
    · cases h1

/-- **C238** One blinding for the same message in two presentations with different challenges: anybody computes the message from the two responses. -/
theorem bbs_reused_blinding_reveals (P : Params F G1 G2 GT) (pre pre' : List (ProofMessage F)) (m b c c' : F) (p p' : SigProof F G1) (h : HidesWith P pre m b c p)
    (h' : HidesWith P pre' m b c' p') (hc : c ≠ c') :
    ∃ s s', p.respForMessage (hiddenCount pre) = .ok s ∧ p'.respForMessage (hiddenCount pre') = .ok s' ∧ m = (s - s') / (c' - c) := by
  refine ⟨_, _, hides_response P pre m b c p h, hides_response P pre' m b c' p' h', ?_⟩
  rw [eq_div_iff (sub_ne_zero.2 hc.symm)]
  ring

/-- **C238** One blinding for two messages under one challenge: anybody computes the difference of the messages from the two responses. -/
theorem bbs_shared_blinding_reveals_difference (P : Params F G1 G2 GT) (pre pre' : List (ProofMessage F)) (m m' b c : F) (p p' : SigProof F G1) (h : HidesWith P pre m b c p)
    (h' : HidesWith P pre' m' b c p') (hc : c ≠ 0) :
    ∃ s s', p.respForMessage (hiddenCount pre) = .ok s ∧ p'.respForMessage (hiddenCount pre') = .ok s' ∧ m' - m = (s - s') / c := by
  refine ⟨_, _, hides_response P pre m b c p h, hides_response P pre' m' b c p' h', ?_⟩
  rw [eq_div_iff hc]
  ring
end Verif.BBS

/-! ## The hypotheses are met -/

namespace Verif.BBS.Toy
open Verif.Toy
local instance : Fact (Nat.Prime 101) := fact101

/-- the second of the messages 4, 6, 8 hidden with the blinding 33 -/
theorem hides (r : Rand (ZMod 101)) (c : ZMod 101) : ∃ p, HidesWith par [.revealed 4] 6 33 c p := by
  refine ⟨_, sig, key, [.hidden 8], r, initValid par sig key ([.revealed 4] ++ .hiddenExt 6 33 :: [.hidden 8]) r, ?_, genProof_eq par sig key _ r c⟩
  unfold init
  rw [if_neg (by decide)]
  show (sig.verify par [4, 6, 8] key >>= _) = _
  rw [sig_ok]
  rfl

/-- presented twice, the 6 is known -/
example (r r' : Rand (ZMod 101)) : ∃ (p p' : SigProof (ZMod 101) (ZMod 101)) (s s' : ZMod 101), HidesWith par [.revealed 4] 6 33 10 p ∧ HidesWith par [.revealed 4] 6 33 20 p' ∧
    p.respForMessage 0 = .ok s ∧ p'.respForMessage 0 = .ok s' ∧ 6 = (s - s') / (20 - 10) := by
  obtain ⟨p, h⟩ := hides r 10
  obtain ⟨p', h'⟩ := hides r' 20
  obtain ⟨s, s', h1, h2, h3⟩ := bbs_reused_blinding_reveals par _ _ 6 33 10 20 p p' h h' (by decide +kernel)
  exact ⟨p, p', s, s', h, h', h1, h2, h3⟩
end Verif.BBS.Toy
