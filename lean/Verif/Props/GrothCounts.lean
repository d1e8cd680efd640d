import Verif.Props.GrothToken
/-!
# Token messages of the wrong shape are refused, and the error tells what was expected (C207)
-/
namespace Verif.Groth
open Verif

variable {F G1 G2 GT : Type} [Field F] [AddCommGroup G1] [Module F G1] [AddCommGroup G2] [Module F G2] [AddCommGroup GT] [Module F GT]

/-- specification: a number found in a message, the number that belongs there, and the kind of error (expected number first) -/
structure Count where
  given : Nat
  expected : Nat
  error : Nat → Nat → Error

/-- specification: the first wrong number is reported -/
def firstWrong (l : List Count) : Res Error Unit :=
  match l.find? (fun x => x.given ≠ x.expected) with
  | none => .ok ()
  | some x => .err (x.error x.expected x.given)

/-- specification: what belongs into the commitment of a token for `L` levels: one entry per level, those of the odd levels 1, 3, … and
of the even levels 2, 4, … apart -/
def commCounts (L : Nat) (k : Comm G1 G2 GT) : List Count :=
  [⟨k.commsT.length, L, .incorrectNumberOfTCommitments⟩, ⟨k.commsS.length, L, .incorrectNumberOfSCommitments⟩,
   ⟨k.oddRev.length + k.evenRev.length, L, .incorrectNumberOfRevealedAttributeSets⟩,
   ⟨k.oddR.length + k.evenR.length, L, .incorrectNumberOfBlindedR⟩,
   ⟨k.oddRev.length, (L + 1) / 2, fun a b => .incorrectNumberOfOddValues a b "revealed attributes"⟩,
   ⟨k.oddR.length, (L + 1) / 2, fun a b => .incorrectNumberOfOddValues a b "blinded r"⟩,
   ⟨k.evenRev.length, L / 2, fun a b => .incorrectNumberOfEvenValues a b "revealed attributes"⟩,
   ⟨k.evenR.length, L / 2, fun a b => .incorrectNumberOfEvenValues a b "blinded r"⟩]

/-- specification: the numbers of the answers -/
def respCounts (L : Nat) (q : Resp F G1 G2) : List Count :=
  [⟨q.oddS.length + q.evenS.length, L, fun a b => .unequalNoOfCommitmentAndResponses a b "s from signature"⟩,
   ⟨q.oddT.length + q.evenT.length, L, fun a b => .unequalNoOfCommitmentAndResponses a b "t from signature"⟩]

theorem firstWrong_cons (x : Count) (l : List Count) :
    firstWrong (x :: l) = if x.given ≠ x.expected then .err (x.error x.expected x.given) else firstWrong l := by
  unfold firstWrong
  by_cases h : x.given = x.expected
  · rw [List.find?_cons_of_neg (by simp [h]), if_neg (by simp [h])]
  · rw [List.find?_cons_of_pos (by simp [h]), if_pos h]

theorem checkOdd_eq (len L : Nat) (s : String) :
    checkOdd len L s = if len ≠ (L + 1) / 2 then .err (.incorrectNumberOfOddValues ((L + 1) / 2) len s) else .ok () := by
  unfold checkOdd
  rcases Nat.mod_two_eq_zero_or_one L with h | h
  · rw [if_neg (by omega), show (L + 1) / 2 = L / 2 by omega]
  · rw [if_pos h, show (L + 1) / 2 = L / 2 + 1 by omega]

/-- **C207** the commitment of a token: the first wrong number is reported, and without a wrong number there is no error -/
theorem comm_counts (L : Nat) (k : Comm G1 G2 GT) : k.validate L = firstWrong (commCounts L k) := by
  unfold Comm.validate commCounts
  simp only [checkOdd_eq]
  unfold checkEven
  simp only [firstWrong_cons]
  by_cases h1 : k.commsT.length = L
  swap
  · rw [if_pos h1, if_pos h1]
  rw [if_neg (not_not.2 h1), if_neg (not_not.2 h1)]
  by_cases h2 : k.commsS.length = L
  swap
  · rw [if_pos h2, if_pos h2]
  rw [if_neg (not_not.2 h2), if_neg (not_not.2 h2)]
  by_cases h3 : k.oddRev.length + k.evenRev.length = L
  swap
  · rw [if_pos h3, if_pos h3]
  rw [if_neg (not_not.2 h3), if_neg (not_not.2 h3)]
  by_cases h4 : k.oddR.length + k.evenR.length = L
  swap
  · rw [if_pos h4, if_pos h4]
  rw [if_neg (not_not.2 h4), if_neg (not_not.2 h4)]
  by_cases h5 : k.oddRev.length = (L + 1) / 2
  swap
  · rw [if_pos h5, if_pos h5]; rfl
  rw [if_neg (not_not.2 h5), if_neg (not_not.2 h5), Res.ok_bind]
  by_cases h6 : k.oddR.length = (L + 1) / 2
  swap
  · rw [if_pos h6, if_pos h6]; rfl
  rw [if_neg (not_not.2 h6), if_neg (not_not.2 h6), Res.ok_bind]
  by_cases h7 : k.evenRev.length = L / 2
  swap
  · rw [if_pos h7, if_pos h7]; rfl
  rw [if_neg (not_not.2 h7), if_neg (not_not.2 h7), Res.ok_bind]
  by_cases h8 : k.evenR.length = L / 2
  swap
  · rw [if_pos h8, if_pos h8]
  rw [if_neg (not_not.2 h8), if_neg (not_not.2 h8)]
  rfl

/-- **C207** the answers of a token -/
theorem resp_counts (L : Nat) (q : Resp F G1 G2) : q.validate L = firstWrong (respCounts L q) := by
  unfold Resp.validate respCounts
  simp only [firstWrong_cons]
  split_ifs <;> rfl

/-- **C207** a verifier refuses a message with wrong numbers, with the error for the first of them, before it looks at anything else -/
theorem wrong_counts_refused (e : G1 →ₗ[F] G2 →ₗ[F] GT) (L : Nat) (k : Comm G1 G2 GT) (q : Resp F G1 G2) (ch : F) (revealed : List (List Nat)) (ipk : G2)
    (p1 : Setup G1 G2) (p2 : Setup G2 G1) (pre : PreRecon GT) (err : Error) (h : firstWrong (commCounts L k ++ respCounts L q) = .err err) :
    reconstruct e L k q ch revealed ipk p1 p2 = .err err ∧ reconstructPre e L k q ch revealed p1 p2 pre = .err err := by
  have hsplit : firstWrong (commCounts L k ++ respCounts L q) = (do firstWrong (commCounts L k); firstWrong (respCounts L q)) := by
    unfold firstWrong
    rw [List.find?_append]
    cases (commCounts L k).find? (fun x => x.given ≠ x.expected) with
    | none => rfl
    | some x => rfl
  rw [hsplit, ← comm_counts, ← resp_counts] at h
  have key : ∀ {α : Type} (f : Res Error α), (do k.validate L; q.validate L; f) = .err err := by
    intro α f
    cases h1 : k.validate L with
    | ok _ =>
      rw [h1, Res.ok_bind] at h
      rw [Res.ok_bind, h]
      rfl
    | err x => rw [h1] at h; cases h; rfl
    | panic => rw [h1] at h; cases h
  exact ⟨key _, key _⟩

/-- **C207, met** no level at all in the message for a chain of three: refused because of the missing commitments; an entry for two odd
levels and one even level belongs to three levels -/
theorem counts_met (L : Nat) (hL : 0 < L) :
    (⟨[], [], [], [], [], []⟩ : Comm G1 G2 GT).validate L = .err (.incorrectNumberOfTCommitments L 0) ∧
    (⟨[0, 0], [0], [0, 0, 0], [[], [], []], [[]], [[], []]⟩ : Comm G1 G2 GT).validate 3 = .err (.incorrectNumberOfOddValues 2 1 "revealed attributes") := by
  constructor
  · rw [comm_counts]
    unfold commCounts
    rw [firstWrong_cons, if_pos (by simp only [List.length_nil]; omega)]
    rfl
  · rfl

end Verif.Groth
