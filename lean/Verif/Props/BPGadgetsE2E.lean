import Verif.Props.BPSetAlt
import Verif.Toy
set_option linter.unusedSectionVars false
set_option linter.unusedSimpArgs false
set_option linter.unusedVariables false
/-!
# Gadgets: accepted proofs (C116–C121), and sessions that meet the hypotheses

The soundness theorems of the gadgets are about the constraints; here they are combined with the soundness of the R1CS proof (C115).
-/
namespace Verif.BP
variable {F V : Type} [Field F] [AddCommGroup V] [Module F V] [DecidableEq F] [DecidableEq V]

section EndToEnd
variable {tr : Transcript F V} {t0 t1 : VState F V} {T : STree F V} {g h : V} {G H : List V} {W : Nat → Weights F} {v vb : List F}

theorem getD_eq_getElem {v : List F} {i : Nat} {x : F} (h : i < v.length) (e : v.getD i 0 = x) : v[i]? = some x := by
  rw [List.getD_eq_getElem?_getD] at e
  rw [List.getElem?_eq_getElem h] at e ⊢
  simpa using e

theorem lt_of_getElem? {l m : List V} {i j : Nat} (h : l[i]? = m[j]?) (hj : j < m.length) : i < l.length := by
  rw [List.getElem?_eq_getElem hj] at h
  exact (List.getElem?_eq_some_iff.1 h).1

theorem Extracted.length (E : Extracted t0 t1 T g h G H W v vb) (i : Nat) (hi : i < t0.V.length) : i < v.length := by
  obtain ⟨O, e⟩ := E.rand
  have le := (VState.Le.createRandomized e).V.length_le
  have := congrArg List.length E.opens
  rw [List.length_zipWith, E.lenv, min_self] at this
  simp only at le
  omega

/-- **C116 with C115.** An accepted bound check: the first committed value is a number between the bounds. -/
theorem bounded_accepted (p : Nat) [CharP F p] (rep : F → Nat) (lower upper n : Nat) (Cs : List V)
    (run : (verifyBounded rep lower upper n Cs).runV VState.top (VState.new tr) = .ok ((), t0)) (E : Extracted t0 t1 T g h G H W v vb)
    (hp : 2 ^ (n + 1) ≤ p) (hu : upper < p) : ∃ k : Nat, lower ≤ k ∧ k ≤ upper ∧ v[0]? = some (k : F) := by
  obtain ⟨hV, hl, k, h1, h2, e⟩ := bounded_sound p rep lower upper n Cs _ t0 run hp hu _ (session_sound E).1
  rw [(session_sound E).2] at e
  refine ⟨k, h1, h2, getD_eq_getElem (E.length 0 ?_) e⟩
  exact lt_of_getElem? (i := 0) hV (by omega)

/-- **C117 with C115.** -/
theorem nonZero_accepted (Cs : List V) (run : (verifyNonZero Cs).runV VState.top (VState.new tr) = .ok ((), t0)) (E : Extracted t0 t1 T g h G H W v vb) :
    ∃ x : F, x ≠ 0 ∧ v[0]? = some x := by
  obtain ⟨hV, hl, e⟩ := nonZero_sound Cs _ t0 run _ (session_sound E).1
  rw [(session_sound E).2] at e
  refine ⟨_, e, getD_eq_getElem (E.length 0 ?_) rfl⟩
  exact lt_of_getElem? (i := 0) hV (by omega)

/-- **C118 with C115.** -/
theorem setMembership_accepted (set : List F) (Cs : List V) (run : (verifySetMembership set Cs).runV VState.top (VState.new tr) = .ok ((), t0))
    (E : Extracted t0 t1 T g h G H W v vb) : ∃ x ∈ set, v[0]? = some x := by
  obtain ⟨hV, hl, e⟩ := setMembership_sound set Cs _ t0 run _ (session_sound E).1
  rw [(session_sound E).2] at e
  refine ⟨_, e, getD_eq_getElem (E.length 0 ?_) rfl⟩
  exact lt_of_getElem? (i := 0) hV (List.length_pos_iff.2 hl)

/-- **C119 with C115.** -/
theorem setNonMembership_accepted (set : List F) (Cs : List V) (run : (verifySetNonMembership set Cs).runV VState.top (VState.new tr) = .ok ((), t0))
    (E : Extracted t0 t1 T g h G H W v vb) : ∃ x, x ∉ set ∧ v[0]? = some x := by
  obtain ⟨hV, hl, e⟩ := setNonMembership_sound set Cs _ t0 run _ (session_sound E).1
  rw [(session_sound E).2] at e
  refine ⟨_, e, getD_eq_getElem (E.length 0 ?_) rfl⟩
  exact lt_of_getElem? (i := 0) hV (List.length_pos_iff.2 hl)

/-- **C120 with C115.** -/
theorem setMembershipAlt_accepted_partial (set : List Nat) (Cs : List V)
    (run : (verifySetMembershipAlt set Cs).runV VState.top (VState.new tr) = .ok ((), t0)) (E : Extracted t0 t1 T g h G H W v vb) :
    ∃ x, (x = 0 ∨ ∃ a ∈ set, x = (a : F)) ∧ v[set.length]? = some x := by
  obtain ⟨hV, hl, -, e, -⟩ := setMembershipAlt_sound_partial set Cs _ t0 run _ (session_sound E).1
  rw [(session_sound E).2] at e
  simp only [VState.new, List.length_nil, Nat.zero_add] at e hV
  refine ⟨_, e, getD_eq_getElem (E.length _ ?_) rfl⟩
  exact lt_of_getElem? hV hl

/-- **C121 with C115.** -/
theorem mimc_accepted (image : F) (constants : List F) (Cs : List V)
    (run : (verifyMimc image constants Cs).runV VState.top (VState.new tr) = .ok ((), t0)) (E : Extracted t0 t1 T g h G H W v vb) :
    ∃ a b, v[0]? = some a ∧ v[1]? = some b ∧ mimc a b constants = image := by
  obtain ⟨hV, hV1, hl, e⟩ := mimc_sound image constants Cs _ t0 run _ (session_sound E).1
  rw [(session_sound E).2, (session_sound E).2] at e
  simp only [VState.new, List.length_nil, Nat.zero_add] at e hV hV1
  exact ⟨_, _, getD_eq_getElem (E.length 0 (lt_of_getElem? hV (by omega))) rfl, getD_eq_getElem (E.length 1 (lt_of_getElem? hV1 (by omega))) rfl, e⟩

end EndToEnd

/-! ## Concrete sessions -/

/-- what the soundness theorems suppose is met: from a session that is accepted -/
theorem met_of_honest {O : Transcript F V → F} {g h : V} {tr : Transcript F V} {P : ProverSession F (List V)} {Q : List V → VerifierSession F V Unit}
    {Cs : List V} (hh : HonestAccepted O g h tr P Q Cs) : ∃ t A, (Q Cs).runV VState.top (VState.new tr) = .ok ((), t) ∧ Sat t.numVars t.cons A := by
  obtain ⟨s, -, ⟨t, e, -, -, st⟩, -⟩ := hh
  exact ⟨t, s.asg, e, st⟩

open Verif.Toy in
theorem canon101 : Canon (F := ZMod 101) 101 ZMod.val := ⟨fun x => ZMod.val_lt x, fun x => ZMod.natCast_zmod_val x⟩

open Verif.Toy in
/-- C116: 5 is between 3 and 10; numbers of 4 bits, in the field with 101 elements -/
example : (2 ^ (4 + 1) ≤ 101 ∧ 10 < 101) ∧ ∃ t A, (verifyBounded (F := ZMod 101) ZMod.val 3 10 4 [(5 : ZMod 101) * 2 + 7 * 3, 2 * 2 + 8 * 3, 5 * 2 + 9 * 3]).runV
    VState.top (VState.new []) = .ok ((), t) ∧ Sat t.numVars t.cons A := by
  refine ⟨by decide, ?_⟩
  have := bounded_complete (V := ZMod 101) 101 ZMod.val canon101 (fun _ => 1) [] 2 3 5 3 10 4 (some 7) none 8 9 (by simp) (by decide) (by decide) (by decide)
    (by decide)
  exact met_of_honest this

open Verif.Toy in
/-- C117: 5 is not 0 -/
example : ∃ t A, (verifyNonZero (F := ZMod 101) [(5 : ZMod 101) * 2 + 7 * 3, 5⁻¹ * 2 + 8 * 3]).runV VState.top (VState.new []) = .ok ((), t) ∧
    Sat t.numVars t.cons A :=
  met_of_honest (nonZero_complete (F := ZMod 101) (V := ZMod 101) (fun _ => 1) [] 2 3 5 (some 7) none 8 (by simp) (by decide))

open Verif.Toy in
/-- C118: 5 is in the set -/
example : ∃ Cs t A, (verifySetMembership (F := ZMod 101) (V := ZMod 101) [4, 5, 6] Cs).runV VState.top (VState.new []) = .ok ((), t) ∧
    Sat t.numVars t.cons A :=
  ⟨_, met_of_honest (setMembership_complete (F := ZMod 101) (V := ZMod 101) (fun _ => 1) [] 2 3 5 [4, 5, 6] (some 7) none (fun i => (i : ZMod 101)) (by simp) (by simp))⟩

open Verif.Toy in
/-- C119: 7 is not in the set -/
example : ∃ Cs t A, (verifySetNonMembership (F := ZMod 101) (V := ZMod 101) [4, 5, 6] Cs).runV VState.top (VState.new []) = .ok ((), t) ∧
    Sat t.numVars t.cons A :=
  ⟨_, met_of_honest (setNonMembership_complete (F := ZMod 101) (V := ZMod 101) (fun _ => 1) [] 2 3 7 [4, 5, 6] (some 7) none (fun i => (i : ZMod 101)) (by simp) (by decide))⟩

open Verif.Toy in
/-- C120: 5 is in the set -/
example : ∃ Cs t A, (verifySetMembershipAlt (F := ZMod 101) (V := ZMod 101) [4, 5, 6] Cs).runV VState.top (VState.new []) = .ok ((), t) ∧
    Sat t.numVars t.cons A :=
  ⟨_, met_of_honest (setMembershipAlt_complete (F := ZMod 101) (V := ZMod 101) (fun _ => 1) [] 2 3 5 [4, 5, 6] (some 7) none (fun i => (i : ZMod 101)) (by simp) (by decide))⟩

open Verif.Toy in
/-- C120, duplicates: 5 occurs twice -/
example : (([4, 5, 5] : List Nat).count 5 : ZMod 101) ≠ 1 ∧ ∃ Cs s, (proveSetMembershipAlt (F := ZMod 101) (V := ZMod 101) 2 3 5 (some 7) [4, 5, 5] none fun i => (i : ZMod 101)).runP
    (PState.top (2 : ZMod 101) 3) (PState.new []) = .ok (Cs, s) := by
  exact ⟨by decide, _, _, rfl⟩

open Verif.Toy in
/-- C121: a preimage, with three constants -/
example : ∃ t A, (verifyMimc (F := ZMod 101) (mimc 4 5 [1, 2, 3]) [1, 2, 3] [(4 : ZMod 101) * 2 + 7 * 3, 5 * 2 + 8 * 3]).runV VState.top (VState.new []) =
    .ok ((), t) ∧ Sat t.numVars t.cons A :=
  met_of_honest (mimc_complete (F := ZMod 101) (V := ZMod 101) (fun _ => 1) [] 2 3 4 5 7 8 [1, 2, 3]).1

end Verif.BP
