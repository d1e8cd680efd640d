import Verif.Props.CLRevocation
set_option linter.unusedSectionVars false
/-!
# Deltas rebuilt from snapshots of a registry (C193)
-/
namespace Verif.CL.Rev
open Verif Finset

variable {F G1 G2 GT : Type} [Field F] [AddCommGroup G1] [Module F G1] [AddCommGroup G2] [Module F G2] [AddCommGroup GT] [Module F GT] [DecidableEq G2]

/-- **C193.** The ledger keeps snapshots of a registry: the accumulator and the set of issued indices.  The delta rebuilt with `from_parts` from two snapshots is exactly the delta that
the deltas published in between merge to, and updating a witness with it is the same as applying the published deltas one by one. -/
theorem rebuilt_delta (m : Overflow) (e : G1 →ₗ[F] G2 →ₗ[F] GT) (pk : PubKey G1 G2) (max : Nat) (byDefault : Bool) (γ : F) (hmax : 2 * max + 1 < 2 ^ 32) (z : GT) (reg0 : G2)
    (gen : TailsGen F G2) (hsetup : newRevocationRegistryDef m e pk max byDefault γ = .ok (z, reg0, gen)) (ops1 ops2 : List Op)
    (hops1 : ValidHistory max byDefault (initialSet max byDefault) ops1) (hops2 : ValidHistory max byDefault (effectAll byDefault (initialSet max byDefault) ops1) ops2)
    (reg1 reg2 : G2) (ds1 ds2 : List (Delta G2)) (hrun1 : runOps m max byDefault (collectTails gen) ops1 reg0 = .ok (reg1, ds1))
    (hrun2 : runOps m max byDefault (collectTails gen) ops2 reg1 = .ok (reg2, ds2)) (V0 V1 V2 : Finset Nat) (hV0 : V0 = initialSet max byDefault) (hV1 : V1 = effectAll byDefault V0 ops1)
    (hV2 : V2 = effectAll byDefault V1 ops2) :
    mergeAll (Delta.fromParts none reg0 ∅ ∅) ds1 = .ok (Delta.fromParts none reg1 (V1 \ V0) (V0 \ V1)) ∧
    (∀ d ds, ds2 = d :: ds → mergeAll d ds = .ok (Delta.fromParts (some reg1) reg2 (V2 \ V1) (V1 \ V2))) ∧
    ∀ i ≤ max, ∃ w1 w2, witnessNew m i max byDefault (Delta.fromParts none reg1 (V1 \ V0) (V0 \ V1)) (collectTails gen) = .ok w1 ∧
      updateAll m i max (collectTails gen) w1 ds2 = .ok w2 ∧
      witnessUpdate m w1 i max (Delta.fromParts (some reg1) reg2 (V2 \ V1) (V1 \ V2)) (collectTails gen) = .ok w2 := by
  obtain ⟨gen', hg, h⟩ := registry_created m e pk max byDefault γ hmax
  rw [h] at hsetup
  cases hsetup
  have ht := honestTails_of_setup hmax hg
  subst hV0
  have hV0 := initialSet_subset max byDefault
  generalize hI : initialSet max byDefault = V0 at *
  obtain ⟨ds1', r1, c1, s1⟩ := runOps_spec (m := m) hmax ht ops1 hV0 hops1
  rw [r1] at hrun1
  cases hrun1
  obtain ⟨ds2', r2, c2, s2⟩ := runOps_spec (m := m) hmax ht ops2 s1 hops2
  rw [r2] at hrun2
  cases hrun2
  subst hV1 hV2
  generalize effectAll byDefault V0 ops1 = V1 at *
  generalize effectAll byDefault V1 ops2 = V2 at *
  refine ⟨?_, ?_, ?_⟩
  · obtain ⟨D1, a1, a2, a3, a4⟩ := mergeAll_chain ds1 (Delta.fromParts none (accOf max γ pk.gDash V0) ∅ ∅) V0 V0 V1 (by constructor <;> simp [Delta.fromParts]) rfl c1
    rw [a1, Res.ok.injEq]
    obtain ⟨p, a, I, Rv⟩ := D1
    obtain ⟨b1, b2⟩ := a2
    simp only [] at a3 a4 b1 b2
    subst a3 b1 b2 a4
    rfl
  · rintro d ds rfl
    obtain ⟨V', q1, q2, q3, q4, q5⟩ := c2
    obtain ⟨D, n1, n2, n3, n4⟩ := mergeAll_chain ds d V1 V' V2 q4 q3 q5
    rw [n1, Res.ok.injEq]
    rw [q2] at n4
    obtain ⟨p, a, I, Rv⟩ := D
    obtain ⟨b1, b2⟩ := n2
    simp only [] at n3 n4 b1 b2
    subst n3 n4 b1 b2
    rfl
  · intro i hi
    exact ⟨_, _, witnessNew_spec hmax ht byDefault V1 s1 _ (by rw [hI]; exact ⟨rfl, rfl⟩) i hi, updateAll_spec hmax ht i hi ds2 V1 V2 s1 c2, witnessUpdate_spec hmax ht V1 V2 s1 s2 _ ⟨rfl, rfl⟩ i hi⟩

end Verif.CL.Rev

namespace Verif.CL.Rev.Example
open Verif Verif.Toy Verif.CL.Rev Finset

/-- The hypotheses are met: revoke 1, then in one batch recover 1 and revoke 2 and 3 (first snapshot: 1 is issued); then revoke 1 and recover 3 (second snapshot: 3 is issued).  The
published deltas merge to the delta `from_parts(reg1, reg2, {3}, {1})`. -/
example : ∃ gen reg1 reg2 ds1 d ds, newRevocationRegistryDef .checked toyE keys.1 3 true γ0 = .ok ((γ0 ^ 4) • toyE 1 9, acc0, gen) ∧
    runOps .checked 3 true (collectTails gen) [.revoke 1, .update {1} {2, 3}] acc0 = .ok (reg1, ds1) ∧
    runOps .checked 3 true (collectTails gen) [.revoke 1, .recover 3] reg1 = .ok (reg2, d :: ds) ∧
    mergeAll d ds = .ok (Delta.fromParts (some reg1) reg2 {3} {1}) ∧ reg1 ≠ reg2 := by
  obtain ⟨gen, hg, h⟩ := registry_created .checked toyE keys.1 3 true γ0 (by norm_num)
  have v1 : ValidHistory 3 true (initialSet 3 true) [.revoke 1, .update {1} {2, 3}] := by
    simp only [ValidHistory, Op.Valid, Op.effect]; decide
  have e1 : effectAll true (initialSet 3 true) [.revoke 1, .update {1} {2, 3}] = {1} := by decide
  have v2 : ValidHistory 3 true {1} [.revoke 1, .recover 3] := by
    simp only [ValidHistory, Op.Valid, Op.effect]; decide
  have e2 : effectAll true {1} [.revoke 1, .recover 3] = {3} := by decide
  have ht := honestTails_of_setup (m := .checked) (by norm_num : 2 * 3 + 1 < 2 ^ 32) hg
  obtain ⟨ds1, r1, -, s1⟩ := runOps_spec (m := .checked) (byDefault := true) (by norm_num : 2 * 3 + 1 < 2 ^ 32) ht _ (initialSet_subset 3 true) v1
  rw [e1] at r1 s1
  obtain ⟨ds2, r2, c2, -⟩ := runOps_spec (m := .checked) (byDefault := true) (by norm_num : 2 * 3 + 1 < 2 ^ 32) ht _ s1 v2
  rw [e2] at r2 c2
  cases ds2 with
  | nil =>
    have : ({1} : Finset Nat) = {3} := c2
    exact absurd this (by decide)
  | cons d ds =>
    obtain ⟨-, hm, -⟩ := rebuilt_delta .checked toyE keys.1 3 true γ0 (by norm_num) _ _ _ h _ _ v1 (by rw [e1]; exact v2) _ _ _ _ r1 r2 _ {1} {3} rfl e1.symm e2.symm
    refine ⟨gen, _, _, ds1, d, ds, h, r1, r2, ?_, ?_⟩
    · rw [hm d ds rfl]
      rfl
    · unfold accOf
      rw [sum_singleton, sum_singleton]
      decide +kernel

end Verif.CL.Rev.Example
