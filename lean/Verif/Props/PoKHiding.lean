import Verif.Props.ForkedPoK
import Verif.Props.SymmCCA
/-!
# C229: proofs of knowledge of committed vectors say nothing about the values
-/
set_option linter.unusedSectionVars false
set_option linter.unusedVariables false
namespace Verif.PoK.Hiding
open Verif.PoK Verif.Forking

variable {F G : Type} [Field F] [DecidableEq F] [AddCommGroup G] [Module F G] [DecidableEq G]

/-! ## Specification -/

/-- What a user of the module does: commit to the bases with the blindings, finish, hash, answer.  The result is the proof and the challenge. -/
def prove (enc : G → Bytes) (hash : Bytes → F) {n : Nat} (B : Fin n → G) (extra : Bytes) (s r : Fin n → F) : Res Error (Proof F G × F) := do
  let c := (commitAll (List.ofFn fun i => (B i, r i))).finish
  let ch := c.genChallenge enc hash extra
  let p ← c.genProof ch (List.ofFn s)
  pure (p, ch)

/-- the commitment to the values `s` -/
def value {n : Nat} (B : Fin n → G) (s : Fin n → F) : G := ∑ i, s i • B i

/-- what is hashed -/
def hashed (enc : G → Bytes) {n : Nat} (B : Fin n → G) (extra : Bytes) (t : G) : Bytes := ((List.ofFn B).map enc).flatten ++ enc t ++ extra

/-- A proof without the values: the challenge and the responses are drawn, the first message is computed from them and from the commitment `C`. -/
def simulated {n : Nat} (B : Fin n → G) (C : G) (c : F) (z : Fin n → F) : Proof F G × F := (⟨value B z + c • C, List.ofFn z⟩, c)

/-! ## Proof -/

theorem msm_value : ∀ {n : Nat} (B : Fin n → G) (s : Fin n → F), msm (List.ofFn B) (List.ofFn s) = value B s
  | 0, B, s => by simp [msm, value]
  | n + 1, B, s => by
    have := msm_value (fun i : Fin n => B i.succ) fun i => s i.succ
    rw [List.ofFn_succ, List.ofFn_succ]
    unfold msm value at *
    rw [List.zipWith_cons_cons, List.sum_cons, this, Fin.sum_univ_succ]

theorem prove_eq (enc : G → Bytes) (hash : Bytes → F) {n : Nat} (B : Fin n → G) (extra : Bytes) (s r : Fin n → F) :
    prove enc hash B extra s r = .ok (⟨value B r, List.ofFn fun i => r i - hash (hashed enc B extra (value B r)) * s i⟩, hash (hashed enc B extra (value B r))) := by
  unfold prove
  rw [commitAll_eq]
  have e1 : (List.ofFn fun i => (B i, r i)).map (·.1) = List.ofFn B := by rw [List.map_ofFn]; rfl
  have e2 : (List.ofFn fun i => (B i, r i)).map (·.2) = List.ofFn r := by rw [List.map_ofFn]; rfl
  rw [e1, e2]
  unfold Committing.finish Committed.genProof Committed.genChallenge Committed.toBytes
  dsimp only
  rw [msm_value, if_neg (by simp)]
  show Res.ok _ = _
  have : ∀ c : F, List.zipWith (fun b s => b - c * s) (List.ofFn r) (List.ofFn s) = List.ofFn fun i => r i - c * s i := by
    intro c
    refine List.ext_getElem (by simp) fun j h1 h2 => ?_
    simp
  rw [this]
  rfl

theorem value_add {n : Nat} (B : Fin n → G) (s t : Fin n → F) : value B (s + t) = value B s + value B t := by
  simp [value, add_smul, Finset.sum_add_distrib]

theorem value_smul {n : Nat} (B : Fin n → G) (a : F) (s : Fin n → F) : value B (a • s) = a • value B s := by
  simp [value, mul_smul, Finset.smul_sum]

theorem value_sub {n : Nat} (B : Fin n → G) (s t : Fin n → F) : value B (s - t) = value B s - value B t := by
  simp [value, sub_smul, Finset.sum_sub_distrib]

variable [Fintype F]

/-- **C229** Two lists of values with the same commitment: every test on the proof says yes with the same probability, whatever the hash function is. -/
theorem pok_indistinguishable (enc : G → Bytes) (hash : Bytes → F) {n : Nat} (B : Fin n → G) (extra : Bytes) (s s' : Fin n → F) (h : value B s = value B s')
    (test : Proof F G × F → Prop) :
    pr (fun r : Fin n → F => ∃ p, prove enc hash B extra s r = .ok p ∧ test p) = pr (fun r : Fin n → F => ∃ p, prove enc hash B extra s' r = .ok p ∧ test p) := by
  let c (r : Fin n → F) : F := hash (hashed enc B extra (value B r))
  let mv (δ : Fin n → F) (r : Fin n → F) : Fin n → F := r + c r • δ
  have hv : ∀ δ, value B δ = 0 → ∀ r, value B (mv δ r) = value B r := by
    intro δ hδ r
    show value B (r + c r • δ) = _
    rw [value_add, value_smul, hδ, smul_zero, add_zero]
  have hback : ∀ δ, value B δ = 0 → ∀ r, mv (-δ) (mv δ r) = r := by
    intro δ hδ r
    have : c (mv δ r) = c r := by
      show hash (hashed enc B extra (value B (mv δ r))) = _
      rw [hv δ hδ]
    show mv δ r + c (mv δ r) • -δ = r
    rw [this]
    show r + c r • δ + c r • -δ = r
    rw [smul_neg, add_neg_cancel_right]
  have hδ : value B (s' - s) = 0 := by rw [value_sub, h, sub_self]
  have hδ' : value B (-(s' - s)) = 0 := by rw [neg_sub, value_sub, h, sub_self]
  have hbij : Function.Bijective (mv (s' - s)) := Function.bijective_iff_has_inverse.2 ⟨mv (-(s' - s)), hback _ hδ, fun r => by
    have := hback _ hδ' r
    rwa [neg_neg] at this⟩
  rw [← pr_bijective _ hbij fun r : Fin n → F => ∃ p, prove enc hash B extra s' r = .ok p ∧ test p]
  congr 1
  funext r
  have : prove enc hash B extra s' (mv (s' - s) r) = prove enc hash B extra s r := by
    rw [prove_eq, prove_eq, hv _ hδ]
    congr 4
    funext i
    show r i + c r * (s' i - s i) - c r * s' i = r i - c r * s i
    ring
  rw [this]

/-- **C229** With a random function for the hash: everything that can be concluded from the proof and the whole hash function can be concluded, with the same probability, from a
proof made without the values, if the hash function is given the drawn challenge at the string that is hashed. -/
theorem pok_simulated (cG : Codec G) {n L : Nat} (B : Fin n → G) (extra : Bytes) (s : Fin n → F) (hL : ∀ t : G, (hashed cG.enc B extra t).length ≤ L)
    (test : (Query L → F) → Proof F G × F → Prop) :
    pr (fun ω : (Query L → F) × (Fin n → F) => ∃ p, prove cG.enc (hashOf ω.1) B extra s ω.2 = .ok p ∧ test ω.1 p) =
      pr (fun ω : (Query L → F) × F × (Fin n → F) => test (Function.update ω.1 ⟨hashed cG.enc B extra (simulated B (value B s) ω.2.1 ω.2.2).1.commitment, hL _⟩ ω.2.1)
        (simulated B (value B s) ω.2.1 ω.2.2)) := by
  let x (t : G) : Query L := ⟨hashed cG.enc B extra t, hL t⟩
  let fwd (ω : (Query L → F) × F × (Fin n → F)) : (Query L → F) × F × (Fin n → F) :=
    (Function.update ω.1 (x (value B ω.2.2 + ω.2.1 • value B s)) ω.2.1, ω.1 (x (value B ω.2.2 + ω.2.1 • value B s)), ω.2.2 + ω.2.1 • s)
  let bwd (ω : (Query L → F) × F × (Fin n → F)) : (Query L → F) × F × (Fin n → F) :=
    (Function.update ω.1 (x (value B ω.2.2)) ω.2.1, ω.1 (x (value B ω.2.2)), ω.2.2 - ω.1 (x (value B ω.2.2)) • s)
  have hv : ∀ (c : F) (z : Fin n → F), value B (z + c • s) = value B z + c • value B s := by
    intro c z
    rw [value_add, value_smul]
  have h1 : ∀ ω, bwd (fwd ω) = ω := by
    rintro ⟨f, c, z⟩
    show (Function.update (Function.update f (x (value B z + c • value B s)) c) (x (value B (z + c • s))) (f (x (value B z + c • value B s))),
      Function.update f (x (value B z + c • value B s)) c (x (value B (z + c • s))),
      z + c • s - Function.update f (x (value B z + c • value B s)) c (x (value B (z + c • s))) • s) = (f, c, z)
    rw [hv, Function.update_self, Function.update_idem, Function.update_eq_self, add_sub_cancel_right]
  have h2 : ∀ ω, fwd (bwd ω) = ω := by
    rintro ⟨g, v, r⟩
    have e : value B (r - g (x (value B r)) • s) + g (x (value B r)) • value B s = value B r := by rw [← hv, sub_add_cancel]
    show (Function.update (Function.update g (x (value B r)) v) (x (value B (r - g (x (value B r)) • s) + g (x (value B r)) • value B s)) (g (x (value B r))),
      Function.update g (x (value B r)) v (x (value B (r - g (x (value B r)) • s) + g (x (value B r)) • value B s)),
      r - g (x (value B r)) • s + g (x (value B r)) • s) = (g, v, r)
    rw [e, Function.update_self, Function.update_idem, Function.update_eq_self, sub_add_cancel]
  have hbij : Function.Bijective fwd := Function.bijective_iff_has_inverse.2 ⟨bwd, h1, h2⟩
  have h3 : pr (fun ω : (Query L → F) × (Fin n → F) => ∃ p, prove cG.enc (hashOf ω.1) B extra s ω.2 = .ok p ∧ test ω.1 p) =
      pr (fun ω : (Query L → F) × F × (Fin n → F) => ∃ p, prove cG.enc (hashOf ω.1) B extra s ω.2.2 = .ok p ∧ test ω.1 p) := by
    let g (ω : ((Query L → F) × (Fin n → F)) × F) : (Query L → F) × F × (Fin n → F) := (ω.1.1, ω.2, ω.1.2)
    have hg : Function.Bijective g := Function.bijective_iff_has_inverse.2 ⟨fun ω => ((ω.1, ω.2.2), ω.2.1), fun _ => rfl, fun _ => rfl⟩
    rw [← pr_bijective g hg]
    exact (pr_fst (B := F) fun ω : (Query L → F) × (Fin n → F) => ∃ p, prove cG.enc (hashOf ω.1) B extra s ω.2 = .ok p ∧ test ω.1 p).symm
  rw [h3, ← pr_bijective _ hbij]
  congr 1
  funext ω
  obtain ⟨f, c, z⟩ := ω
  show (∃ p, prove cG.enc (hashOf (Function.update f (x (value B z + c • value B s)) c)) B extra s (z + c • s) = .ok p ∧
    test (Function.update f (x (value B z + c • value B s)) c) p) = test (Function.update f (x (value B z + c • value B s)) c) (simulated B (value B s) c z)
  have : prove cG.enc (hashOf (Function.update f (x (value B z + c • value B s)) c)) B extra s (z + c • s) = .ok (simulated B (value B s) c z) := by
    rw [prove_eq, hv, hashOf_eq _ _ (hL _)]
    have : Function.update f (x (value B z + c • value B s)) c ⟨hashed cG.enc B extra (value B z + c • value B s), hL _⟩ = c := Function.update_self _ _ _
    rw [this]
    unfold simulated
    congr 3
    refine congrArg List.ofFn ?_
    funext i
    show z i + c * s i - c * s i = z i
    ring
  rw [this]
  simp

/-! ## Requests with a blinding -/

/-- `test` says yes on the commitment to the values `s`, with the value number `j` replaced by the blinding `b`, and the proof that one knows them -/
def Seen (enc : G → Bytes) (hash : Bytes → F) {n : Nat} (B : Fin n → G) (extra : G → Bytes) (j : Fin n) (test : G → Proof F G × F → Prop) (s : Fin n → F)
    (ω : F × (Fin n → F)) : Prop :=
  ∃ p, prove enc hash B (extra (msm (List.ofFn B) (List.ofFn (Function.update s j ω.1)))) (Function.update s j ω.1) ω.2 = .ok p ∧
    test (msm (List.ofFn B) (List.ofFn (Function.update s j ω.1))) p

theorem value_update {n : Nat} (B : Fin n → G) (s : Fin n → F) (j : Fin n) (b : F) :
    value B (Function.update s j b) = b • B j + ∑ i ∈ Finset.univ.erase j, s i • B i := by
  unfold value
  rw [← Finset.add_sum_erase _ _ (Finset.mem_univ j), Function.update_self]
  congr 1
  refine Finset.sum_congr rfl fun i hi => ?_
  rw [Function.update_of_ne (Finset.ne_of_mem_erase hi)]

/-- **C229** Requests for blind signatures (the blinding's base generates the group, and what is hashed in addition may contain the commitment): for any two lists of values every
test says yes with the same probability. -/
theorem pok_request_hides (enc : G → Bytes) (hash : Bytes → F) {n : Nat} (B : Fin n → G) (extra : G → Bytes) (j : Fin n) (hspan : ∀ p : G, ∃ κ : F, p = κ • B j)
    (test : G → Proof F G × F → Prop) (s s' : Fin n → F) :
    pr (fun ω : F × (Fin n → F) => Seen enc hash B extra j test s ω) = pr (fun ω : F × (Fin n → F) => Seen enc hash B extra j test s' ω) := by
  obtain ⟨β, hβ⟩ := hspan (∑ i ∈ Finset.univ.erase j, s i • B i - ∑ i ∈ Finset.univ.erase j, s' i • B i)
  have hval : ∀ b, value B (Function.update s' j (b + β)) = value B (Function.update s j b) := by
    intro b
    rw [value_update, value_update, add_smul, ← hβ]
    abel
  have hbij : Function.Bijective fun ω : F × (Fin n → F) => ((ω.1 + β, ω.2) : F × (Fin n → F)) :=
    Function.bijective_iff_has_inverse.2 ⟨fun ω => (ω.1 - β, ω.2), fun ω => by simp, fun ω => by simp⟩
  rw [← pr_bijective _ hbij fun ω => Seen enc hash B extra j test s' ω, pr_prod, pr_prod]
  congr 1
  refine Finset.sum_congr rfl fun b _ => ?_
  have := pok_indistinguishable enc hash B (extra (value B (Function.update s j b))) _ _ (hval b).symm (test (value B (Function.update s j b)))
  unfold Seen
  dsimp only
  simp only [msm_value, hval]
  exact this

/-! ## The hypotheses are met -/

namespace Met
open Verif.Toy
local instance : Fact (Nat.Prime 101) := fact101

abbrev b35 : Fin 2 → ZMod 101 := ![3, 5]
abbrev v50 : Fin 2 → ZMod 101 := ![5, 0]
abbrev v03 : Fin 2 → ZMod 101 := ![0, 3]
abbrev v11 : Fin 2 → ZMod 101 := ![1, 1]

/-- two openings of the commitment 15 to the bases 3, 5 -/
example (hash : Bytes → ZMod 101) (test : Proof (ZMod 101) (ZMod 101) × ZMod 101 → Prop) :
    pr (fun r : Fin 2 → ZMod 101 => ∃ p, prove codec101.enc hash b35 [7] v50 r = .ok p ∧ test p) =
      pr (fun r : Fin 2 → ZMod 101 => ∃ p, prove codec101.enc hash b35 [7] v03 r = .ok p ∧ test p) :=
  pok_indistinguishable codec101.enc hash _ _ _ _ (by decide +kernel) test

/-- a proof is made, and depends on the values when the blindings are given -/
example : ∃ p p', prove codec101.enc (fun _ => 2) b35 [7] v50 v11 = .ok p ∧ prove codec101.enc (fun _ => 2) b35 [7] v03 v11 = .ok p' ∧ p.1.responses ≠ p'.1.responses :=
  ⟨_, _, prove_eq _ _ _ _ _ _, prove_eq _ _ _ _ _ _, by decide +kernel⟩

/-- two messages to the bases 3 and 5 and a blinding to the base 2: are they 4, 8 or 6, 6? -/
example (hash : Bytes → ZMod 101) (test : ZMod 101 → Proof (ZMod 101) (ZMod 101) × ZMod 101 → Prop) :
    pr (fun ω : ZMod 101 × (Fin 3 → ZMod 101) => Seen codec101.enc hash ![3, 5, 2] codec101.enc 2 test ![4, 8, 0] ω) =
      pr (fun ω : ZMod 101 × (Fin 3 → ZMod 101) => Seen codec101.enc hash ![3, 5, 2] codec101.enc 2 test ![6, 6, 0] ω) :=
  pok_request_hides codec101.enc hash _ _ 2 (fun p => ⟨p / 2, (div_mul_cancel₀ p (by decide : (2 : ZMod 101) ≠ 0)).symm⟩) test _ _

example (test : (Query 4 → ZMod 101) → Proof (ZMod 101) (ZMod 101) × ZMod 101 → Prop) :
    pr (fun ω : (Query 4 → ZMod 101) × (Fin 2 → ZMod 101) => ∃ p, prove codec101.enc (hashOf ω.1) b35 [7] v50 ω.2 = .ok p ∧ test ω.1 p) =
      pr (fun ω : (Query 4 → ZMod 101) × ZMod 101 × (Fin 2 → ZMod 101) =>
        test (Function.update ω.1 ⟨hashed codec101.enc b35 [7] (simulated b35 (value b35 v50) ω.2.1 ω.2.2).1.commitment, le_refl 4⟩ ω.2.1)
          (simulated b35 (value b35 v50) ω.2.1 ω.2.2)) :=
  pok_simulated codec101 (L := 4) b35 [7] v50 (fun _ => le_refl 4) test
end Met
end Verif.PoK.Hiding
