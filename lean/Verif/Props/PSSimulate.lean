import Verif.Props.Anonymity
import Verif.Props.ForkedPoK
/-!
# C233: PS presentations are zero-knowledge
-/
set_option linter.unusedSectionVars false
set_option linter.unusedVariables false

namespace Verif.Unlinkable
open Verif.Forking

/-- A prover with a random function for the hash, and a prover who draws the challenge first and gives it to the function afterwards. -/
theorem fs_simulated {X C Ω Ω' : Type} [Fintype X] [DecidableEq X] [Fintype C] [Nonempty C] [Fintype Ω] [Fintype Ω'] (T : Ω → X) (β : C → Ω' → Ω)
    (hβ : ∀ c, Function.Bijective (β c)) (A : (X → C) → Ω → Prop) :
    pr (fun w : (X → C) × Ω => A w.1 w.2) = pr (fun w : (X → C) × C × Ω' => A (Function.update w.1 (T (β w.2.1 w.2.2)) w.2.1) (β w.2.1 w.2.2)) := by
  classical
  choose γ hγ1 hγ2 using fun c => Function.bijective_iff_has_inverse.1 (hβ c)
  let fwd (w : (X → C) × C × Ω') : (X → C) × C × Ω := (Function.update w.1 (T (β w.2.1 w.2.2)) w.2.1, w.1 (T (β w.2.1 w.2.2)), β w.2.1 w.2.2)
  let bwd (w : (X → C) × C × Ω) : (X → C) × C × Ω' := (Function.update w.1 (T w.2.2) w.2.1, w.1 (T w.2.2), γ (w.1 (T w.2.2)) w.2.2)
  have h1 : ∀ w, bwd (fwd w) = w := by
    rintro ⟨f, c, ω⟩
    simp only [fwd, bwd, Function.update_self, Function.update_idem, Function.update_eq_self]
    rw [hγ1]
  have h2 : ∀ w, fwd (bwd w) = w := by
    rintro ⟨f, c, ω⟩
    have e : β (f (T ω)) (γ (f (T ω)) ω) = ω := hγ2 _ _
    simp only [fwd, bwd, e, Function.update_self, Function.update_idem, Function.update_eq_self]
  have hb : Function.Bijective fwd := Function.bijective_iff_has_inverse.2 ⟨bwd, h1, h2⟩
  let g (w : ((X → C) × Ω) × C) : (X → C) × C × Ω := (w.1.1, w.2, w.1.2)
  have hg : Function.Bijective g := Function.bijective_iff_has_inverse.2 ⟨fun w => ((w.1, w.2.2), w.2.1), fun _ => rfl, fun _ => rfl⟩
  have h3 : pr (fun w : (X → C) × Ω => A w.1 w.2) = pr (fun w : (X → C) × C × Ω => A w.1 w.2.2) := by
    rw [← pr_bijective g hg]
    exact (pr_fst (B := C) fun w : (X → C) × Ω => A w.1 w.2).symm
  rw [h3, ← pr_bijective _ hb]
end Verif.Unlinkable

namespace Verif.PS
open Verif.PoK Verif.Forking Verif.Unlinkable
open Verif.BBS (hiddenBases revealedTerms msm_split hiddenBases_length)

variable {F S O GT : Type} [Field F] [DecidableEq F] [AddCommGroup S] [Module F S] [DecidableEq S] [AddCommGroup O] [Module F O] [DecidableEq O]
  [AddCommGroup GT] [Module F GT] [DecidableEq GT]

/-! ## Specification -/

/-- A presentation made from the public key and the revealed messages alone: `known i` is message number `i`, if it is revealed.  The challenge is drawn first, the two elements of the
signature are multiples of the generator with known factors, and the commitment is chosen to fit the responses. -/
def simulated (P : Params F S O GT) (vk : Verkey O) (revealed : List Nat) (known : Nat → Option F) {k : Nat} (c : F) (ω : PresCoins F k) : SigProof F S O :=
  let u := ω.1.1
  let w := ω.2.1
  let z := ω.2.2.1 :: List.ofFn ω.2.2.2
  let s1 := u • P.g
  let terms := revealedTerms known 0 vk.Y
  let j := w • P.gt - vk.X - msm (terms.map (·.1)) (terms.map (·.2))
  ⟨⟨s1, w • s1⟩, j, ⟨msm (P.gt :: hiddenBases (fun i => revealed.contains i) 0 vk.Y) z + c • j, z⟩⟩

/-! ## Proof -/

theorem zip_add_sub (c : F) : ∀ (zs M : List F), zs.length = M.length →
    List.zipWith (fun b s => b - c * s) (List.zipWith (fun z s => z + c * s) zs M) M = zs
  | [], [], _ => rfl
  | z :: zs, m :: M, h => by
    simp only [List.zipWith_cons_cons, List.cons.injEq]
    exact ⟨by ring, zip_add_sub c zs M (by simpa using h)⟩

/-- the honest random values that give the simulated presentation -/
def back (a x d c : F) (M : List F) {k : Nat} (ha : a ≠ 0) (ω : PresCoins F k) : PresCoins F k :=
  (⟨ω.1.1 * a, mul_ne_zero ω.1.2 ha⟩, ω.2.1 - x - d, ω.2.2.1 + c * (ω.2.1 - x - d), fun j => ω.2.2.2 j + c * M.getD j 0)

theorem back_bijective [Finite F] (a x d c : F) (M : List F) {k : Nat} (ha : a ≠ 0) : Function.Bijective (back a x d c M (k := k) ha) := by
  apply Finite.injective_iff_bijective.1
  rintro ⟨⟨u, hu⟩, w, z, zs⟩ ⟨⟨u', hu'⟩, w', z', zs'⟩ h
  unfold back at h
  simp only [Prod.mk.injEq, Subtype.mk.injEq] at h
  obtain ⟨h1, h2, h3, h4⟩ := h
  have e1 := mul_right_cancel₀ ha h1
  have e2 : w = w' := sub_left_injective (sub_left_injective h2)
  subst e1 e2
  have e3 := add_right_cancel h3
  have e4 : zs = zs' := by
    funext j
    exact add_right_cancel (congrFun h4 j)
  rw [e3, e4]

theorem back_hon (P : Params F S O GT) (x : F) (ys : List F) (sig : Signature S) (ms : List F) (revealed : List Nat) (known : Nat → Option F) (hv : Valid x ys sig ms)
    (hnd : revealed.Nodup) (hr : ∀ i ∈ revealed, i < ys.length) (hkn : ∀ i, known i = if i ∈ revealed then ms[i]? else none) (a : F) (ha : a ≠ 0) (hg : P.g = a • sig.s1) (c : F)
    (ω : PresCoins F (ys.length - revealed.length)) :
    hon P sig (keygen P x ys).1 ms revealed c (back a x (dot ys ms) c (hiddenBases (fun i => revealed.contains i) 0 ms) ha ω) =
      simulated P (keygen P x ys).1 revealed known c ω := by
  obtain ⟨hl, h1, h2⟩ := hv
  have hYl : (keygen P x ys).1.Y.length = ys.length := by simp [keygen]
  have hget : (fun i => (known i).isSome) = fun i => revealed.contains i := by
    funext i
    rw [hkn]
    by_cases h : i ∈ revealed
    · have := hr i h
      simp [h, hl, this]
    · simp [h]
  have hs := msm_split (get := known) 0 (keygen P x ys).1.Y ms (by rw [hYl, hl]) (by
    intro j m hj _
    rw [Nat.zero_add, hkn] at hj
    split at hj
    · exact hj
    · cases hj)
  rw [hget] at hs
  have e3 : ∀ l : List F, msm (keygen P x ys).1.Y l = dot ys l • P.gt := fun l => by simp only [keygen]; exact msm_smul _ _ _
  rw [e3] at hs
  have hM : (hiddenBases (fun i => revealed.contains i) 0 ms).length = ys.length - revealed.length := by
    rw [hidden_length ms hnd fun i hi => hl ▸ hr i hi, hl]
  obtain ⟨⟨u, hu⟩, w, z, zs⟩ := ω
  unfold hon honest back simulated
  dsimp only
  have hX : (keygen P x ys).1.X = x • P.gt := rfl
  rw [hX]
  generalize hiddenBases (fun i => revealed.contains i) 0 ms = M at *
  generalize hiddenBases (fun i => revealed.contains i) 0 (keygen P x ys).1.Y = B at *
  generalize msm ((revealedTerms known 0 (keygen P x ys).1.Y).map (·.1)) ((revealedTerms known 0 (keygen P x ys).1.Y).map (·.2)) = R at *
  have hbs : List.ofFn (fun j : Fin (ys.length - revealed.length) => zs j + c * M.getD j 0) = List.zipWith (fun z s => z + c * s) (List.ofFn zs) M := by
    apply List.ext_getElem
    · simp [hM]
    · intro j hj hj'
      have hjM : j < M.length := by rw [List.length_zipWith, List.length_ofFn] at hj'; omega
      simp [List.getD, hjM]
  have hcons : (z + c * (w - x - dot ys ms)) :: List.zipWith (fun z s => z + c * s) (List.ofFn zs) M =
      List.zipWith (fun z s => z + c * s) (z :: List.ofFn zs) ((w - x - dot ys ms) :: M) := rfl
  have hlen : (z :: List.ofFn zs).length = ((w - x - dot ys ms) :: M).length := by simp [hM]
  have hJ : msm (P.gt :: B) ((w - x - dot ys ms) :: M) = w • P.gt - x • P.gt - R := by
    rw [msm_cons]
    have e : msm B M = dot ys ms • P.gt - R := by rw [hs]; abel
    rw [e]
    module
  rw [hbs, hcons, zip_add_sub c _ _ hlen, hJ]
  have hC : msm (P.gt :: B) (List.zipWith (fun z s => z + c * s) (z :: List.ofFn zs) ((w - x - dot ys ms) :: M)) =
      msm (P.gt :: B) (z :: List.ofFn zs) + c • (w • P.gt - x • P.gt - R) := by
    have e := msm_sub_mul (P.gt :: B) (List.zipWith (fun z s => z + c * s) (z :: List.ofFn zs) ((w - x - dot ys ms) :: M)) ((w - x - dot ys ms) :: M) c (by
      rw [List.length_zipWith, hlen, Nat.min_self])
    rw [zip_add_sub c _ _ hlen, hJ] at e
    rw [e, sub_add_cancel]
  rw [hC, hg, h2]
  congr 2
  · rw [mul_smul]
  · module

variable [Fintype F]

/-- **C233** With a random function for the hash: everything that can be concluded from a presentation and the whole hash function can be concluded, with the same probability, from a
presentation made from the public key and the revealed messages, if the hash function is given the drawn challenge at the string that is hashed. -/
theorem ps_presentation_simulated (P : Params F S O GT) (hcyc : ∀ a b : S, a ≠ 0 → ∃ k : F, b = k • a) (hg0 : P.g ≠ 0) (hgood : Nondeg P) (x : F) (ys : List F)
    (encS : S → Bytes) (encO : O → Bytes) (nonce : Bytes) (revealed : List Nat) (known : Nat → Option F) (sig : Signature S) (ms : List F)
    (hv : sig.verify P ms (keygen P x ys).1 = .ok true) (hnd : revealed.Nodup) (hr : ∀ i ∈ revealed, i < ys.length)
    (hkn : ∀ i, known i = if i ∈ revealed then ms[i]? else none) {L : Nat}
    (hL : ∀ pf : SigProof F S O, (pf.bytesForChallenge P encS encO revealed (keygen P x ys).1 ++ nonce).length ≤ L) (test : (Query L → F) → Res Error (SigProof F S O × F) → Prop) :
    pr (fun ω : (Query L → F) × PresCoins F (ys.length - revealed.length) =>
        test ω.1 (present P encS encO (hashOf ω.1) (keygen P x ys).1 nonce revealed sig ms ω.2)) =
      pr (fun ω : (Query L → F) × F × PresCoins F (ys.length - revealed.length) =>
        test (Function.update ω.1 ⟨(simulated P (keygen P x ys).1 revealed known ω.2.1 ω.2.2).bytesForChallenge P encS encO revealed (keygen P x ys).1 ++ nonce, hL _⟩ ω.2.1)
          (.ok (simulated P (keygen P x ys).1 revealed known ω.2.1 ω.2.2, ω.2.1))) := by
  have hval := ((ps_verify_iff P hgood x ys sig ms).1 hv).1
  have hYl : (keygen P x ys).1.Y.length = ys.length := by simp [keygen]
  have hl := hval.1
  have hri : ∀ j ∈ revealed, j < ms.length := fun j hj => hl ▸ hr j hj
  obtain ⟨a, ha⟩ := hcyc sig.s1 P.g hval.2.1
  have ha0 : a ≠ 0 := by
    rintro rfl
    rw [zero_smul] at ha
    exact hg0 ha
  have hsim := back_hon P x ys sig ms revealed known hval hnd hr hkn a ha0 ha
  rw [fs_simulated (fun ω : PresCoins F (ys.length - revealed.length) =>
      (⟨(hon P sig (keygen P x ys).1 ms revealed 0 ω).bytesForChallenge P encS encO revealed (keygen P x ys).1 ++ nonce, hL _⟩ : Query L))
    (fun c => back a x (dot ys ms) c (hiddenBases (fun i => revealed.contains i) 0 ms) ha0) (fun c => back_bijective _ _ _ _ _ _)
    (fun f ω => test f (present P encS encO (hashOf f) (keygen P x ys).1 nonce revealed sig ms ω))]
  congr 1
  funext ⟨f, c, ω⟩
  dsimp only
  rw [present_eq P encS encO _ _ _ _ _ _ hri (by rw [hl, hYl]) (by rw [hl]), hashOf_eq _ _ (hL _), Function.update_self, hsim]
  have e : (hon P sig (keygen P x ys).1 ms revealed 0 (back a x (dot ys ms) c (hiddenBases (fun i => revealed.contains i) 0 ms) ha0 ω)).bytesForChallenge P encS encO revealed
      (keygen P x ys).1 = (simulated P (keygen P x ys).1 revealed known c ω).bytesForChallenge P encS encO revealed (keygen P x ys).1 := by
    rw [← hsim c ω]
    rfl
  simp only [e]
end Verif.PS

/-! ## The hypotheses are met: the first of three messages is shown -/

namespace Verif.PS.Toy
open Verif.Toy Verif.Forking Verif.PoK

theorem hashed_length (pf : SigProof K K K) : (pf.bytesForChallenge par codec101.enc codec101.enc [0] vk ++ [9]).length ≤ 100 := by
  have hb : (Verif.BBS.hiddenBases (fun i => List.contains [0] i) 0 vk.Y).length ≤ 3 :=
    (by decide +kernel : (Verif.BBS.hiddenBases (fun i => List.contains [0] i) 0 vk.Y).length ≤ 3)
  generalize hB : Verif.BBS.hiddenBases (fun i => List.contains [0] i) 0 vk.Y = B at hb
  have he : ∀ x : K, (codec101.enc x).length = 1 := fun x => rfl
  have hf : ((B.map codec101.enc).flatten).length = B.length := by
    clear hb hB
    induction B with
    | nil => rfl
    | cons b B ih => rw [List.map_cons, List.flatten_cons, List.length_append, ih, he, List.length_cons]; omega
  unfold SigProof.bytesForChallenge Signature.toBytes
  rw [hB]
  simp only [List.length_append, he, hf, List.length_cons, List.length_nil]
  omega

example (test : (Query 100 → K) → Res Error (SigProof K K K × K) → Prop) :
    pr (fun ω : (Query 100 → K) × PresCoins K 2 => test ω.1 (present par codec101.enc codec101.enc (hashOf ω.1) vk [9] [0] sig [4, 6, 8] ω.2)) =
      pr (fun ω : (Query 100 → K) × K × PresCoins K 2 =>
        test (Function.update ω.1 ⟨(simulated par vk [0] (fun i => if i = 0 then some 4 else none) ω.2.1 ω.2.2).bytesForChallenge par codec101.enc codec101.enc [0] vk ++ [9],
          hashed_length _⟩ ω.2.1) (.ok (simulated par vk [0] (fun i => if i = 0 then some 4 else none) ω.2.1 ω.2.2, ω.2.1))) :=
  ps_presentation_simulated par (fun a b ha => ⟨b * a⁻¹, by rw [smul_eq_mul, mul_assoc, inv_mul_cancel₀ ha, mul_one]⟩) (by decide +kernel) nondeg 7 ys codec101.enc codec101.enc [9] [0]
    (fun i => if i = 0 then some 4 else none) sig [4, 6, 8] sig_ok (by simp) (by simp [ys]) (fun i => by
      by_cases h : i = 0
      · subst h; simp
      · simp [h]) hashed_length test
end Verif.PS.Toy
