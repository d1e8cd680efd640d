import Verif.Props.PSMore
import Verif.Props.BBSMore
import Verif.Props.SymmCCA
import Verif.Props.SDHCount
import Verif.Props.CSSecrecy
/-!
# C230: nobody can tell which signature a presentation comes from
-/
set_option linter.unusedSectionVars false
set_option linter.unusedVariables false
namespace Verif.Unlinkable
open Verif.Forking

/-- Two provers whose views are, for each challenge, the same up to a change of the coins, and determine what is hashed, have the same views also with the hash for the challenge. -/
theorem fs_bijective {Ω V X C : Type} [Finite Ω] (T T' : Ω → X) (view view' : C → Ω → V) (hinj : ∀ c, Function.Injective (view c))
    (hex : ∀ c ω, ∃ ω', view' c ω' = view c ω) (hT : ∀ c ω ω', view' c ω' = view c ω → T' ω' = T ω) (ch : X → C) :
    ∃ φ : Ω → Ω, Function.Bijective φ ∧ ∀ ω, T' (φ ω) = T ω ∧ view' (ch (T ω)) (φ ω) = view (ch (T ω)) ω := by
  choose φ hφ using hex
  refine ⟨fun ω => φ (ch (T ω)) ω, Finite.injective_iff_bijective.1 ?_, fun ω => ⟨hT _ _ _ (hφ _ _), hφ _ _⟩⟩
  intro ω₁ ω₂ h
  dsimp only at h
  have h1 := hT _ _ _ (hφ (ch (T ω₁)) ω₁)
  have h2 := hT _ _ _ (hφ (ch (T ω₂)) ω₂)
  rw [h, h2] at h1
  have h3 := hφ (ch (T ω₁)) ω₁
  rw [h, ← h1, hφ] at h3
  exact (hinj _ h3).symm
end Verif.Unlinkable

namespace Verif.PS
open Verif.PoK Verif.Forking Verif.Unlinkable
open Verif.BBS (hiddenBases)

variable {F S O GT : Type} [Field F] [DecidableEq F] [AddCommGroup S] [Module F S] [DecidableEq S] [AddCommGroup O] [Module F O] [DecidableEq O]
  [AddCommGroup GT] [Module F GT] [DecidableEq GT]

/-! ## Specification -/

/-- The coins of a presentation of `k` hidden messages: the factor (not zero), `t` and its blinding, the blindings of the messages. -/
abbrev PresCoins (F : Type) [Zero F] (k : Nat) : Type := {r : F // r ≠ 0} × F × F × (Fin k → F)

/-- the presentation of the signature `sig` of `ms`, with the messages number `revealed` shown: commit, hash with the verifier's nonce, answer -/
def present (P : Params F S O GT) (encS : S → Bytes) (encO : O → Bytes) (hash : Bytes → F) (vk : Verkey O) (nonce : Bytes) (revealed : List Nat) {k : Nat}
    (sig : Signature S) (ms : List F) (ω : PresCoins F k) : Res Error (SigProof F S O × F) := do
  let pok ← init P sig vk ms (some (List.ofFn ω.2.2.2)) revealed ω.1.1 ω.2.1 ω.2.2.1 (fun _ => 0)
  let c := hash (pok.toBytes encS encO ++ nonce)
  let pf ← pok.genProof c
  pure (pf, c)

/-! ## Proof -/

/-- the closed form -/
def hon (P : Params F S O GT) (sig : Signature S) (vk : Verkey O) (ms : List F) (revealed : List Nat) {k : Nat} (c : F) (ω : PresCoins F k) : SigProof F S O :=
  honest P sig vk ms revealed ω.1.1 ω.2.1 ω.2.2.1 (List.ofFn ω.2.2.2) c

theorem present_eq (P : Params F S O GT) (encS : S → Bytes) (encO : O → Bytes) (hash : Bytes → F) (vk : Verkey O) (nonce : Bytes) (revealed : List Nat) {k : Nat}
    (sig : Signature S) (ms : List F) (hr : ∀ i ∈ revealed, i < ms.length) (hl : ms.length = vk.Y.length) (hk : k = ms.length - revealed.length) (ω : PresCoins F k) :
    present P encS encO hash vk nonce revealed sig ms ω =
      .ok (hon P sig vk ms revealed (hash ((hon P sig vk ms revealed 0 ω).bytesForChallenge P encS encO revealed vk ++ nonce)) ω,
        hash ((hon P sig vk ms revealed 0 ω).bytesForChallenge P encS encO revealed vk ++ nonce)) := by
  obtain ⟨pok, bs, h1, h2, h3, h4, h5⟩ := init_genProof P sig vk ms (some (List.ofFn ω.2.2.2)) revealed ω.1.1 ω.2.1 ω.2.2.1 (fun _ => 0) hr hl
    (fun b hb => by rw [← Option.some.inj hb, List.length_ofFn, hk])
  have hbs : bs = List.ofFn ω.2.2.2 := by
    unfold chooseBlindings at h2
    dsimp only at h2
    rw [if_neg (by rw [List.length_ofFn]; simp [hk])] at h2
    exact (Res.ok.inj h2).symm
  subst hbs
  unfold present
  rw [h1, Res.ok_bind]
  dsimp only
  rw [h4, Res.ok_bind]
  have := h5 encS encO 0
  rw [← this]
  rfl

theorem hon_injective (P : Params F S O GT) (sig : Signature S) (hs : sig.s1 ≠ 0) (vk : Verkey O) (ms : List F) (revealed : List Nat) {k : Nat}
    (hk : (hiddenBases (fun i => revealed.contains i) 0 ms).length = k) (c : F) : Function.Injective (hon P sig vk ms revealed (k := k) c) := by
  rintro ⟨⟨r, hr⟩, t, bt, bs⟩ ⟨⟨r', hr'⟩, t', bt', bs'⟩ h
  unfold hon honest at h
  dsimp only at h
  rw [SigProof.mk.injEq, Signature.mk.injEq, Proof.mk.injEq] at h
  obtain ⟨⟨h1, h2⟩, -, -, h4⟩ := h
  have e1 : r = r' := smul_left_injective F hs h1
  subst e1
  have e2 : t = t' := by
    have := smul_right_injective S hr h2
    exact smul_left_injective F hs (add_left_cancel this)
  subst e2
  simp only [List.zipWith_cons_cons, List.cons.injEq] at h4
  obtain ⟨h4, h5⟩ := h4
  have e3 : bt = bt' := sub_left_injective h4
  subst e3
  have e4 : bs = bs' := by
    funext j
    have hj : (j : Nat) < (hiddenBases (fun i => revealed.contains i) 0 ms).length := hk ▸ j.2
    have := congrArg (fun l : List F => l[(j : Nat)]?) h5
    rw [List.getElem?_zipWith, List.getElem?_zipWith, List.getElem?_ofFn, List.getElem?_ofFn, List.getElem?_eq_getElem hj] at this
    simp only [j.2, dif_pos, Option.some.injEq] at this
    exact sub_left_injective this
  rw [e4]

/-- the random values that make another signature look the same -/
theorem moved [Finite F] (P : Params F S O GT) (hcyc : ∀ a b : S, a ≠ 0 → ∃ k : F, b = k • a) (x : F) (ys : List F) (encS : S → Bytes) (encO : O → Bytes)
    (hash : Bytes → F) (nonce : Bytes) (revealed : List Nat) (sig sig' : Signature S) (ms ms' : List F)
    (hv : sig.verify P ms (keygen P x ys).1 = .ok true) (hv' : sig'.verify P ms' (keygen P x ys).1 = .ok true) (hgood : Nondeg P)
    (hnd : revealed.Nodup) (hr : ∀ j ∈ revealed, j < ys.length) (hagree : ∀ j ∈ revealed, ms[j]? = ms'[j]?) :
    ∃ φ : PresCoins F (ys.length - revealed.length) → PresCoins F (ys.length - revealed.length), Function.Bijective φ ∧
      ∀ ω, present P encS encO hash (keygen P x ys).1 nonce revealed sig' ms' (φ ω) =
        present P encS encO hash (keygen P x ys).1 nonce revealed sig ms ω := by
  have hval := (ps_verify_iff P hgood x ys sig ms).1 hv
  have hval' := (ps_verify_iff P hgood x ys sig' ms').1 hv'
  have hYl : (keygen P x ys).1.Y.length = ys.length := by simp [keygen]
  have hl := hval.1.1
  have hl' := hval'.1.1
  have hri : ∀ j ∈ revealed, j < ms.length := fun j hj => hl ▸ hr j hj
  have hri' : ∀ j ∈ revealed, j < ms'.length := fun j hj => hl' ▸ hr j hj
  obtain ⟨φ, hb, hφ⟩ := fs_bijective (fun ω => (hon P sig (keygen P x ys).1 ms revealed 0 ω).bytesForChallenge P encS encO revealed (keygen P x ys).1)
    (fun ω => (hon P sig' (keygen P x ys).1 ms' revealed 0 ω).bytesForChallenge P encS encO revealed (keygen P x ys).1)
    (hon P sig (keygen P x ys).1 ms revealed) (hon P sig' (keygen P x ys).1 ms' revealed (k := ys.length - revealed.length))
    (hon_injective P sig hval.1.2.1 _ ms revealed (by rw [hidden_length ms hnd hri, hl]))
    (fun c ω => by
      obtain ⟨r', t', bt', bs', hr', hbs', h⟩ := ps_unlinkable P hcyc x ys sig sig' ms ms' revealed ω.1.1 ω.2.1 ω.2.2.1 (List.ofFn ω.2.2.2) c
        hval.1 hval'.1 hnd hri hagree (by rw [List.length_ofFn, hl]) ω.1.2
      rw [hl'] at hbs'
      refine ⟨(⟨r', hr'⟩, t', bt', fun j => bs'.get (j.cast hbs'.symm)), ?_⟩
      have : List.ofFn (fun j : Fin (ys.length - revealed.length) => bs'.get (j.cast hbs'.symm)) = bs' :=
        List.ext_getElem (by simp [hbs']) fun j h1 h2 => by simp
      unfold hon
      dsimp only
      rw [this]
      exact h)
    (fun c ω ω' h => by
      have e : ∀ (sig : Signature S) (ms : List F) (ω : PresCoins F (ys.length - revealed.length)),
          (hon P sig (keygen P x ys).1 ms revealed 0 ω).bytesForChallenge P encS encO revealed (keygen P x ys).1 =
            (hon P sig (keygen P x ys).1 ms revealed c ω).bytesForChallenge P encS encO revealed (keygen P x ys).1 := fun _ _ _ => rfl
      rw [e, e, h])
    (fun b => hash (b ++ nonce))
  refine ⟨φ, hb, fun ω => ?_⟩
  rw [present_eq P encS encO hash _ _ _ _ _ hri' (by rw [hl', hYl]) (by rw [hl']), present_eq P encS encO hash _ _ _ _ _ hri (by rw [hl, hYl]) (by rw [hl]),
    (hφ ω).1, (hφ ω).2]

variable [Fintype F]

/-- **C230** Any number of presentations: the probability of each conclusion is the same whichever of two signatures each of them is made from, as long as the messages agree
where they are revealed. -/
theorem ps_presentations_unlinkable (P : Params F S O GT) (hcyc : ∀ a b : S, a ≠ 0 → ∃ k : F, b = k • a) (x : F) (ys : List F) (encS : S → Bytes) (encO : O → Bytes)
    (hash : Bytes → F) {N : Nat} (nonce : Fin N → Bytes) (revealed : Fin N → List Nat) (sig sig' : Fin N → Signature S) (ms ms' : Fin N → List F)
    (hv : ∀ i, (sig i).verify P (ms i) (keygen P x ys).1 = .ok true) (hv' : ∀ i, (sig' i).verify P (ms' i) (keygen P x ys).1 = .ok true) (hgood : Nondeg P)
    (hnd : ∀ i, (revealed i).Nodup) (hr : ∀ i, ∀ j ∈ revealed i, j < ys.length) (hagree : ∀ i, ∀ j ∈ revealed i, (ms i)[j]? = (ms' i)[j]?)
    (test : (Fin N → Res Error (SigProof F S O × F)) → Prop) :
    pr (fun ω : (i : Fin N) → PresCoins F (ys.length - (revealed i).length) => test fun i => present P encS encO hash (keygen P x ys).1 (nonce i) (revealed i) (sig i) (ms i) (ω i)) =
      pr (fun ω : (i : Fin N) → PresCoins F (ys.length - (revealed i).length) => test fun i => present P encS encO hash (keygen P x ys).1 (nonce i) (revealed i) (sig' i) (ms' i) (ω i)) := by
  choose φ hb hφ using fun i => moved P hcyc x ys encS encO hash (nonce i) (revealed i) (sig i) (sig' i) (ms i) (ms' i) (hv i) (hv' i) hgood (hnd i) (hr i) (hagree i)
  have hB : Function.Bijective fun (ω : (i : Fin N) → PresCoins F (ys.length - (revealed i).length)) i => φ i (ω i) := Function.Bijective.piMap hb
  rw [← pr_bijective _ hB fun ω => test fun i => present P encS encO hash (keygen P x ys).1 (nonce i) (revealed i) (sig' i) (ms' i) (ω i)]
  simp only [hφ]
end Verif.PS

namespace Verif.Unlinkable
open Verif.Forking
variable {Ω Ω' : Type} [Fintype Ω] [Fintype Ω']

/-- leaving out unlikely coins -/
theorem pr_restrict [Nonempty Ω'] (e : Ω' → Ω) (he : Function.Injective e) (A Bad : Ω → Prop) (hbad : ∀ ω, ¬ Bad ω → ∃ ω', e ω' = ω) :
    |pr (fun ω' => A (e ω')) - pr A| ≤ pr Bad := by
  classical
  have hcard : Fintype.card Ω' ≤ Fintype.card Ω := Fintype.card_le_of_injective e he
  have hpos' : (0 : ℚ) < Fintype.card Ω' := by exact_mod_cast Fintype.card_pos
  have hpos : (0 : ℚ) < Fintype.card Ω := lt_of_lt_of_le hpos' (by exact_mod_cast hcard)
  have h1 : ((Finset.univ.filter fun ω' => A (e ω')).card : ℚ) ≤ (Finset.univ.filter A).card := by
    exact_mod_cast Finset.card_le_card_of_injOn e (fun a ha => by
      exact Finset.mem_coe.2 (Finset.mem_filter.2 ⟨Finset.mem_univ _, (Finset.mem_filter.1 (Finset.mem_coe.1 ha)).2⟩)) he.injOn
  have h2 : ((Finset.univ.filter A).card : ℚ) ≤ (Finset.univ.filter fun ω' => A (e ω')).card + (Finset.univ.filter Bad).card := by
    have : Finset.univ.filter A ⊆ ((Finset.univ.filter fun ω' => A (e ω')).image e) ∪ Finset.univ.filter Bad := by
      intro ω hω
      rw [Finset.mem_union, Finset.mem_image]
      by_cases hb : Bad ω
      · exact Or.inr (Finset.mem_filter.2 ⟨Finset.mem_univ _, hb⟩)
      · obtain ⟨ω', rfl⟩ := hbad ω hb
        exact Or.inl ⟨ω', Finset.mem_filter.2 ⟨Finset.mem_univ _, (Finset.mem_filter.1 hω).2⟩, rfl⟩
    exact_mod_cast (Finset.card_le_card this).trans ((Finset.card_union_le _ _).trans (Nat.add_le_add_right Finset.card_image_le _))
  have h3 : (Fintype.card Ω : ℚ) ≤ Fintype.card Ω' + (Finset.univ.filter Bad).card := by
    have : (Finset.univ : Finset Ω) ⊆ (Finset.univ.image e) ∪ Finset.univ.filter Bad := by
      intro ω _
      rw [Finset.mem_union, Finset.mem_image]
      by_cases hb : Bad ω
      · exact Or.inr (Finset.mem_filter.2 ⟨Finset.mem_univ _, hb⟩)
      · obtain ⟨ω', rfl⟩ := hbad ω hb
        exact Or.inl ⟨ω', Finset.mem_univ _, rfl⟩
    have := (Finset.card_le_card this).trans ((Finset.card_union_le _ _).trans (Nat.add_le_add_right Finset.card_image_le _))
    rw [Finset.card_univ, Finset.card_univ] at this
    exact_mod_cast this
  have h4 : ((Finset.univ.filter fun ω' => A (e ω')).card : ℚ) ≤ Fintype.card Ω' := by exact_mod_cast (Finset.card_filter_le _ _).trans (le_of_eq Finset.card_univ)
  have ha0 : (0 : ℚ) ≤ ((Finset.univ.filter fun ω' => A (e ω')).card : ℚ) := Nat.cast_nonneg _
  unfold pr
  generalize ((Finset.univ.filter fun ω' => A (e ω')).card : ℚ) = a at *
  generalize ((Finset.univ.filter A).card : ℚ) = b at *
  generalize ((Finset.univ.filter Bad).card : ℚ) = z at *
  have hcq : (Fintype.card Ω' : ℚ) ≤ Fintype.card Ω := by exact_mod_cast hcard
  generalize (Fintype.card Ω' : ℚ) = m at *
  generalize (Fintype.card Ω : ℚ) = k at *
  have e1 : a / k ≤ a / m := div_le_div_of_nonneg_left ha0 hpos' hcq
  have e2 : b / k ≤ a / k + z / k := by
    rw [← add_div]
    exact div_le_div_of_nonneg_right h2 hpos.le
  have e3 : a / k ≤ b / k := div_le_div_of_nonneg_right h1 hpos.le
  have e4 : a / m ≤ a / k + z / k := by
    rw [← add_div, div_le_div_iff₀ hpos' hpos]
    have : a * (k - m) ≤ z * m := by
      calc a * (k - m) ≤ m * (k - m) := mul_le_mul_of_nonneg_right h4 (by linarith)
        _ ≤ m * z := mul_le_mul_of_nonneg_left (by linarith) hpos'.le
        _ = z * m := mul_comm _ _
    linarith
  rw [abs_le]
  constructor <;> linarith
end Verif.Unlinkable

namespace Verif.BBS
open Verif.PoK Verif.Forking Verif.Unlinkable

variable {F G1 G2 GT : Type} [Field F] [DecidableEq F] [AddCommGroup G1] [Module F G1] [DecidableEq G1] [AddCommGroup G2] [Module F G2] [DecidableEq G2]
  [AddCommGroup GT] [Module F GT] [DecidableEq GT]

/-! ## Specification -/

/-- The coins of a presentation: `r1` and `r2` (not zero), four blindings, and a blinding for each message (those of shown messages are not used). -/
abbrev PresCoins (F : Type) [Zero F] (n : Nat) : Type := {r : F // r ≠ 0} × {r : F // r ≠ 0} × (F × F × F × F) × (Fin n → F)

/-- the messages, marked as shown or hidden -/
def marked {n : Nat} (shown : Fin n → Bool) (m : Fin n → F) : List (ProofMessage F) := List.ofFn fun i => if shown i then .revealed (m i) else .hidden (m i)

/-- the random values as `init` takes them -/
def PresCoins.rand {n : Nat} (ω : PresCoins F n) : Rand F :=
  ⟨ω.1.1, ω.2.1.1, ω.2.2.1.1, ω.2.2.1.2.1, ω.2.2.1.2.2.1, ω.2.2.1.2.2.2, fun i => if h : i < n then ω.2.2.2 ⟨i, h⟩ else 0⟩

/-- the presentation of the signature `sig` of `m`: commit, make the challenge, answer -/
def present (P : Params F G1 G2 GT) (pk : PublicKey G1 G2) (claims : List Bytes) (nonce : F) {n : Nat} (shown : Fin n → Bool) (sig : Signature F G1) (m : Fin n → F)
    (ω : PresCoins F n) : Res Error (SignatureProof F G1 × F) := do
  let pok ← init P sig pk (marked shown m) ω.rand
  let c := proverChallenge P [pok] claims nonce
  let sp ← generateSignaturePok pok c
  pure (sp, c)

namespace Unlink

/-! ## Proof -/

/-- coins whose `r2` may be zero -/
abbrev Ideal (F : Type) [Zero F] (n : Nat) : Type := {r : F // r ≠ 0} × F × (F × F × F × F) × (Fin n → F)

def Ideal.rand {n : Nat} (ω : Ideal F n) : Rand F :=
  ⟨ω.1.1, ω.2.1, ω.2.2.1.1, ω.2.2.1.2.1, ω.2.2.1.2.2.1, ω.2.2.1.2.2.2, fun i => if h : i < n then ω.2.2.2 ⟨i, h⟩ else 0⟩

theorem hiddenOf_congr (bl bl' : Nat → F) : ∀ (i : Nat) (hs : List G1) (pms : List (ProofMessage F)),
    (∀ j m, pms[j]? = some (.hidden m) → bl (i + j) = bl' (i + j)) → hiddenOf bl i hs pms = hiddenOf bl' i hs pms
  | i, [], pms, _ => by cases pms <;> simp [hiddenOf]
  | i, h :: hs, [], _ => by simp [hiddenOf]
  | i, h :: hs, pm :: pms, hb => by
    have ih := hiddenOf_congr bl bl' (i + 1) hs pms fun j m hj => by
      have := hb (j + 1) m (by simpa using hj)
      rwa [show i + 1 + j = i + (j + 1) by omega]
    cases pm with
    | revealed m => simpa [hiddenOf] using ih
    | hidden m =>
      have := hb 0 m rfl
      rw [Nat.add_zero] at this
      simp [hiddenOf, ih, this]
    | hiddenExt m b => simp [hiddenOf, ih]

theorem hiddenOf_injective (c : F) (bl bl' : Nat → F) : ∀ (i : Nat) (hs : List G1) (pms : List (ProofMessage F)), hs.length = pms.length →
    (hiddenOf bl i hs pms).map (fun t => t.2.1 - c * t.2.2) = (hiddenOf bl' i hs pms).map (fun t => t.2.1 - c * t.2.2) →
    ∀ j m, pms[j]? = some (.hidden m) → bl (i + j) = bl' (i + j)
  | i, [], pms, hl, _, j, m, hj => by
    cases pms with
    | nil => simp at hj
    | cons _ _ => simp at hl
  | i, h :: hs, [], hl, _, j, m, hj => by simp at hj
  | i, h :: hs, pm :: pms, hl, he, j, m, hj => by
    have key : (hiddenOf bl (i + 1) hs pms).map (fun t => t.2.1 - c * t.2.2) = (hiddenOf bl' (i + 1) hs pms).map (fun t => t.2.1 - c * t.2.2) ∧
        (j = 0 → bl (i + j) = bl' (i + j)) := by
      cases pm with
      | revealed m' =>
        refine ⟨by simpa [hiddenOf] using he, fun h0 => ?_⟩
        subst h0
        simp at hj
      | hidden m' =>
        simp only [hiddenOf, List.map_cons, List.cons.injEq] at he
        exact ⟨he.2, fun h0 => by
          rw [h0, Nat.add_zero]
          exact sub_left_injective he.1⟩
      | hiddenExt m' b =>
        simp only [hiddenOf, List.map_cons, List.cons.injEq] at he
        refine ⟨he.2, fun h0 => ?_⟩
        subst h0
        simp at hj
    cases j with
    | zero => exact key.2 rfl
    | succ j =>
      have := hiddenOf_injective c bl bl' (i + 1) hs pms (by simpa using hl) key.1 j m (by simpa using hj)
      rwa [show i + (j + 1) = i + 1 + j by omega]

variable {n : Nat}

theorem marked_get (shown : Fin n → Bool) (m : Fin n → F) (j : Nat) : (marked shown m)[j]? = if h : j < n then some (if shown ⟨j, h⟩ then .revealed (m ⟨j, h⟩) else .hidden (m ⟨j, h⟩)) else none := by
  unfold marked
  rw [List.getElem?_ofFn]

theorem marked_hidden (shown : Fin n → Bool) (m : Fin n → F) (j : Nat) (v : F) : (marked shown m)[j]? = some (.hidden v) ↔ ∃ h : j < n, shown ⟨j, h⟩ = false ∧ v = m ⟨j, h⟩ := by
  rw [marked_get]
  by_cases h : j < n
  · rw [dif_pos h]
    cases hs : shown ⟨j, h⟩
    · simp [h, hs, eq_comm]
    · simp [h, hs]
  · rw [dif_neg h]
    simp [h]

theorem marked_length (shown : Fin n → Bool) (m : Fin n → F) : (marked shown m).length = n := by simp [marked]

theorem marked_map (shown : Fin n → Bool) (m : Fin n → F) : (marked shown m).map (·.get) = List.ofFn m := by
  unfold marked
  rw [List.map_ofFn]
  congr 1
  funext i
  rw [Function.comp_apply]
  split <;> rfl

theorem honest_congr (P : Params F G1 G2 GT) (sig : Signature F G1) (pk : PublicKey G1 G2) (shown : Fin n → Bool) (m : Fin n → F) (r : Rand F) (bl : Nat → F)
    (hbl : ∀ (j : Nat) (h : j < n), shown ⟨j, h⟩ = false → r.blind j = bl j) (c : F) :
    honestProof P sig pk (marked shown m) r c = honestProof P sig pk (marked shown m) { r with blind := bl } c := by
  have := hiddenOf_congr r.blind bl 0 pk.h (marked shown m) fun j v hj => by
    obtain ⟨h, hs, -⟩ := (marked_hidden shown m j v).1 hj
    rw [Nat.zero_add]
    exact hbl j h hs
  unfold honestProof initValid
  rw [this]

/-- the proof and the blindings that are not used -/
def view (P : Params F G1 G2 GT) (pk : PublicKey G1 G2) (shown : Fin n → Bool) (sig : Signature F G1) (m : Fin n → F) (c : F) (ω : Ideal F n) : SigProof F G1 × (Fin n → F) :=
  (honestProof P sig pk (marked shown m) ω.rand c, fun j => if shown j then ω.2.2.2 j else 0)

theorem view_injective (P : Params F G1 G2 GT) (pk : PublicKey G1 G2) (hn : pk.h.length = n) (h0 : pk.h0 ≠ 0) (shown : Fin n → Bool) (sig : Signature F G1) (ha : sig.a ≠ 0) (m : Fin n → F)
    (c : F) : Function.Injective (view P pk shown sig m c) := by
  rintro ⟨⟨r1, hr1⟩, r2, ⟨ba, bh, bd, bh'⟩, bl⟩ ⟨⟨s1, hs1⟩, s2, ⟨ca, ch, cd, ch'⟩, cl⟩ h
  unfold view at h
  rw [Prod.mk.injEq] at h
  obtain ⟨h, h'⟩ := h
  unfold honestProof initValid Ideal.rand at h
  dsimp only [Committing.finish] at h
  rw [SigProof.mk.injEq, Proof.mk.injEq, Proof.mk.injEq] at h
  obtain ⟨e1, -, e2, ⟨-, e3⟩, -, e4⟩ := h
  have i1 : r1 = s1 := smul_left_injective F ha e1
  subst i1
  rw [msm_cons, msm_cons, msm_cons, msm_cons, add_right_inj] at e2
  have i2 : r2 = s2 := by
    have := add_right_cancel e2
    exact neg_injective (smul_left_injective F h0 this)
  subst i2
  simp only [List.zipWith_cons_cons, List.zipWith_nil_left, List.cons.injEq, and_true] at e3
  have i3 : ba = ca := sub_left_injective e3.1
  have i4 : bh = ch := sub_left_injective e3.2
  simp only [List.zipWith_cons_cons, List.cons.injEq] at e4
  have i5 : bd = cd := sub_left_injective e4.1
  have i6 : bh' = ch' := sub_left_injective e4.2.1
  have e5 := e4.2.2
  rw [zipWith_map_map, zipWith_map_map] at e5
  have i7 : bl = cl := by
    funext j
    cases hs : shown j
    · have := hiddenOf_injective c _ _ 0 pk.h (marked shown m) (by rw [marked_length, hn]) e5 j (m j) ((marked_hidden shown m j _).2 ⟨j.2, hs, rfl⟩)
      simpa [j.2] using this
    · have := congrFun h' j
      dsimp only at this
      rwa [if_pos hs, if_pos hs] at this
  rw [i3, i4, i5, i6, i7]
/-- the presentation with such coins -/
def ideal (P : Params F G1 G2 GT) (pk : PublicKey G1 G2) (claims : List Bytes) (nonce : F) (shown : Fin n → Bool) (sig : Signature F G1) (m : Fin n → F)
    (ω : Ideal F n) : Res Error (SignatureProof F G1 × F) := do
  let pok ← init P sig pk (marked shown m) ω.rand
  let c := proverChallenge P [pok] claims nonce
  let sp ← generateSignaturePok pok c
  pure (sp, c)

/-- what is hashed -/
def hashed (P : Params F G1 G2 GT) (pk : PublicKey G1 G2) (shown : Fin n → Bool) (sig : Signature F G1) (m : Fin n → F) (ω : Ideal F n) : Bytes :=
  (honestProof P sig pk (marked shown m) ω.rand 0).bytesForChallenge P ((revealedOf 0 (marked shown m)).map (·.1)) pk

theorem ideal_eq (P : Params F G1 G2 GT) (pk : PublicKey G1 G2) (claims : List Bytes) (nonce : F) (shown : Fin n → Bool) (sig : Signature F G1) (m : Fin n → F)
    (hv : sig.verify P (List.ofFn m) pk = .ok true) (ω : Ideal F n) :
    ideal P pk claims nonce shown sig m ω = .ok (⟨revealedOf 0 (marked shown m), (view P pk shown sig m (P.hashFr (hashed P pk shown sig m ω ++ P.encF.enc nonce ++ claims.flatten)) ω).1⟩,
      P.hashFr (hashed P pk shown sig m ω ++ P.encF.enc nonce ++ claims.flatten)) := by
  have hl : n = pk.h.length := by simpa using ((verify_true_pairing P _ _ _).1 hv).1
  have hb := honest_bytes P sig pk (marked shown m) ω.rand 0 (by rw [marked_length, hl])
  unfold ideal init
  rw [if_neg (by rw [marked_length]; exact not_not.2 hl), marked_map, hv, Res.ok_bind, if_pos rfl, Res.ok_bind]
  unfold proverChallenge generateSignaturePok hashed
  dsimp only
  rw [genProof_eq, hb]
  simp only [List.map_cons, List.map_nil, List.flatten_cons, List.flatten_nil, List.append_nil, Res.ok_bind, Res.pure_eq]
  rfl

theorem revealed_eq (shown : Fin n → Bool) (m m' : Fin n → F) (hagree : ∀ j, shown j = true → m j = m' j) : revealedOf 0 (marked shown m) = revealedOf 0 (marked shown m') := by
  have : ∀ (i : Nat) (l l' : List (ProofMessage F)), l.length = l'.length → (∀ j, revealedAt l j = revealedAt l' j) → revealedOf i l = revealedOf i l' := by
    intro i l
    induction l generalizing i with
    | nil => intro l' h _; cases l' with
      | nil => rfl
      | cons _ _ => simp at h
    | cons a l ih =>
      intro l' h hr
      cases l' with
      | nil => simp at h
      | cons a' l' =>
        have ih' := ih (i + 1) l' (by simpa using h) (fun j => by
          have := hr (j + 1); simpa [revealedAt] using this)
        have h0 := hr 0
        cases a <;> cases a' <;> simp [revealedAt] at h0 <;> simp [revealedOf, ih', h0]
  refine this 0 _ _ (by rw [marked_length, marked_length]) fun j => ?_
  unfold revealedAt
  rw [marked_get, marked_get]
  by_cases h : j < n
  · rw [dif_pos h, dif_pos h]
    cases hs : shown ⟨j, h⟩
    · rfl
    · simp [hagree _ hs]
  · rw [dif_neg h, dif_neg h]

theorem moved (P : Params F G1 G2 GT) (hcyc : ∀ a b : G1, a ≠ 0 → ∃ k : F, b = k • a) (x : F) (pk : PublicKey G1 G2) (hwf : WellFormed pk) (hw : pk.w = x • P.g2) (hgood : Nondeg P)
    [Finite F] (claims : List Bytes) (nonce : F) (shown : Fin n → Bool) (sig sig' : Signature F G1) (m m' : Fin n → F) (hv : sig.verify P (List.ofFn m) pk = .ok true)
    (hv' : sig'.verify P (List.ofFn m') pk = .ok true) (hagree : ∀ j, shown j = true → m j = m' j) :
    ∃ φ : Ideal F n → Ideal F n, Function.Bijective φ ∧ ∀ ω, ideal P pk claims nonce shown sig' m' (φ ω) = ideal P pk claims nonce shown sig m ω := by
  have hl : n = pk.h.length := by simpa using ((verify_true_pairing P _ _ _).1 hv).1
  have ha : sig.a ≠ 0 := ((bbs_verify_iff P hgood _ _ _ x hw).1 hv).2.1.1
  have hrev := revealed_eq shown m m' hagree
  obtain ⟨φ, hb, hφ⟩ := fs_bijective (hashed P pk shown sig m) (hashed P pk shown sig' m') (view P pk shown sig m) (view P pk shown sig' m')
    (view_injective P pk hl.symm hwf.1 shown sig ha m)
    (fun c ω => by
      obtain ⟨r', hr', -, h⟩ := bbs_unlinkable P hcyc x pk sig sig' (marked shown m) (marked shown m') ω.rand c hwf hw hgood (by rw [marked_map]; exact hv)
        (by rw [marked_map]; exact hv') (fun i => by
          have := mapGet_revealedOf 0 (marked shown m) i
          rw [← this, hrev, mapGet_revealedOf]) (fun pm hpm v b h => by
          unfold marked at hpm
          rw [List.mem_ofFn] at hpm
          obtain ⟨j, hj⟩ := hpm
          rw [h] at hj
          split at hj <;> cases hj) ω.1.2
      refine ⟨(⟨r'.r1, hr'⟩, r'.r2, (r'.ba, r'.bh, r'.bd, r'.bh'), fun j => if shown j then ω.2.2.2 j else r'.blind j), ?_⟩
      unfold view
      refine Prod.ext ?_ ?_
      · dsimp only
        rw [← h]
        exact (honest_congr P sig' pk shown m' r' _ (fun j hj hs => by
          show r'.blind j = if h : j < n then (if shown ⟨j, h⟩ = true then ω.2.2.2 ⟨j, h⟩ else r'.blind j) else 0
          rw [dif_pos hj, if_neg (by rw [hs]; simp)]) c).symm
      · funext j
        dsimp only
        cases hs : shown j <;> simp)
    (fun c ω ω' h => by
      have h1 := (Prod.mk.inj h).1
      have e : ∀ (sig : Signature F G1) (m : Fin n → F) (ω : Ideal F n), hashed P pk shown sig m ω =
          (honestProof P sig pk (marked shown m) ω.rand c).bytesForChallenge P ((revealedOf 0 (marked shown m)).map (·.1)) pk := fun _ _ _ => rfl
      rw [e, e, h1, hrev])
    (fun b => P.hashFr (b ++ P.encF.enc nonce ++ claims.flatten))
  refine ⟨φ, hb, fun ω => ?_⟩
  rw [ideal_eq P pk claims nonce shown sig m hv, ideal_eq P pk claims nonce shown sig' m' hv', (hφ ω).1, (hφ ω).2, hrev]
end Unlink

variable [Fintype F]
open Unlink

/-- **C230** Any number of BBS+ presentations: whichever of two signatures each of them is made from, the probability of each conclusion is the same but for the cases in which
`r2` would have to be zero, as long as the messages agree where they are shown. -/
theorem bbs_presentations_unlinkable (P : Params F G1 G2 GT) (hcyc : ∀ a b : G1, a ≠ 0 → ∃ k : F, b = k • a) (x : F) (pk : PublicKey G1 G2) (hwf : WellFormed pk)
    (hw : pk.w = x • P.g2) (hgood : Nondeg P) {n N : Nat} (claims : Fin N → List Bytes) (nonce : Fin N → F) (shown : Fin N → Fin n → Bool) (sig sig' : Fin N → Signature F G1)
    (m m' : Fin N → Fin n → F) (hv : ∀ i, (sig i).verify P (List.ofFn (m i)) pk = .ok true) (hv' : ∀ i, (sig' i).verify P (List.ofFn (m' i)) pk = .ok true)
    (hagree : ∀ i j, shown i j = true → m i j = m' i j) (test : (Fin N → Res Error (SignatureProof F G1 × F)) → Prop) :
    |pr (fun ω : Fin N → PresCoins F n => test fun i => present P pk (claims i) (nonce i) (shown i) (sig i) (m i) (ω i)) -
      pr (fun ω : Fin N → PresCoins F n => test fun i => present P pk (claims i) (nonce i) (shown i) (sig' i) (m' i) (ω i))| ≤ 2 * (N / Fintype.card F) := by
  let e (ω : Fin N → PresCoins F n) : Fin N → Ideal F n := fun i => ((ω i).1, (ω i).2.1.1, (ω i).2.2)
  have he : Function.Injective e := by
    intro ω ω' h
    funext i
    have := congrFun h i
    obtain ⟨h1, h2, h3⟩ := Prod.mk.inj this |>.imp id Prod.mk.inj
    exact Prod.ext h1 (Prod.ext (Subtype.ext h2) h3)
  have hne : Nonempty {r : F // r ≠ 0} := ⟨⟨1, one_ne_zero⟩⟩
  have hbad : pr (fun ω : Fin N → Ideal F n => ∃ i, (ω i).2.1 = 0) ≤ N / Fintype.card F := by
    refine (SDH.pr_exists_fin _ (1 / Fintype.card F) fun i => ?_).trans (by rw [mul_one_div])
    classical
    rw [CS.pr_coord (fun w : Ideal F n => w.2.1 = 0) i, CS.pr_snd (fun w : F × (F × F × F × F) × (Fin n → F) => w.1 = 0), pr_fst (fun r : F => r = 0)]
    exact SDH.pr_one_case _ fun a b ha hb => ha.trans hb.symm
  have hsurj : ∀ ω : Fin N → Ideal F n, ¬ (∃ i, (ω i).2.1 = 0) → ∃ ω', e ω' = ω := fun ω h =>
    ⟨fun i => ((ω i).1, ⟨(ω i).2.1, fun h0 => h ⟨i, h0⟩⟩, (ω i).2.2), rfl⟩
  have c1 := (pr_restrict e he (fun ω => test fun i => ideal P pk (claims i) (nonce i) (shown i) (sig i) (m i) (ω i)) _ hsurj).trans hbad
  have c2 := (pr_restrict e he (fun ω => test fun i => ideal P pk (claims i) (nonce i) (shown i) (sig' i) (m' i) (ω i)) _ hsurj).trans hbad
  choose φ hb hφ using fun i => moved P hcyc x pk hwf hw hgood (claims i) (nonce i) (shown i) (sig i) (sig' i) (m i) (m' i) (hv i) (hv' i) (hagree i)
  have hB : Function.Bijective fun (ω : Fin N → Ideal F n) i => φ i (ω i) := Function.Bijective.piMap hb
  rw [← pr_bijective _ hB fun ω => test fun i => ideal P pk (claims i) (nonce i) (shown i) (sig' i) (m' i) (ω i)] at c2
  simp only [hφ] at c2
  change |pr (fun ω : Fin N → PresCoins F n => test fun i => ideal P pk (claims i) (nonce i) (shown i) (sig i) (m i) (e ω i)) -
    pr (fun ω : Fin N → PresCoins F n => test fun i => ideal P pk (claims i) (nonce i) (shown i) (sig' i) (m' i) (e ω i))| ≤ _
  rw [abs_le] at *
  constructor <;> linarith [c1.1, c1.2, c2.1, c2.2]
end Verif.BBS

/-! ## The hypotheses are met: do two presentations come from one signature or from two? -/

namespace Verif.PS.Toy
open Verif.Toy Verif.Forking

theorem sig2_ok : sig2.verify par [4, 50, 60] vk = .ok true := (ps_verify_iff par nondeg 7 ys sig2 [4, 50, 60]).2 ⟨sig2_valid, by decide +kernel⟩

example (encS encO : K → Bytes) (hash : Bytes → K) (nonce : Fin 2 → Bytes) (test : (Fin 2 → Res Error (SigProof K K K × K)) → Prop) :
    pr (fun ω : (i : Fin 2) → PresCoins K 2 => test fun i => present par encS encO hash vk (nonce i) [0] sig [4, 6, 8] (ω i)) =
      pr (fun ω : (i : Fin 2) → PresCoins K 2 => test fun i => present par encS encO hash vk (nonce i) [0] (![sig, sig2] i) (![[4, 6, 8], [4, 50, 60]] i) (ω i)) :=
  ps_presentations_unlinkable par (fun a b ha => ⟨b * a⁻¹, by rw [smul_eq_mul, mul_assoc, inv_mul_cancel₀ ha, mul_one]⟩) 7 ys encS encO hash nonce (fun _ => [0])
    (fun _ => sig) ![sig, sig2] (fun _ => [4, 6, 8]) ![[4, 6, 8], [4, 50, 60]] (fun _ => sig_ok) (fun i => by
      match i with
      | 0 => exact sig_ok
      | 1 => exact sig2_ok) nondeg (by simp) (by simp [ys]) (fun i => by
      match i with
      | 0 => simp
      | 1 => simp) test
end Verif.PS.Toy

namespace Verif.BBS.Toy
open Verif.Toy Verif.Forking
local instance : Fact (Nat.Prime 101) := fact101

example (claims : Fin 2 → List Bytes) (nonce : Fin 2 → ZMod 101) (test : (Fin 2 → Res Error (SignatureProof (ZMod 101) (ZMod 101) × ZMod 101)) → Prop) :
    |pr (fun ω : Fin 2 → PresCoins (ZMod 101) 3 => test fun i => present par key (claims i) (nonce i) ![true, false, false] sig ![4, 6, 8] (ω i)) -
      pr (fun ω : Fin 2 → PresCoins (ZMod 101) 3 => test fun i => present par key (claims i) (nonce i) ![true, false, false] (![sig, sig2] i) (![![4, 6, 8], ![4, 50, 60]] i) (ω i))|
      ≤ 2 * ((2 : ℕ) / Fintype.card (ZMod 101)) :=
  bbs_presentations_unlinkable par (fun a b ha => ⟨b * a⁻¹, by rw [smul_eq_mul, mul_assoc, inv_mul_cancel₀ ha, mul_one]⟩) 7 key wf (by decide +kernel) nondeg claims nonce
    (fun _ => ![true, false, false]) (fun _ => sig) ![sig, sig2] (fun _ => ![4, 6, 8]) ![![4, 6, 8], ![4, 50, 60]] (fun _ => sig_ok) (fun i => by
      match i with
      | 0 => exact sig_ok
      | 1 => exact sig2_ok) (fun i j hj => by
      match i, j with
      | 0, _ => rfl
      | 1, 0 => rfl
      | 1, 1 => cases hj
      | 1, 2 => cases hj) test

/-- a presentation is made -/
example (ω : PresCoins (ZMod 101) 3) : ∃ sp c, present par key [] 5 ![true, false, false] sig ![4, 6, 8] ω = .ok (sp, c) :=
  ⟨_, _, Unlink.ideal_eq par key [] 5 ![true, false, false] sig ![4, 6, 8] sig_ok (ω.1, ω.2.1.1, ω.2.2)⟩
end Verif.BBS.Toy
