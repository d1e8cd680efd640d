import Verif.Props.Sharing
import Verif.Props.SDHCount
import Verif.Toy
/-!
# C222, C223: what fewer than `threshold` holders learn from verifiable sharings
-/
set_option linter.unusedSectionVars false
namespace Verif.Sharing
open Finset Verif.Forking

variable {F : Type} [Field F] [DecidableEq F]
variable {R : Type} [AddCommGroup R] [Module F R] [DecidableEq R]

/-! ## Specification -/

/-- the random numbers drawn for a polynomial -/
def draws {m : Nat} (c : Fin m → F) (i : Nat) : F := if h : i < m then c ⟨i, h⟩ else 0

/-- the shares of those who are in `ids` -/
def held (ids : Finset Nat) (shares : List Share) : List Share := shares.filter fun s => s.identifier ∈ ids

/-- `find` is right about the secret, which it computes from the published commitments and the shares of `ids` -/
def Finds (sch : Scheme) (cF : Codec F) (g : R) (ids : Finset Nat) (find : FeldmanVerifier R → List Share → F) (secret : F) {m : Nat} (c : Fin m → F) : Prop :=
  ∃ v shares, feldmanSplit sch cF (draws c) secret g = .ok (v, shares) ∧ find v (held ids shares) = secret

/-- `test` says yes on the published commitments and the shares of `ids` -/
def FeldmanSays (sch : Scheme) (cF : Codec F) (g : R) (ids : Finset Nat) (test : FeldmanVerifier R → List Share → Prop) (secret : F) {m : Nat} (c : Fin m → F) : Prop :=
  ∃ v shares, feldmanSplit sch cF (draws c) secret g = .ok (v, shares) ∧ test v (held ids shares)

/-- the random numbers of a Pedersen sharing: the coefficients, the blinding, its coefficients -/
abbrev PedersenCoins (F : Type) (m : Nat) : Type := (Fin m → F) × F × (Fin m → F)

/-- `test` says yes on the published commitments and both shares of everyone in `ids` -/
def PedersenSays (sch : Scheme) (cF : Codec F) (g h : R) (ids : Finset Nat) (test : PedersenVerifier R → List Share → List Share → Prop) (secret : F) {m : Nat}
    (ω : PedersenCoins F m) : Prop :=
  ∃ r, pedersenSplit sch cF (draws ω.1) (draws ω.2.2) ω.2.1 secret g h = .ok r ∧ test r.verifier (held ids r.secretShares) (held ids r.blindingShares)

/-! ## The polynomial that is 1 at 0 and 0 at `ids` -/

open Polynomial in
/-- `∏ (1 - X / i)` -/
noncomputable def mask (F : Type) [Field F] (ids : Finset Nat) : Polynomial F := ∏ i ∈ ids, (1 - C ((i : F)⁻¹) * X)

theorem mask_zero (ids : Finset Nat) : (mask F ids).coeff 0 = 1 := by
  rw [Polynomial.coeff_zero_eq_eval_zero]
  unfold mask
  rw [Polynomial.eval_prod]
  exact prod_eq_one fun i _ => by simp

theorem mask_root (ids : Finset Nat) {i : Nat} (hi : i ∈ ids) (h0 : (i : F) ≠ 0) : (mask F ids).eval (i : F) = 0 := by
  unfold mask
  rw [Polynomial.eval_prod]
  exact prod_eq_zero hi (by simp [inv_mul_cancel₀ h0])

theorem mask_degree (ids : Finset Nat) : (mask F ids).natDegree ≤ ids.card := by
  unfold mask
  refine (Polynomial.natDegree_prod_le _ _).trans ?_
  refine (sum_le_card_nsmul _ _ 1 fun i _ => ?_).trans (by simp)
  refine (Polynomial.natDegree_sub_le _ _).trans ?_
  simp only [Polynomial.natDegree_one, zero_max]
  exact (Polynomial.natDegree_C_mul_le _ _).trans Polynomial.natDegree_X_le

/-- the coefficients without the first -/
noncomputable def maskTail (F : Type) [Field F] (ids : Finset Nat) (m : Nat) : Fin m → F := fun k => (mask F ids).coeff (k + 1)

theorem poly_eval {m : Nat} (c : Fin m → F) (s x : F) {t : Nat} (ht : t - 1 = m) : evaluate (polyNew (draws c) s t) x = s + ∑ k : Fin m, c k * x ^ ((k : Nat) + 1) := by
  rw [evaluate_eq]
  unfold polyNew
  rw [mPolyVal_cons, ht]
  congr 1
  unfold mPolyVal
  rw [smul_sum, List.length_map, List.length_range, Finset.sum_range]
  refine sum_congr rfl fun k _ => ?_
  have hk : (k : Nat) < m := k.2
  simp only [List.getD_eq_getElem?_getD, List.getElem?_map, List.getElem?_range hk, Option.map_some, Option.getD_some, smul_eq_mul]
  unfold draws
  rw [dif_pos hk, pow_succ]
  ring

/-- moving the secret along `mask` is not seen at `ids` -/
theorem eval_shift {t : Nat} (ht : 1 ≤ t) (ids : Finset Nat) (hcard : ids.card < t) {i : Nat} (hi : i ∈ ids) (h0 : (i : F) ≠ 0) (c : Fin (t - 1) → F) (s a : F) :
    evaluate (polyNew (draws (c + a • maskTail F ids (t - 1))) (s + a) t) (i : F) = evaluate (polyNew (draws c) s t) (i : F) := by
  rw [poly_eval _ _ _ rfl, poly_eval _ _ _ rfl]
  have hroot := mask_root (F := F) ids hi h0
  rw [Polynomial.eval_eq_sum_range' (n := t - 1 + 1) (by have := mask_degree (F := F) ids; omega), sum_range_succ', mask_zero, Finset.sum_range] at hroot
  have : ∑ k : Fin (t - 1), (c + a • maskTail F ids (t - 1)) k * (i : F) ^ ((k : Nat) + 1) =
      ∑ k : Fin (t - 1), c k * (i : F) ^ ((k : Nat) + 1) + a * ∑ k : Fin (t - 1), (mask F ids).coeff ((k : Nat) + 1) * (i : F) ^ ((k : Nat) + 1) := by
    rw [mul_sum, ← sum_add_distrib]
    refine sum_congr rfl fun k _ => ?_
    simp only [Pi.add_apply, Pi.smul_apply, smul_eq_mul, maskTail]
    ring
  rw [this]
  linear_combination a * hroot

/-- the same for lists of shares -/
theorem held_shift {t n : Nat} (ht : 1 ≤ t) (hn : n < 2 ^ 32) (hsep : Separates F n) (cF : Codec F) (ids : Finset Nat) (hcard : ids.card < t)
    (c : Fin (t - 1) → F) (s a : F) :
    held ids ((List.range n).map (mkShare cF (polyNew (draws (c + a • maskTail F ids (t - 1))) (s + a) t))) =
      held ids ((List.range n).map (mkShare cF (polyNew (draws c) s t))) := by
  unfold held
  rw [List.filter_map, List.filter_map]
  have hfil : (List.range n).filter ((fun s : Share => decide (s.identifier ∈ ids)) ∘ mkShare cF (polyNew (draws (c + a • maskTail F ids (t - 1))) (s + a) t)) =
      (List.range n).filter ((fun s : Share => decide (s.identifier ∈ ids)) ∘ mkShare cF (polyNew (draws c) s t)) := rfl
  rw [hfil]
  refine List.map_congr_left fun j hj => ?_
  rw [List.mem_filter, List.mem_range] at hj
  obtain ⟨hjn, hmem⟩ := hj
  have hmod : (j + 1) % 2 ^ 32 = j + 1 := Nat.mod_eq_of_lt (by omega)
  have hin : j + 1 ∈ ids := by
    have h : (j + 1) % 2 ^ 32 ∈ ids := of_decide_eq_true hmem
    rwa [hmod] at h
  have h0 : ((j + 1 : Nat) : F) ≠ 0 := by
    intro h
    have := hsep (j + 1) 0 (by omega) (by omega) (by simpa using h)
    omega
  have := eval_shift ht ids hcard hin h0 c s a
  unfold mkShare
  dsimp only
  rw [this]

/-! ## C222 -/

/-- What a coalition sees, made from the point `P = s g` and random numbers: the commitments are `P` and `c_k g + mask_k P`, the shares are those of the polynomial
with coefficients `0, c_0, c_1, …`. -/
noncomputable def simVerifier (g : R) (ids : Finset Nat) {m : Nat} (P : R) (c : Fin m → F) : FeldmanVerifier R :=
  ⟨g, P :: List.ofFn fun k => c k • g + maskTail F ids m k • P⟩

def simShares (sch : Scheme) (cF : Codec F) (ids : Finset Nat) {m : Nat} (c : Fin m → F) : List Share :=
  held ids ((List.range sch.limit).map (mkShare cF (polyNew (draws c) 0 sch.threshold)))

/-- the code, run on shifted coins, gives the simulated view -/
theorem feldman_sim {t n : Nat} {sch : Scheme} (hnew : Scheme.new t n = .ok sch) (hn : n < 2 ^ 32) (hsep : Separates F n) (cF : Codec F) (g : R)
    (ids : Finset Nat) (hcard : ids.card < t) (s : F) (hs : s ≠ 0) (c : Fin (t - 1) → F) :
    ∃ shares, feldmanSplit sch cF (draws (c + s • maskTail F ids (t - 1))) s g = .ok (simVerifier g ids (s • g) c, shares) ∧
      held ids shares = simShares sch cF ids c := by
  obtain ⟨h2, h3, rfl⟩ := scheme_new_ok hnew
  have hlist : (polyNew (draws (c + s • maskTail F ids (t - 1))) s t).map (fun c => c • g) =
      s • g :: List.ofFn fun k => c k • g + maskTail F ids (t - 1) k • s • g := by
    unfold polyNew
    rw [List.map_cons, List.map_map]
    congr 1
    refine List.ext_getElem (by simp) fun k h1 h2 => ?_
    have hk : k < t - 1 := by simpa using h1
    simp only [List.getElem_map, List.getElem_range, List.getElem_ofFn, Function.comp_apply]
    unfold draws
    rw [dif_pos hk, Pi.add_apply, Pi.smul_apply, add_smul, smul_eq_mul, mul_comm, mul_smul]
  unfold feldmanSplit getSharesAndPolynomial
  rw [hnew, Res.ok_bind, if_neg hs, Res.ok_bind]
  dsimp only
  rw [hlist]
  refine ⟨_, rfl, ?_⟩
  have := held_shift (by omega) hn hsep cF ids hcard c 0 s
  rw [zero_add] at this
  exact this

section
variable [Fintype F]

/-- the shift of the coins -/
theorem shift_bijective (ids : Finset Nat) (m : Nat) (s : F) : Function.Bijective fun c : Fin m → F => c + s • maskTail F ids m :=
  Function.bijective_iff_has_inverse.2 ⟨fun c => c - s • maskTail F ids m, fun c => by simp, fun c => by simp⟩

/-- **C222** Whatever fewer than `threshold` holders see, they could have made themselves from `s g`: for every secret `s`, every test on the published commitments and
their shares says yes with the probability with which it says yes on `simVerifier`, `simShares`. -/
theorem feldman_reveals_only_the_point {t n : Nat} {sch : Scheme} (hnew : Scheme.new t n = .ok sch) (hn : n < 2 ^ 32) (hsep : Separates F n) (cF : Codec F) (g : R)
    (ids : Finset Nat) (hcard : ids.card < t) (test : FeldmanVerifier R → List Share → Prop) (s : F) (hs : s ≠ 0) :
    pr (fun c : Fin (t - 1) → F => FeldmanSays sch cF g ids test s c) =
      pr (fun c : Fin (t - 1) → F => test (simVerifier g ids (s • g) c) (simShares sch cF ids c)) := by
  rw [← pr_bijective _ (shift_bijective ids (t - 1) s)]
  congr 1
  funext c
  obtain ⟨shares, h1, h2⟩ := feldman_sim hnew hn hsep cF g ids hcard s hs c
  refine propext ⟨?_, fun h => ⟨_, _, h1, h2 ▸ h⟩⟩
  rintro ⟨v, shares', h3, h4⟩
  rw [h1] at h3
  cases h3
  rwa [h2] at h4

/-- **C222** Finding a random secret from the commitments and fewer than `threshold` shares is as hard as finding the discrete logarithm of a random point: the finder
`P, c ↦ find (simVerifier P c) (simShares c)`, with random `c`, is right about the logarithm of `s g` at least as often. -/
theorem feldman_secret_is_a_logarithm {t n : Nat} {sch : Scheme} (hnew : Scheme.new t n = .ok sch) (hn : n < 2 ^ 32) (hsep : Separates F n) (cF : Codec F) (g : R)
    (ids : Finset Nat) (hcard : ids.card < t) (find : FeldmanVerifier R → List Share → F) :
    pr (fun ω : F × (Fin (t - 1) → F) => Finds sch cF g ids find ω.1 ω.2) ≤
      pr (fun ω : F × (Fin (t - 1) → F) => find (simVerifier g ids (ω.1 • g) ω.2) (simShares sch cF ids ω.2) = ω.1) := by
  have hbij : Function.Bijective fun ω : F × (Fin (t - 1) → F) => (ω.1, ω.2 + ω.1 • maskTail F ids (t - 1)) :=
    Function.bijective_iff_has_inverse.2 ⟨fun ω => (ω.1, ω.2 - ω.1 • maskTail F ids (t - 1)), fun ω => by simp, fun ω => by simp⟩
  rw [← pr_bijective _ hbij]
  refine pr_mono ?_
  rintro ⟨s, c⟩ ⟨v, shares', h3, h4⟩
  dsimp only at h3 h4
  by_cases hs : s = 0
  · exfalso
    unfold feldmanSplit getSharesAndPolynomial at h3
    obtain ⟨a, -, h3⟩ := Res.bind_eq_ok.1 h3
    rw [if_pos hs] at h3
    cases h3
  · obtain ⟨shares, h1, h2⟩ := feldman_sim hnew hn hsep cF g ids hcard s hs c
    rw [h1] at h3
    cases h3
    rwa [h2] at h4

/-! ## C223 -/

theorem pedersen_split_eq {t n : Nat} {sch : Scheme} (hnew : Scheme.new t n = .ok sch) (cF : Codec F) (g h : R) (s b : F) (c c' : Fin (t - 1) → F) (hs : s ≠ 0) :
    pedersenSplit sch cF (draws c) (draws c') b s g h = if b = 0 then .err .ShareInvalidSecret else
      .ok ⟨b, (List.range n).map (mkShare cF (polyNew (draws c') b t)), (List.range n).map (mkShare cF (polyNew (draws c) s t)),
        ⟨g, h, (s • g + b • h) :: List.ofFn fun k => c k • g + c' k • h⟩⟩ := by
  obtain ⟨h2, h3, rfl⟩ := scheme_new_ok hnew
  have hlist : (List.range t).map (fun i => (polyNew (draws c) s t).getD i 0 • g + (polyNew (draws c') b t).getD i 0 • h) =
      (s • g + b • h) :: List.ofFn fun k => c k • g + c' k • h := by
    refine List.ext_getElem (by simp; omega) fun k h1 h2 => ?_
    rw [List.getElem_map, List.getElem_range]
    cases k with
    | zero => rfl
    | succ k =>
      have hk : k < t - 1 := by simp at h2; omega
      simp only [List.getElem_cons_succ, List.getElem_ofFn, polyNew, List.getD_cons_succ]
      simp only [List.getD_eq_getElem?_getD, List.getElem?_map, List.getElem?_range hk, Option.map_some, Option.getD_some]
      unfold draws
      rw [dif_pos hk, dif_pos hk]
  unfold pedersenSplit getSharesAndPolynomial
  rw [hnew, Res.ok_bind, if_neg hs, Res.ok_bind]
  dsimp only
  by_cases hb : b = 0
  · rw [if_pos hb, if_pos hb]; rfl
  · rw [if_neg hb, if_neg hb, Res.ok_bind]
    dsimp only
    rw [hlist]
    rfl

/-- the coins that give the same view for another secret; `h = κ g` -/
noncomputable def move (κ : F) (ids : Finset Nat) (m : Nat) (a : F) (ω : PedersenCoins F m) : PedersenCoins F m :=
  (ω.1 + a • maskTail F ids m, ω.2.1 + -(a / κ), ω.2.2 + (-(a / κ)) • maskTail F ids m)

theorem move_bijective (κ : F) (ids : Finset Nat) (m : Nat) (a : F) : Function.Bijective (move κ ids m a) := by
  refine Function.bijective_iff_has_inverse.2 ⟨move κ ids m (-a), fun ω => ?_, fun ω => ?_⟩ <;>
  · unfold move
    simp [neg_div]

/-- **C223** Fewer than `threshold` holders learn next to nothing about the secret from a Pedersen sharing, whatever their means: for any two secrets, every test on the
commitments and both kinds of their shares says yes with probabilities that differ by at most `1 / |F|`. -/
theorem pedersen_hides {t n : Nat} {sch : Scheme} (hnew : Scheme.new t n = .ok sch) (hn : n < 2 ^ 32) (hsep : Separates F n) (cF : Codec F) (g h : R)
    (κ : F) (hκ : κ ≠ 0) (hh : h = κ • g) (ids : Finset Nat) (hcard : ids.card < t) (test : PedersenVerifier R → List Share → List Share → Prop)
    (s s' : F) (hs : s ≠ 0) (hs' : s' ≠ 0) :
    |pr (fun ω : PedersenCoins F (t - 1) => PedersenSays sch cF g h ids test s ω) - pr (fun ω : PedersenCoins F (t - 1) => PedersenSays sch cF g h ids test s' ω)| ≤
      1 / Fintype.card F := by
  have main : ∀ s s' : F, s ≠ 0 → s' ≠ 0 → pr (fun ω : PedersenCoins F (t - 1) => PedersenSays sch cF g h ids test s ω) ≤
      pr (fun ω : PedersenCoins F (t - 1) => PedersenSays sch cF g h ids test s' ω) + 1 / Fintype.card F := by
    intro s s' hs hs'
    obtain ⟨h2, h3, h1⟩ := scheme_new_ok hnew
    have hm : pr (fun ω : PedersenCoins F (t - 1) => PedersenSays sch cF g h ids test s ω) ≤
        pr (fun ω : PedersenCoins F (t - 1) => PedersenSays sch cF g h ids test s' (move κ ids (t - 1) (s' - s) ω) ∨ (move κ ids (t - 1) (s' - s) ω).2.1 = 0) := by
      refine pr_mono ?_
      rintro ω ⟨r, hr, ht⟩
      by_cases hz : (move κ ids (t - 1) (s' - s) ω).2.1 = 0
      · exact Or.inr hz
      refine Or.inl ?_
      rw [pedersen_split_eq hnew cF g h s ω.2.1 ω.1 ω.2.2 hs] at hr
      split at hr
      · cases hr
      rw [Res.ok.injEq] at hr
      subst hr
      unfold PedersenSays
      refine ⟨_, (pedersen_split_eq hnew cF g h s' _ _ _ hs').trans (if_neg hz), ?_⟩
      dsimp only [move]
      have e1 := held_shift (n := n) (by omega) hn hsep cF ids hcard ω.1 s (s' - s)
      have e2 := held_shift (n := n) (by omega) hn hsep cF ids hcard ω.2.2 ω.2.1 (-((s' - s) / κ))
      rw [add_sub_cancel] at e1
      rw [e1, e2]
      have hk : (s' - s) / κ * κ = s' - s := div_mul_cancel₀ _ hκ
      have e3 : s' • g + (ω.2.1 + -((s' - s) / κ)) • h = s • g + ω.2.1 • h := by
        rw [hh, smul_smul, smul_smul, ← add_smul, ← add_smul]
        congr 1
        linear_combination -hk
      have e4 : (fun k => (ω.1 + (s' - s) • maskTail F ids (t - 1)) k • g + (ω.2.2 + (-((s' - s) / κ)) • maskTail F ids (t - 1)) k • h) =
          fun k => ω.1 k • g + ω.2.2 k • h := by
        funext k
        rw [hh, smul_smul, smul_smul, ← add_smul, ← add_smul]
        congr 1
        simp only [Pi.add_apply, Pi.smul_apply, smul_eq_mul]
        linear_combination -(maskTail F ids (t - 1) k) * hk
      rw [e3, e4]
      exact ht
    refine hm.trans ((pr_or _ _).trans ?_)
    have b1 := pr_bijective _ (move_bijective κ ids (t - 1) (s' - s)) (fun ω : PedersenCoins F (t - 1) => PedersenSays sch cF g h ids test s' ω)
    have b2 := pr_bijective _ (move_bijective κ ids (t - 1) (s' - s)) (fun ω : PedersenCoins F (t - 1) => ω.2.1 = 0)
    rw [b1, b2]
    have : pr (fun ω : PedersenCoins F (t - 1) => ω.2.1 = 0) ≤ 1 / Fintype.card F := by
      refine SDH.pr_line _ (fun ω v => (ω.1, v, ω.2.2)) ?_
      rintro ⟨a1, a2, a3⟩ ⟨b1, b2, b3⟩ ha hb v v' hv
      simp only [Prod.mk.injEq] at ha hb hv ⊢
      exact ⟨⟨hv.1, ha.trans hb.symm, hv.2.2⟩, hv.2.1⟩
    linarith
  rw [abs_le]
  constructor
  · linarith [main s' s hs' hs]
  · linarith [main s s' hs hs']

/-- **C223 (exactness)** The bound is met, because a blinding of zero is refused: the first commitment is never `s g`, and is any other `s' g` with probability `1 / |F|`. -/
theorem pedersen_excludes_one {t n : Nat} {sch : Scheme} (hnew : Scheme.new t n = .ok sch) (cF : Codec F) (g h : R) (κ : F) (hκ : κ ≠ 0) (hh : h = κ • g)
    (hg : ∀ a : F, a • g = 0 → a = 0) (ids : Finset Nat) (s s' : F) (hs : s ≠ 0) (hs' : s' ≠ 0) (hne : s ≠ s') :
    pr (fun ω : PedersenCoins F (t - 1) => PedersenSays sch cF g h ids (fun v _ _ => v.commitments.head? = some (s • g)) s ω) = 0 ∧
    pr (fun ω : PedersenCoins F (t - 1) => PedersenSays sch cF g h ids (fun v _ _ => v.commitments.head? = some (s • g)) s' ω) = 1 / Fintype.card F := by
  constructor
  · refine pr_false _ ?_
    rintro ω ⟨r, hr, ht⟩
    rw [pedersen_split_eq hnew cF g h s ω.2.1 ω.1 ω.2.2 hs] at hr
    split at hr
    · cases hr
    rename_i hb
    rw [Res.ok.injEq] at hr
    subst hr
    simp only [List.head?_cons, Option.some.injEq, add_eq_left] at ht
    rw [hh, smul_smul] at ht
    exact (mul_ne_zero hb hκ) (hg _ ht)
  · have hiff : ∀ ω : PedersenCoins F (t - 1), PedersenSays sch cF g h ids (fun v _ _ => v.commitments.head? = some (s • g)) s' ω ↔ ω.2.1 = (s - s') / κ := by
      intro ω
      unfold PedersenSays
      rw [pedersen_split_eq hnew cF g h s' ω.2.1 ω.1 ω.2.2 hs']
      have hc : s' • g + ω.2.1 • h = s • g ↔ ω.2.1 = (s - s') / κ := by
        rw [hh, smul_smul, ← add_smul, ← sub_eq_zero, ← sub_smul, eq_div_iff hκ]
        constructor
        · intro h0
          linear_combination hg _ h0
        · intro h0
          rw [show s' + ω.2.1 * κ - s = 0 by linear_combination h0, zero_smul]
      constructor
      · rintro ⟨r, hr, ht⟩
        split at hr
        · cases hr
        rw [Res.ok.injEq] at hr
        subst hr
        simp only [List.head?_cons, Option.some.injEq] at ht
        exact hc.1 ht
      · intro h0
        have hb : ω.2.1 ≠ 0 := by
          rw [h0]
          exact div_ne_zero (sub_ne_zero.2 hne) hκ
        refine ⟨_, if_neg hb, ?_⟩
        simp only [List.head?_cons, Option.some.injEq]
        exact hc.2 h0
    simp only [hiff]
    have hb : Function.Bijective fun ω : PedersenCoins F (t - 1) => (ω.2.1, ω.1, ω.2.2) :=
      Function.bijective_iff_has_inverse.2 ⟨fun z => (z.2.1, z.1, z.2.2), fun _ => rfl, fun _ => rfl⟩
    have e := pr_bijective _ hb (fun z : F × (Fin (t - 1) → F) × (Fin (t - 1) → F) => z.1 = (s - s') / κ)
    rw [pr_fst (fun x : F => x = (s - s') / κ)] at e
    rw [e]
    unfold pr
    rw [Finset.card_eq_one.2 ⟨(s - s') / κ, by ext; simp⟩, Nat.cast_one]

end

/-! ### Non-vacuity: 2 of 3 over the field with 101 elements -/
section Examples
open Verif.Toy

/-- the hypotheses are met by one holder of a 2-of-3 sharing -/
example : pr (fun ω : ZMod 101 × (Fin 1 → ZMod 101) => Finds ⟨2, 3⟩ codec101 (3 : ZMod 101) {2} (fun v _ => v.commitments.headD 0 / 3) ω.1 ω.2) ≤
    pr (fun ω : ZMod 101 × (Fin 1 → ZMod 101) => (simVerifier (3 : ZMod 101) {2} (ω.1 • (3 : ZMod 101)) ω.2).commitments.headD 0 / 3 = ω.1) :=
  feldman_secret_is_a_logarithm (t := 2) (n := 3) rfl (by norm_num) ex_sep codec101 3 {2} (by decide) (fun v _ => v.commitments.headD 0 / 3)

/-- in a group where logarithms are easy, that finder is right about every secret but zero -/
example (s : ZMod 101) (hs : s ≠ 0) (c : Fin 1 → ZMod 101) : Finds ⟨2, 3⟩ codec101 (3 : ZMod 101) {2} (fun v _ => v.commitments.headD 0 / 3) s c := by
  refine ⟨⟨3, (polyNew (draws c) s 2).map (fun c => c • (3 : ZMod 101))⟩,
    (List.range 3).map (mkShare codec101 (polyNew (draws c) s 2)), ?_, ?_⟩
  · unfold feldmanSplit getSharesAndPolynomial
    simp only [if_neg hs]
    rfl
  · show s * 3 / 3 = s
    exact mul_div_cancel_right₀ _ (by decide +kernel)

/-- a test that is met: two secrets, one holder, `h = 37 g` -/
example (test : PedersenVerifier (ZMod 101) → List Share → List Share → Prop) :
    |pr (fun ω : PedersenCoins (ZMod 101) 1 => PedersenSays ⟨2, 3⟩ codec101 (3 : ZMod 101) 10 {1} test 5 ω) -
      pr (fun ω : PedersenCoins (ZMod 101) 1 => PedersenSays ⟨2, 3⟩ codec101 (3 : ZMod 101) 10 {1} test 77 ω)| ≤ 1 / Fintype.card (ZMod 101) :=
  pedersen_hides (t := 2) (n := 3) rfl (by norm_num) ex_sep codec101 3 10 37 (by decide +kernel) (by decide +kernel) {1} (by decide) test 5 77
    (by decide +kernel) (by decide +kernel)

example : pr (fun ω : PedersenCoins (ZMod 101) 1 => PedersenSays ⟨2, 3⟩ codec101 (3 : ZMod 101) 10 {1} (fun v _ _ => v.commitments.head? = some (5 • 3)) 77 ω) =
    1 / Fintype.card (ZMod 101) :=
  (pedersen_excludes_one (t := 2) (n := 3) rfl codec101 (3 : ZMod 101) 10 37 (by decide +kernel) (by decide +kernel) (by decide +kernel) {1} (5 : ZMod 101) 77
    (by decide +kernel) (by decide +kernel) (by decide +kernel)).2
end Examples
end Verif.Sharing
