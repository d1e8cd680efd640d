import Verif.Props.BPPoseidon
import Verif.Props.BPTreeProof
import Verif.Props.Bls381Order
import Mathlib.Algebra.Polynomial.Roots
import Mathlib.Tactic.LinearCombination
import Mathlib.Tactic.FieldSimp
/-!
# Poseidon with the constants of the code (C180, C181)

The field is the one of BLS12-381 (`ZMod order`), the tables are those of poseidon_constants.rs.
-/
namespace Verif.BP
set_option linter.unusedSectionVars false
set_option linter.unusedVariables false
set_option linter.unusedSimpArgs false

/-! ## Rounds as maps -/
section General
variable {F : Type} [Field F] [DecidableEq F]

/-- the linear layer keeps different states of `n` elements different -/
def PoseidonParams.Keeps (p : PoseidonParams F) (n : Nat) : Prop :=
  ∀ s t : List F, s.length = n → t.length = n → p.linear s = p.linear t → s = t

theorem fullSbox_injective {f : Nat → F → F} (hf : ∀ i, Function.Injective (f i)) : ∀ (s t : List F) (off : Nat), s.length = t.length →
    fullSboxF f off s = fullSboxF f off t → s = t
  | [], [], _, _, _ => rfl
  | [], _ :: _, _, h, _ => by simp at h
  | _ :: _, [], _, h, _ => by simp at h
  | x :: s, y :: t, off, h, e => by
    simp only [fullSboxF, List.zipIdx_cons, List.map_cons, List.cons.injEq] at e
    obtain ⟨e1, e2⟩ := e
    rw [hf _ e1, fullSbox_injective hf s t (off + 1) (by simpa using h) e2]

theorem partialSbox_injective (p : PoseidonParams F) {f : Nat → F → F} (hf : ∀ i, Function.Injective (f i)) : ∀ (s t : List F) (off : Nat),
    s.length = t.length → p.partialSbox f off s = p.partialSbox f off t → s = t
  | [], [], _, _, _ => rfl
  | [], _ :: _, _, h, _ => by simp at h
  | _ :: _, [], _, h, _ => by simp at h
  | [x], [y], off, _, e => by
    simp only [PoseidonParams.partialSbox, List.cons.injEq, and_true] at e
    rw [hf _ e]
  | [x], y :: y' :: t, off, h, _ => by simp at h
  | x :: x' :: s, [y], off, h, _ => by simp at h
  | x :: x' :: s, y :: y' :: t, off, h, e => by
    simp only [PoseidonParams.partialSbox, List.cons.injEq] at e
    obtain ⟨e1, e2⟩ := e
    rw [add_right_cancel e1, partialSbox_injective p hf (x' :: s) (y' :: t) (off + 1) (by simpa using h) e2]

theorem full_injective {p : PoseidonParams F} {m : Nat} (hk : p.Keeps m) {f : Nat → F → F} (hf : ∀ i, Function.Injective (f i)) :
    ∀ (n off : Nat) (s t : List F), s.length = m → t.length = m → p.full f n off s = p.full f n off t → s = t
  | 0, _, _, _, _, _, e => e
  | n + 1, off, s, t, hs, ht, e => by
    unfold PoseidonParams.full at e
    rw [hs, ht] at e
    have h1 := full_injective hk hf n (off + m) _ _ (by rw [linear_length, fullSboxF_length, hs]) (by rw [linear_length, fullSboxF_length, ht]) e
    exact fullSbox_injective hf s t off (hs.trans ht.symm)
      (hk _ _ (by rw [fullSboxF_length, hs]) (by rw [fullSboxF_length, ht]) h1)

theorem partials_injective {p : PoseidonParams F} {m : Nat} (hk : p.Keeps m) {f : Nat → F → F} (hf : ∀ i, Function.Injective (f i)) :
    ∀ (n off : Nat) (s t : List F), s.length = m → t.length = m → p.partials f n off s = p.partials f n off t → s = t
  | 0, _, _, _, _, _, e => e
  | n + 1, off, s, t, hs, ht, e => by
    unfold PoseidonParams.partials at e
    rw [hs, ht] at e
    have h1 := partials_injective hk hf n (off + m) _ _ (by rw [linear_length, partialSbox_length, hs]) (by rw [linear_length, partialSbox_length, ht]) e
    exact partialSbox_injective p hf s t off (hs.trans ht.symm)
      (hk _ _ (by rw [partialSbox_length, hs]) (by rw [partialSbox_length, ht]) h1)

theorem permute_injective {p : PoseidonParams F} {m : Nat} (hk : p.Keeps m) {sb : Sbox} (hsb : Function.Injective (sb.apply (F := F))) (s t : List F)
    (hs : s.length = m) (ht : t.length = m) (e : p.permute sb s = p.permute sb t) : s = t := by
  have hf : ∀ i, Function.Injective fun x => sb.apply (x + p.key i) := fun i x y h => add_right_cancel (hsb h)
  unfold PoseidonParams.permute PoseidonParams.rounds at e
  refine full_injective hk hf _ _ s t hs ht (partials_injective hk hf _ _ _ _ (by rw [full_length, hs]) (by rw [full_length, ht])
    (full_injective hk hf _ _ _ _ (by rw [partials_length, full_length, hs]) (by rw [partials_length, full_length, ht]) e))

theorem mix_sum (p : PoseidonParams F) (i : Nat) : ∀ (s : List F) (k : Nat),
    ((s.zipIdx k).map fun q => q.1 * p.entry q.2 i).sum = ∑ j ∈ Finset.range s.length, s.getD j 0 * p.entry (k + j) i
  | [], k => by simp
  | x :: s, k => by
    rw [List.zipIdx_cons, List.map_cons, List.sum_cons, mix_sum p i s (k + 1), List.length_cons, Finset.sum_range_succ']
    simp only [List.getD_cons_succ, List.getD_cons_zero, add_zero]
    rw [add_comm]
    congr 1
    exact Finset.sum_congr rfl fun j _ => by rw [show k + 1 + j = k + (j + 1) by omega]

/-- one element of the linear layer, as a sum -/
theorem mix_eq_sum (p : PoseidonParams F) (s : List F) (i : Nat) : p.mix s i = ∑ j ∈ Finset.range s.length, s.getD j 0 * p.entry j i := by
  rw [PoseidonParams.mix, mix_sum p i s 0]
  exact Finset.sum_congr rfl fun j _ => by rw [Nat.zero_add]

/-! ## Cauchy matrices -/

open Polynomial in
/-- sums of fractions `c j / (x + j + w)` that vanish at as many points `x` as there are fractions -/
theorem cauchy_zero (w : Nat) (J : Finset Nat) (c : Nat → F) (hinj : ∀ a ∈ J, ∀ b ∈ J, ((a : Nat) : F) = b → a = b) (I : Finset F) (hI : J.card ≤ I.card)
    (hne : ∀ x ∈ I, ∀ j ∈ J, x + j + w ≠ 0) (hz : ∀ x ∈ I, ∑ j ∈ J, c j * (x + j + w)⁻¹ = 0) : ∀ j ∈ J, c j = 0 := by
  classical
  by_cases hJ : J = ∅
  · simp [hJ]
  let P : F[X] := ∑ j ∈ J, C (c j) * ∏ l ∈ J.erase j, (X + C ((l : F) + w))
  have hdeg : P.degree < J.card := by
    refine lt_of_le_of_lt (degree_sum_le _ _) ((Finset.sup_lt_iff (by exact_mod_cast WithBot.bot_lt_coe _)).2 fun j hj => ?_)
    refine lt_of_le_of_lt (degree_mul_le _ _) ?_
    have h1 : (∏ l ∈ J.erase j, (X + C ((l : F) + w))).degree = ((J.erase j).card : WithBot Nat) := by
      rw [degree_prod, Finset.sum_congr rfl fun l _ => degree_X_add_C (((l : Nat) : F) + w), Finset.sum_const]
      simp
    rw [h1]
    have h2 : (C (c j)).degree ≤ 0 := degree_C_le
    calc (C (c j)).degree + ((J.erase j).card : WithBot Nat) ≤ 0 + ((J.erase j).card : WithBot Nat) := add_le_add_left h2 _
      _ < J.card := by rw [zero_add, Finset.card_erase_of_mem hj]; exact_mod_cast Nat.sub_lt (Finset.card_pos.2 ⟨j, hj⟩) one_pos
  have heval : ∀ x ∈ I, P.eval x = 0 := by
    intro x hx
    have e1 : P.eval x = (∑ j ∈ J, c j * (x + j + w)⁻¹) * ∏ l ∈ J, (x + l + w) := by
      rw [eval_finsetSum, Finset.sum_mul]
      refine Finset.sum_congr rfl fun j hj => ?_
      rw [eval_mul, eval_C, eval_prod, ← Finset.mul_prod_erase J _ hj]
      have : ∀ l : Nat, (X + C ((l : F) + w)).eval x = x + l + w := fun l => by simp [add_assoc]
      rw [Finset.prod_congr rfl fun l _ => this l]
      have := hne x hx j hj
      field_simp
    rw [e1, hz x hx, zero_mul]
  have hP : P = 0 := by
    by_contra hP0
    have := Polynomial.card_le_degree_of_subset_roots (p := P) (Z := I) (by
      intro x hx
      rw [mem_roots hP0]
      exact heval x hx)
    have h3 : (P.natDegree : WithBot Nat) = P.degree := (degree_eq_natDegree hP0).symm
    rw [← h3] at hdeg
    have : P.natDegree < J.card := by exact_mod_cast hdeg
    omega
  intro j hj
  have e2 : P.eval (-((j : F) + w)) = c j * ∏ l ∈ J.erase j, ((l : F) - j) := by
    rw [eval_finsetSum, Finset.sum_eq_single_of_mem j hj]
    · rw [eval_mul, eval_C, eval_prod]
      congr 1
      refine Finset.prod_congr rfl fun l _ => ?_
      simp only [eval_add, eval_X, eval_C]
      ring
    · intro b hb hbj
      rw [eval_mul, eval_prod, Finset.prod_eq_zero (Finset.mem_erase.2 ⟨hbj.symm, hj⟩), mul_zero]
      simp
  rw [hP, eval_zero] at e2
  refine (mul_eq_zero.1 e2.symm).resolve_right (Finset.prod_ne_zero_iff.2 fun l hl => ?_)
  rw [Finset.mem_erase] at hl
  intro h0
  exact hl.1 (hinj l hl.2 j hj (sub_eq_zero.1 h0))

/-! ## The first round forgets -/

theorem fullSbox_congr {f : Nat → F → F} : ∀ (s t : List F) (off : Nat), s.length = t.length →
    (∀ i x y, s[i]? = some x → t[i]? = some y → f (off + i) x = f (off + i) y) → fullSboxF f off s = fullSboxF f off t
  | [], [], _, _, _ => rfl
  | [], _ :: _, _, h, _ => by simp at h
  | _ :: _, [], _, h, _ => by simp at h
  | x :: s, y :: t, off, h, e => by
    have ih := fullSbox_congr s t (off + 1) (by simpa using h) fun i a b ha hb => by
      rw [show off + 1 + i = off + (i + 1) by omega]; exact e (i + 1) a b (by simpa using ha) (by simpa using hb)
    have e0 := e 0 x y rfl rfl
    simp only [fullSboxF, List.zipIdx_cons, List.map_cons, List.cons.injEq] at ih ⊢
    exact ⟨e0, ih⟩

/-- states that agree after the S-boxes of the first full round have the same image -/
theorem permute_congr {p : PoseidonParams F} {sb : Sbox} (hfb : 0 < p.fullBeginning) (s t : List F) (hl : s.length = t.length)
    (h : ∀ i x y, s[i]? = some x → t[i]? = some y → sb.apply (x + p.key i) = sb.apply (y + p.key i)) : p.permute sb s = p.permute sb t := by
  obtain ⟨n, hn⟩ : ∃ n, p.fullBeginning = n + 1 := ⟨p.fullBeginning - 1, by omega⟩
  have e := fullSbox_congr (f := fun off x => sb.apply (x + p.key off)) s t 0 hl (by simpa using h)
  unfold PoseidonParams.permute PoseidonParams.rounds
  rw [hn, PoseidonParams.full, PoseidonParams.full, e, hl]

end General

/-! ## The tables -/
namespace Bls381

/-- the tables as one function -/
def mdsOf (w : Nat) : List (List Nat) := if w = 3 then mds3 else if w = 5 then mds5 else if w = 9 then mds9 else []

theorem mds_table : ∀ w ∈ [3, 5, 9], ∀ j < w, ∀ i < w, ((mdsOf w).getD j []).getD i 0 * (i + j + w) % order = 1 := by decide +kernel

theorem table_sizes : keys3.length = 189 ∧ keys5.length = 320 ∧ keys9.length = 585 ∧ (mds3.length = 3 ∧ ∀ row ∈ mds3, row.length = 3) ∧
    (mds5.length = 5 ∧ ∀ row ∈ mds5, row.length = 5) ∧ mds9.length = 9 ∧ ∀ row ∈ mds9, row.length = 9 := by decide +kernel

theorem getD_cast (l : List Nat) (i : Nat) : (l.map (Nat.cast : Nat → ZMod order)).getD i 0 = ((l.getD i 0 : Nat) : ZMod order) := by
  simp only [List.getD_eq_getElem?_getD, List.getElem?_map]
  cases l[i]? <;> simp

theorem getD_rows (l : List (List Nat)) (j : Nat) : (l.map fun row => row.map (Nat.cast : Nat → ZMod order)).getD j [] = (l.getD j []).map Nat.cast := by
  simp only [List.getD_eq_getElem?_getD, List.getElem?_map]
  cases l[j]? <;> simp

theorem mods {a b : Nat} : ((a : Nat) : ZMod order) = b ↔ a % order = b % order := ZMod.natCast_eq_natCast_iff' a b order

/-- the entry at row `j`, column `i` of the matrix of the width `w` is `1 / (i + j + w)` -/
theorem entry_eq {w fb fe pr : Nat} {p : PoseidonParams (ZMod order)} (hp : PoseidonParams.new consts entries w fb fe pr = .ok p) {i j : Nat} (hi : i < w)
    (hj : j < w) : p.entry j i = ((i : ZMod order) + j + w)⁻¹ := by
  obtain ⟨hw, -, -, -, -, -, -, hm, -⟩ := new_keys _ _ _ _ _ _ _ hp
  have e : p.entry j i = ((((mdsOf w).getD j []).getD i 0 : Nat) : ZMod order) := by
    unfold PoseidonParams.entry
    rw [hm, entries, show (if w = 3 then mds3 else if w = 5 then mds5 else if w = 9 then mds9 else []) = mdsOf w from rfl, getD_rows, getD_cast]
  have t := mds_table w (by simpa using hw) j hj i hi
  have t2 : ((((mdsOf w).getD j []).getD i 0 * (i + j + w) : Nat) : ZMod order) = ((1 : Nat) : ZMod order) := by
    rw [mods, t]; decide +kernel
  rw [e]
  apply eq_inv_of_mul_eq_one_left
  push_cast at t2 ⊢
  exact t2

/-- `PoseidonParams::new` with the tables: for which arguments it succeeds -/
theorem params_exist (w fb fe pr : Nat) : (∃ p, PoseidonParams.new consts entries w fb fe pr = .ok p) ↔
    w = 3 ∧ fb + pr + fe ≤ 63 ∨ w = 5 ∧ fb + pr + fe ≤ 64 ∨ w = 9 ∧ fb + pr + fe ≤ 65 := by
  obtain ⟨k3, k5, k9, ⟨m3, r3⟩, ⟨m5, r5⟩, m9, r9⟩ := table_sizes
  have ok : ∀ (l : List (List Nat)) (n : Nat), (∀ row ∈ l, row.length = n) →
      (l.map fun row => row.map (Nat.cast : Nat → ZMod order)).find? (fun row => row.length ≠ n) = none := by
    intro l n h
    rw [List.find?_eq_none]
    intro row hrow
    obtain ⟨r, hr, rfl⟩ := List.mem_map.1 hrow
    simp [h r hr]
  constructor
  · rintro ⟨p, hp⟩
    obtain ⟨hw, -, -, -, -, hk, hl, -⟩ := new_keys _ _ _ _ _ _ _ hp
    rw [hk] at hl
    rcases hw with rfl | rfl | rfl <;> simp [consts, k3, k5, k9] at hl <;> omega
  · intro h
    unfold PoseidonParams.new
    rcases h with ⟨rfl, h⟩ | ⟨rfl, h⟩ | ⟨rfl, h⟩
    · rw [if_neg (by omega)]
      simp only [consts, entries, if_true, List.length_map, k3, m3]
      rw [if_neg (by omega), if_neg (by omega), ok mds3 3 r3]
      exact ⟨_, rfl⟩
    · rw [if_neg (by omega)]
      simp only [consts, entries, if_true, List.length_map, k5, m5, show (5 : Nat) = 3 ↔ False by decide, if_false]
      rw [if_neg (by omega), if_neg (by omega), ok mds5 5 r5]
      exact ⟨_, rfl⟩
    · rw [if_neg (by omega)]
      simp only [consts, entries, if_true, List.length_map, k9, m9, show (9 : Nat) = 3 ↔ False by decide, show (9 : Nat) = 5 ↔ False by decide, if_false]
      rw [if_neg (by omega), if_neg (by omega), ok mds9 9 r9]
      exact ⟨_, rfl⟩

/-! ## Diffusion -/

/-- at how many positions two states differ -/
def differ {F : Type} [DecidableEq F] (s t : List F) : Nat := ((Finset.range s.length).filter fun i => s[i]? ≠ t[i]?).card

theorem cast_inj {a b : Nat} (ha : a < 100) (hb : b < 100) (h : (a : ZMod order) = b) : a = b := by
  rw [mods] at h
  have : 100 < order := by decide +kernel
  rwa [Nat.mod_eq_of_lt (by omega), Nat.mod_eq_of_lt (by omega)] at h

/-- The matrices are MDS: two different states differ, before and after the linear layer, at `w + 1` positions at least. -/
theorem linear_diffuses {w fb fe pr : Nat} {p : PoseidonParams (ZMod order)} (hp : PoseidonParams.new consts entries w fb fe pr = .ok p)
    {s t : List (ZMod order)} (hs : s.length = w) (ht : t.length = w) (hst : s ≠ t) : w + 1 ≤ differ s t + differ (p.linear s) (p.linear t) := by
  obtain ⟨hw, -⟩ := new_keys _ _ _ _ _ _ _ hp
  have w9 : w ≤ 9 := by omega
  have cs : ∀ (l : List (ZMod order)) (i : Nat), i < l.length → l[i]? = some (l.getD i 0) := by
    intro l i hi
    simp [List.getD_eq_getElem?_getD, List.getElem?_eq_getElem hi]
  let J := (Finset.range w).filter fun j => s[j]? ≠ t[j]?
  let I := (Finset.range w).filter fun i => (p.linear s)[i]? = (p.linear t)[i]?
  have hJ : J.Nonempty := by
    by_contra h0
    rw [Finset.not_nonempty_iff_eq_empty] at h0
    apply hst
    apply List.ext_getElem?
    intro i
    by_cases hi : i < w
    · by_contra hne
      have : i ∈ J := by simp [J, hi, hne]
      rw [h0] at this
      simp at this
    · rw [List.getElem?_eq_none (by omega), List.getElem?_eq_none (by omega)]
  have key : I.card < J.card := by
    by_contra hle
    obtain ⟨j0, hj0⟩ := hJ
    have inj : Set.InjOn (Nat.cast : Nat → ZMod order) (I : Set Nat) := by
      intro a ha b hb h
      simp only [I, Finset.coe_filter, Finset.mem_range, Set.mem_setOf_eq] at ha hb
      exact cast_inj (by omega) (by omega) h
    have z := cauchy_zero (F := ZMod order) w J (fun j => s.getD j 0 - t.getD j 0)
      (by
        intro a ha b hb h
        simp only [J, Finset.mem_filter, Finset.mem_range] at ha hb
        exact cast_inj (by omega) (by omega) h)
      (I.image Nat.cast) (by rw [Finset.card_image_of_injOn inj]; omega)
      (by
        intro x hx j hj h0
        obtain ⟨i, hi, rfl⟩ := Finset.mem_image.1 hx
        simp only [J, I, Finset.mem_filter, Finset.mem_range] at hi hj
        have : ((i + j + w : Nat) : ZMod order) = ((0 : Nat) : ZMod order) := by push_cast; exact h0
        have := cast_inj (by omega) (by omega) this
        omega)
      (by
        intro x hx
        obtain ⟨i, hi, rfl⟩ := Finset.mem_image.1 hx
        simp only [I, Finset.mem_filter, Finset.mem_range] at hi
        obtain ⟨hi, he⟩ := hi
        have he' : p.mix s i = p.mix t i := by
          simpa [PoseidonParams.linear, hs, ht, hi] using he
        rw [mix_eq_sum, mix_eq_sum, hs, ht, ← sub_eq_zero, ← Finset.sum_sub_distrib] at he'
        refine Eq.trans ?_ he'
        have hsub : J ⊆ Finset.range w := Finset.filter_subset _ _
        rw [← Finset.sum_subset hsub]
        · refine Finset.sum_congr rfl fun j hj => ?_
          simp only [J, Finset.mem_filter, Finset.mem_range] at hj
          rw [entry_eq hp hi hj.1]
          ring
        · intro j hj hjJ
          have hj' := Finset.mem_range.1 hj
          simp only [J, Finset.mem_filter, Finset.mem_range, not_and, not_not] at hjJ
          have e := hjJ hj'
          rw [cs s j (by omega), cs t j (by omega), Option.some.injEq] at e
          rw [e, sub_self])
      j0 hj0
    simp only [J, Finset.mem_filter, Finset.mem_range] at hj0
    apply hj0.2
    rw [cs s j0 (by omega), cs t j0 (by omega), sub_eq_zero.1 z]
  have e1 : differ s t = J.card := by rw [differ, hs]
  have e2 : differ (p.linear s) (p.linear t) = w - I.card := by
    rw [differ, linear_length, hs, Finset.filter_not, Finset.card_sdiff_of_subset (Finset.filter_subset _ _), Finset.card_range]
  have e3 : I.card ≤ w := by simpa using Finset.card_filter_le (Finset.range w) _
  omega

theorem keeps {w fb fe pr : Nat} {p : PoseidonParams (ZMod order)} (hp : PoseidonParams.new consts entries w fb fe pr = .ok p) : p.Keeps w := by
  intro s t hs ht e
  by_contra hst
  have h := linear_diffuses hp hs ht hst
  rw [e] at h
  have h0 : differ (p.linear t) (p.linear t) = 0 := by simp [differ]
  have h1 : differ s t ≤ w := by
    rw [differ, hs]; simpa using Finset.card_filter_le (Finset.range w) _
  omega

/-! ## S-boxes -/

theorem quint_injective : Function.Injective (Sbox.quint.apply (F := ZMod order)) := by
  intro x y h
  have h5 : x ^ 5 = y ^ 5 := by
    simp only [Sbox.apply] at h
    linear_combination h
  by_cases hy : y = 0
  · rw [hy, zero_pow (by norm_num)] at h5
    rw [hy, pow_eq_zero_iff (by norm_num)] at *
    exact h5
  · have hx : x ≠ 0 := by
      rintro rfl
      rw [zero_pow (by norm_num), eq_comm, pow_eq_zero_iff (by norm_num)] at h5
      exact hy h5
    have hq : x / y ≠ 0 := div_ne_zero hx hy
    have a1 : (x / y) ^ 5 = 1 := by rw [div_pow, h5, div_self (pow_ne_zero _ hy)]
    have a2 : (x / y) ^ (order - 1) = 1 := ZMod.pow_card_sub_one_eq_one hq
    have d : orderOf (x / y) ∣ Nat.gcd 5 (order - 1) := Nat.dvd_gcd (orderOf_dvd_of_pow_eq_one a1) (orderOf_dvd_of_pow_eq_one a2)
    rw [show Nat.gcd 5 (order - 1) = 1 by decide +kernel, Nat.dvd_one, orderOf_eq_one_iff, div_eq_one_iff_eq hy] at d
    exact d

theorem inverse_injective : Function.Injective (Sbox.inverse.apply (F := ZMod order)) := inv_injective

/-- a cube root of unity -/
def omega : ZMod order := (228988810152649578064853576960394133503 : Nat)

theorem omega_cube : omega ^ 3 = 1 := by
  have : ((228988810152649578064853576960394133503 ^ 3 : Nat) : ZMod order) = ((1 : Nat) : ZMod order) := by rw [mods]; decide +kernel
  rw [omega]
  exact_mod_cast this

theorem omega_ne_one : omega ≠ 1 := ne_one _ (by decide +kernel)

theorem cube_omega (x : ZMod order) : Sbox.cube.apply (omega * x) = Sbox.cube.apply x := by
  simp only [Sbox.apply]
  linear_combination (x ^ 3) * omega_cube

/-! ## C180: the permutation -/

/-- C180, quint and inverse: the permutation is one, for every number of rounds: every state of the right size is the image of exactly one state. -/
theorem permutation_bijective {w fb fe pr : Nat} {p : PoseidonParams (ZMod order)} (hp : PoseidonParams.new consts entries w fb fe pr = .ok p) {sb : Sbox}
    (hsb : sb ≠ .cube) (out : List (ZMod order)) (hout : out.length = w) : ∃! s, poseidonPermutation p sb s = .ok out := by
  obtain ⟨-, hw, -⟩ := new_keys _ _ _ _ _ _ _ hp
  have inj : Function.Injective (sb.apply (F := ZMod order)) := by
    cases sb
    · exact absurd rfl hsb
    · exact inverse_injective
    · exact quint_injective
  have hlen : ∀ s : List (ZMod order), (p.permute sb s).length = s.length := fun s => by rw [PoseidonParams.permute, rounds_length]
  let g : List.Vector (ZMod order) w → List.Vector (ZMod order) w := fun s => ⟨p.permute sb s.1, by rw [hlen, s.2]⟩
  have hg : Function.Injective g := by
    intro s t h
    exact Subtype.ext (permute_injective (keeps hp) inj s.1 t.1 s.2 t.2 (congrArg Subtype.val h))
  have hg' : Function.Surjective g := Finite.surjective_of_injective hg
  obtain ⟨s, hs⟩ := hg' ⟨out, hout⟩
  refine ⟨s.1, ?_, fun t ht => ?_⟩
  · simp only [poseidonPermutation, hw, s.2, if_true, Res.ok.injEq]
    exact congrArg Subtype.val hs
  · simp only [poseidonPermutation, hw] at ht
    split at ht
    · rename_i hl
      simp only [Res.ok.injEq] at ht
      refine permute_injective (keeps hp) inj t s.1 hl s.2 ?_
      rw [ht]
      exact (congrArg Subtype.val hs).symm
    · simp at ht

theorem differ_fullSbox {F : Type} [Field F] [DecidableEq F] {f : Nat → F → F} (hf : ∀ i, Function.Injective (f i)) (s t : List F) (h : s.length = t.length) :
    differ (fullSboxF f 0 s) (fullSboxF f 0 t) = differ s t := by
  unfold differ
  rw [fullSboxF_length]
  congr 1
  apply Finset.filter_congr
  intro i hi
  have hi := Finset.mem_range.1 hi
  have e : ∀ l : List F, i < l.length → (fullSboxF f 0 l)[i]? = l[i]?.map (f i) := by
    intro l hl
    simp [fullSboxF, List.getElem?_map, List.getElem?_zipIdx, List.getElem?_eq_getElem hl]
  rw [e s hi, e t (by omega)]
  exact not_congr (Option.map_injective (hf i)).eq_iff

/-- C180: one full round spreads every change: two different states differ, before and after it, at `w + 1` positions at least; a change of one element changes
all elements. -/
theorem round_diffuses {w : Nat} {p : PoseidonParams (ZMod order)} (hp : PoseidonParams.new consts entries w 1 0 0 = .ok p) {sb : Sbox} (hsb : sb ≠ .cube)
    {s t out out' : List (ZMod order)} (h : poseidonPermutation p sb s = .ok out) (h' : poseidonPermutation p sb t = .ok out') (hst : s ≠ t) :
    w + 1 ≤ differ s t + differ out out' := by
  obtain ⟨-, hw, h1, h2, h3, -⟩ := new_keys _ _ _ _ _ _ _ hp
  have inj : Function.Injective (sb.apply (F := ZMod order)) := by
    cases sb
    · exact absurd rfl hsb
    · exact inverse_injective
    · exact quint_injective
  have hf : ∀ i, Function.Injective fun x => sb.apply (x + p.key i) := fun i x y h => add_right_cancel (inj h)
  have eq : ∀ s : List (ZMod order), p.permute sb s = p.linear (fullSboxF (fun off x => sb.apply (x + p.key off)) 0 s) := by
    intro s
    simp [PoseidonParams.permute, PoseidonParams.rounds, h1, h2, h3, PoseidonParams.full, PoseidonParams.partials]
  unfold poseidonPermutation at h h'
  split at h
  · rename_i hs
    split at h'
    · rename_i ht
      simp only [Res.ok.injEq, eq] at h h'
      rw [← h, ← h', ← differ_fullSbox hf s t (hs.trans ht.symm)]
      refine linear_diffuses hp (by rw [fullSboxF_length, hs, hw]) (by rw [fullSboxF_length, ht, hw]) fun e => hst ?_
      exact fullSbox_injective hf s t 0 (hs.trans ht.symm) e
    · simp at h'
  · simp at h

/-- C180, negation for the cube: 3 divides the order minus 1, so the first full round forgets a factor.  Whatever the inputs and the numbers of rounds, as
long as there is a full round at the beginning: `x` at position `i` may be replaced by `ω (x + c) - c` with the round constant `c` of this position, and the
hash is the same; it is another value unless `x = -c`. -/
theorem cube_collision {k fb fe pr : Nat} {p : PoseidonParams (ZMod order)} (hp : PoseidonParams.new consts entries (k + 1) fb fe pr = .ok p) (hfb : 0 < fb)
    (xs : List (ZMod order)) (i : Nat) (x : ZMod order) (hx : xs[i]? = some x) :
    poseidonHash k p .cube (xs.set i (omega * (x + (consts (k + 1)).getD (i + 1) 0) - (consts (k + 1)).getD (i + 1) 0)) = poseidonHash k p .cube xs ∧
      (xs.set i (omega * (x + (consts (k + 1)).getD (i + 1) 0) - (consts (k + 1)).getD (i + 1) 0) = xs ↔ x = -(consts (k + 1)).getD (i + 1) 0) := by
  obtain ⟨hw3, hw, hb, -, -, hk, hkl, -⟩ := new_keys _ _ _ _ _ _ _ hp
  generalize hc : (consts (k + 1)).getD (i + 1) 0 = c
  have hi : i < xs.length := (List.getElem?_eq_some_iff.1 hx).1
  constructor
  · by_cases hl : xs.length = k
    · unfold poseidonHash poseidonPermutation
      simp only [List.length_set, List.length_cons, hl, hw, ne_eq, not_true_eq_false, if_false, if_true, Res.ok_bind]
      congr 2
      refine permute_congr (by omega) _ _ (by simp) fun j a b ha hb' => ?_
      match j with
      | 0 => simp only [List.getElem?_cons_zero, Option.some.injEq] at ha hb'; rw [← ha, ← hb']
      | j + 1 =>
        simp only [List.getElem?_cons_succ] at ha hb'
        rw [List.getElem?_set] at ha
        split at ha
        · rename_i hij
          subst hij
          rw [hx, Option.some.injEq] at hb'
          simp only [hi, if_true, Option.some.injEq] at ha
          subst hb' ha
          have hkey : p.key (i + 1) = c := by
            have h1 : 1 * (k + 1) ≤ (fb + pr + fe) * (k + 1) := Nat.mul_le_mul_right _ (by omega)
            have h2 : i + 1 < (fb + pr + fe) * (k + 1) := by omega
            rw [PoseidonParams.key, hk, List.getD_eq_getElem?_getD, List.getElem?_take, if_pos h2, ← List.getD_eq_getElem?_getD, hc]
          rw [hkey, show omega * (x + c) - c + c = omega * (x + c) by ring, cube_omega]
        · rw [ha, Option.some.injEq] at hb'
          rw [hb']
    · unfold poseidonHash
      rw [if_pos (by simpa using hl), if_pos (by simpa using hl), List.length_set]
  · constructor
    · intro e
      have e2 := congrArg (fun l => l[i]?) e
      simp only [List.getElem?_set, hi, if_true, hx, Option.some.injEq] at e2
      have e3 : (omega - 1) * (x + c) = 0 := by linear_combination e2
      rcases mul_eq_zero.1 e3 with h | h
      · exact absurd (sub_eq_zero.1 h) omega_ne_one
      · exact eq_neg_of_add_eq_zero_left h
    · rintro rfl
      rw [neg_add_cancel, mul_zero, zero_sub]
      apply List.ext_getElem?
      intro j
      rw [List.getElem?_set]
      split
      · rename_i h; subst h; rw [hx]
      · rfl

/-- C180: the hypotheses are met: 4 full rounds, 55 partial rounds and 4 full rounds at width 3, and the cube loses an input at the position of `x = 0` -/
theorem perm_met : (∃ p, PoseidonParams.new consts entries 3 4 4 55 = .ok p) ∧ (∃ p, PoseidonParams.new consts entries 5 1 0 0 = .ok p) ∧
    ((0 : ZMod order) ≠ -(consts 3).getD 1 0) := by
  refine ⟨(params_exist 3 4 4 55).2 (by omega), (params_exist 5 1 0 0).2 (by omega), fun h => ?_⟩
  have h2 : (consts 3).getD 1 0 = 0 := by rw [← neg_eq_zero]; exact h.symm
  have h3 : (consts 3).getD 1 0 = ((keys3.getD 1 0 : Nat) : ZMod order) := by rw [consts, if_pos rfl, getD_cast]
  rw [h3, show (0 : ZMod order) = ((0 : Nat) : ZMod order) by simp, mods] at h2
  revert h2
  decide +kernel

/-! ## C181: trees with this hash function -/

theorem merkle_cube {k fb fe pr : Nat} {p : PoseidonParams (ZMod order)} (hp : PoseidonParams.new consts entries (k + 1) fb fe pr = .ok p) (hfb : 0 < fb)
    (sib : List (ZMod order)) (d : Nat) (val c : ZMod order) (hc : (consts (k + 1)).getD (d + 1) 0 = c) :
    merkleHash k p .cube (sib.insertIdx d (omega * (val + c) - c)) = merkleHash k p .cube (sib.insertIdx d val) := by
  by_cases hd : d ≤ sib.length
  · have e : sib.insertIdx d (omega * (val + c) - c) = (sib.insertIdx d val).set d (omega * (val + c) - c) := by
      apply List.ext_getElem?
      intro j
      rw [List.getElem?_set]
      rcases lt_trichotomy j d with h | h | h
      · rw [if_neg (by omega), List.getElem?_insertIdx_of_lt h, List.getElem?_insertIdx_of_lt h]
      · subst h
        rw [if_pos rfl, List.getElem?_insertIdx_self, if_pos hd, if_pos (by rw [List.length_insertIdx, if_pos hd]; omega)]
      · rw [if_neg (by omega), List.getElem?_insertIdx_of_gt h, List.getElem?_insertIdx_of_gt h]
    have hx : (sib.insertIdx d val)[d]? = some val := by rw [List.getElem?_insertIdx_self, if_pos hd]
    have := (cube_collision hp hfb (sib.insertIdx d val) d val hx).1
    rw [hc, ← e] at this
    unfold merkleHash
    rw [this]
    simp [List.length_insertIdx]
  · rw [List.insertIdx_of_length_lt (by omega), List.insertIdx_of_length_lt (by omega)]

theorem rev_digits (b s n : Nat) : (reprPow2 b s (n + 1)).reverse = s % 2 ^ b :: (digitsLow b (s / 2 ^ b) n) := by
  rw [reprPow2, List.reverse_reverse, digitsLow_eq, digitsLow_eq, List.range_succ_eq_map]
  simp [Nat.div_div_eq_div_mul, pow_succ, Nat.mul_comm, Function.comp_def]

/-- C181, negation: with the cube a proof for one value of a leaf is a proof for another one (and `verify_proof` gives the same answer for both, whatever the
proof is); the two values are different unless `val = -c`. -/
theorem cube_proof {b fb fe pr : Nat} {p : PoseidonParams (ZMod order)} (hp : PoseidonParams.new consts entries (2 ^ b + 1) fb fe pr = .ok p) (hfb : 0 < fb)
    (rep : ZMod order → Nat) (depth : Nat) (hd : 0 < depth) (current idx val : ZMod order) (proof : List (List (ZMod order))) (root : Option (ZMod order))
    (c : ZMod order) (hc : (consts (2 ^ b + 1)).getD (rep idx % 2 ^ b + 1) 0 = c) :
    treeVerify b (merkleHash (2 ^ b) p .cube) rep depth current idx (omega * (val + c) - c) proof root =
        treeVerify b (merkleHash (2 ^ b) p .cube) rep depth current idx val proof root ∧ (omega * (val + c) - c = val ↔ val = -c) := by
  obtain ⟨n, rfl⟩ : ∃ n, depth = n + 1 := ⟨depth - 1, by omega⟩
  constructor
  · have e : treeVerifyLoop (merkleHash (2 ^ b) p .cube) proof (n + 1) 0 (reprPow2 b (rep idx) (n + 1)).reverse (omega * (val + c) - c) =
        treeVerifyLoop (merkleHash (2 ^ b) p .cube) proof (n + 1) 0 (reprPow2 b (rep idx) (n + 1)).reverse val := by
      rw [rev_digits]
      simp only [treeVerifyLoop]
      congr 1
      funext q
      rw [merkle_cube hp hfb q (rep idx % 2 ^ b) val c hc]
    unfold treeVerify
    rw [e]
  · constructor
    · intro h
      have e3 : (omega - 1) * (val + c) = 0 := by linear_combination h
      rcases mul_eq_zero.1 e3 with h | h
      · exact absurd (sub_eq_zero.1 h) omega_ne_one
      · exact eq_neg_of_add_eq_zero_left h
    · rintro rfl
      ring

/-- C181, negation: `update` gives the same root for both values -/
theorem cube_update {b fb fe pr : Nat} {p : PoseidonParams (ZMod order)} (hp : PoseidonParams.new consts entries (2 ^ b + 1) fb fe pr = .ok p) (hfb : 0 < fb)
    (rep : ZMod order → Nat) (depth : Nat) (hd : 0 < depth) (root idx val : ZMod order) (db : HashDb (ZMod order)) (c : ZMod order)
    (hc : (consts (2 ^ b + 1)).getD (rep idx % 2 ^ b + 1) 0 = c) (r : ZMod order) :
    (∃ db', treeUpdate b (merkleHash (2 ^ b) p .cube) rep depth root idx val db = .ok (r, db')) →
      ∃ db', treeUpdate b (merkleHash (2 ^ b) p .cube) rep depth root idx (omega * (val + c) - c) db = .ok (r, db') := by
  obtain ⟨n, rfl⟩ : ∃ n, depth = n + 1 := ⟨depth - 1, by omega⟩
  rintro ⟨db', h⟩
  have root_only : ∀ (ds : List Nat) (ss : List (List (ZMod order))) (v : ZMod order) (d1 d2 d1' : HashDb (ZMod order)) (r : ZMod order),
      treeUpdateLoop (merkleHash (2 ^ b) p .cube) ds ss v d1 = .ok (r, d1') →
        ∃ d2', treeUpdateLoop (merkleHash (2 ^ b) p .cube) ds ss v d2 = .ok (r, d2') := by
    intro ds
    induction ds with
    | nil =>
      intro ss v d1 d2 d1' r h
      simp only [treeUpdateLoop, Res.ok.injEq, Prod.mk.injEq] at h ⊢
      exact ⟨d2, h.1, rfl⟩
    | cons d ds ih =>
      intro ss v d1 d2 d1' r h
      match ss with
      | [] => simp [treeUpdateLoop] at h
      | s :: ss =>
        simp only [treeUpdateLoop] at h ⊢
        obtain ⟨y, h1, h2⟩ := Res.bind_eq_ok.1 h
        rw [h1, Res.ok_bind]
        exact ih ss y _ _ d1' r h2
  unfold treeUpdate at h ⊢
  obtain ⟨q, h1, h2⟩ := Res.bind_eq_ok.1 h
  rw [h1, Res.ok_bind]
  rw [rev_digits] at h2 ⊢
  match hq : q.2.reverse with
  | [] => rw [hq] at h2; simp [treeUpdateLoop] at h2
  | s :: ss =>
    rw [hq] at h2
    simp only [treeUpdateLoop] at h2 ⊢
    obtain ⟨y, h3, h4⟩ := Res.bind_eq_ok.1 h2
    rw [merkle_cube hp hfb s (rep idx % 2 ^ b) val c hc, h3, Res.ok_bind]
    exact root_only _ _ _ _ _ _ _ h4

end Bls381
end Verif.BP
