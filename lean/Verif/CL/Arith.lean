import Verif.Props.BN
import Mathlib.Data.ZMod.Units
import Mathlib.Data.ZMod.Basic
/-!
# Bridge between the integer operations of `BigNumber` and the unit group modulo `n`

No model of code here: lemmas that say what `mod_exp`, `mod_mul`, `inverse`, `mod_div` compute on representatives of
units.
-/
namespace Verif.CL

open Verif BN

/-- canonical representative in `[0, n)` of a unit modulo `n` -/
def val {n : Nat} (u : (ZMod n)ˣ) : Int := ((u : ZMod n).val : Int)

/-- the non-negative integer `a` represents the unit `u` -/
def Rep {n : Nat} (a : Int) (u : (ZMod n)ˣ) : Prop := 0 ≤ a ∧ ((a : Int) : ZMod n) = (u : ZMod n)

variable {n : Nat}

theorem val_nonneg (u : (ZMod n)ˣ) : 0 ≤ val u := Int.natCast_nonneg _

theorem val_lt [NeZero n] (u : (ZMod n)ˣ) : val u < n := by
  unfold val; exact_mod_cast ZMod.val_lt _

theorem cast_val [NeZero n] (u : (ZMod n)ˣ) : ((val u : Int) : ZMod n) = (u : ZMod n) := by
  unfold val; simp

theorem rep_val [NeZero n] (u : (ZMod n)ˣ) : Rep (val u) u := ⟨val_nonneg u, cast_val u⟩

theorem val_injective [NeZero n] : Function.Injective (val (n := n)) := by
  intro u w h
  apply Units.ext
  rw [← cast_val u, ← cast_val w, h]

theorem Rep.unique {a : Int} {u w : (ZMod n)ˣ} (h : Rep a u) (h' : Rep a w) : u = w :=
  Units.ext (h.2.symm.trans h'.2)

/-- a canonical representative is determined by its residue class -/
theorem eq_val [NeZero n] {r : Int} {u : (ZMod n)ˣ} (h0 : 0 ≤ r) (h1 : r < n) (h : ((r : Int) : ZMod n) = u) : r = val u := by
  have h2 : ((r : Int) : ZMod n) = ((val u : Int) : ZMod n) := by rw [h, cast_val]
  rw [ZMod.intCast_eq_intCast_iff] at h2
  have h3 : r % n = val u % n := h2
  rwa [Int.emod_eq_of_lt h0 h1, Int.emod_eq_of_lt (val_nonneg u) (val_lt u)] at h3

theorem Rep.gcd {a : Int} {u : (ZMod n)ˣ} (h : Rep a u) : Int.gcd a n = 1 := by
  have : IsUnit ((a : Int) : ZMod n) := by rw [h.2]; exact u.isUnit
  rw [ZMod.coe_int_isUnit_iff_isCoprime] at this
  have := Int.isCoprime_iff_gcd_eq_one.1 this
  rwa [Int.gcd_comm]

theorem one_lt_abs (hn : 1 < n) : 1 < |(n : Int)| := by
  rw [abs_of_nonneg (by omega)]; exact_mod_cast hn

theorem neZero_of (hn : 1 < n) : NeZero n := ⟨by omega⟩

theorem Rep.modMul [NeZero n] {a b : Int} {u w : (ZMod n)ˣ} (ha : Rep a u) (hb : Rep b w) :
    BN.modMul a b n = .ok (val (u * w)) := by
  have hn : (0 : Int) < n := by have := NeZero.ne n; omega
  unfold BN.modMul
  rw [modulus_eq_emod _ _ hn]
  congr 1
  apply eq_val (Int.emod_nonneg _ hn.ne') (Int.emod_lt_of_pos _ hn)
  rw [ZMod.intCast_mod, Int.cast_mul, ha.2, hb.2, Units.val_mul]

theorem Rep.inverse (hn : 1 < n) {a : Int} {u : (ZMod n)ˣ} (h : Rep a u) : BN.inverse a n = .ok (val u⁻¹) := by
  have := neZero_of hn
  obtain ⟨x, h1, h2, h3, h4⟩ := (inverse_spec a n h.1 (one_lt_abs hn)).1 h.gcd
  rw [h1]
  congr 1
  rw [abs_of_nonneg (by omega)] at h3
  apply eq_val h2 h3
  have h5 : ((a * x : Int) : ZMod n) = ((1 : Int) : ZMod n) := (ZMod.intCast_eq_intCast_iff _ _ _).2 h4
  rw [Int.cast_mul, h.2, Int.cast_one] at h5
  exact (Units.eq_inv_of_mul_eq_one_right (by rw [mul_comm]; exact h5))

theorem Rep.modExp (hn : 1 < n) {a : Int} {u : (ZMod n)ˣ} (h : Rep a u) (k : Int) : BN.modExp a k n = .ok (val (u ^ k)) := by
  have := neZero_of hn
  have hn0 : (n : Int) ≠ 0 := by omega
  by_cases hk : 0 ≤ k
  · obtain ⟨r, h1, h2, h3, h4⟩ := mod_exp_nonneg_spec a k n hk hn0
    rw [h1]
    congr 1
    rw [abs_of_nonneg (by omega)] at h3
    apply eq_val h2 h3
    have h5 := (ZMod.intCast_eq_intCast_iff _ _ n).2 h4
    rw [h5, Int.cast_pow, h.2]
    obtain ⟨m, rfl⟩ := Int.eq_ofNat_of_zero_le hk
    simp
  · obtain ⟨r, h1, h2, h3, h4⟩ := (mod_exp_neg_spec a k n h.1 (by omega) (one_lt_abs hn)).1 h.gcd
    rw [h1]
    congr 1
    rw [abs_of_nonneg (by omega)] at h3
    apply eq_val h2 h3
    have h5 := (ZMod.intCast_eq_intCast_iff _ _ n).2 h4
    rw [Int.cast_mul, Int.cast_pow, h.2, Int.cast_one] at h5
    obtain ⟨m, hm⟩ := Int.eq_ofNat_of_zero_le (a := -k) (by omega)
    have hk' : k = -(m : Int) := by omega
    subst hk'
    have h6 : (- -(m : Int)).toNat = m := by omega
    rw [h6] at h5
    rw [zpow_neg, zpow_natCast]
    apply Units.eq_inv_of_mul_eq_one_left
    rw [Units.val_pow_eq_pow_val, mul_comm, h5]

theorem Rep.modDiv (hn : 1 < n) {a b : Int} {u w : (ZMod n)ˣ} (ha : Rep a u) (hb : Rep b w) :
    BN.modDiv a b n = .ok (val (u / w)) := by
  have := neZero_of hn
  unfold BN.modDiv
  rw [hb.inverse hn, Res.ok_bind]
  exact ha.modMul (rep_val _)

/-- the representative may be left unreduced by a plain product -/
theorem Rep.mul {a b : Int} {u w : (ZMod n)ˣ} (ha : Rep a u) (hb : Rep b w) : Rep (a * b) (u * w) :=
  ⟨mul_nonneg ha.1 hb.1, by rw [Int.cast_mul, ha.2, hb.2, Units.val_mul]⟩

theorem rep_one : Rep (1 : Int) (1 : (ZMod n)ˣ) := ⟨by norm_num, by simp⟩

theorem exists_rep {a : Int} (h0 : 0 ≤ a) (h : Int.gcd a n = 1) : ∃ u : (ZMod n)ˣ, Rep a u := by
  have : IsUnit ((a : Int) : ZMod n) := by
    rw [ZMod.coe_int_isUnit_iff_isCoprime, Int.isCoprime_iff_gcd_eq_one, Int.gcd_comm]
    exact h
  obtain ⟨u, hu⟩ := this
  exact ⟨u, h0, hu.symm⟩

/-- reducing a square of a number coprime to `n` gives a representative of the square -/
theorem rep_modulus [NeZero n] {a : Int} {w : (ZMod n)ˣ} (h : ((a : Int) : ZMod n) = w) : BN.modulus a n = .ok (val w) := by
  have hn : (0 : Int) < n := by have := NeZero.ne n; omega
  rw [modulus_eq_emod _ _ hn]
  congr 1
  apply eq_val (Int.emod_nonneg _ hn.ne') (Int.emod_lt_of_pos _ hn)
  rw [ZMod.intCast_mod, h]

end Verif.CL
