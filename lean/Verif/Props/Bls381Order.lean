import Verif.BP.PoseidonConstants
import Mathlib.NumberTheory.LucasPrimality
import Mathlib.FieldTheory.Finite.Basic
import Mathlib.Tactic.NormNum.Prime
/-!
# The order of the group of BLS12-381 is a prime

Lucas' test with the base 7; the powers are computed by squaring inside the kernel.
-/
namespace Verif.BP.Bls381

/-- `a ^ b % m` by squaring; `n` bounds the number of bits of `b` -/
def powMod (m a : Nat) : Nat → Nat → Nat
  | 0, _ => 1 % m
  | n + 1, b => if b % 2 = 1 then powMod m (a * a % m) n (b / 2) * a % m else powMod m (a * a % m) n (b / 2)

theorem powMod_eq (m : Nat) : ∀ (n a b : Nat), b < 2 ^ n → powMod m a n b = a ^ b % m
  | 0, a, b, h => by
    have : b = 0 := by simpa using h
    subst this; simp [powMod]
  | n + 1, a, b, h => by
    have hb : b / 2 < 2 ^ n := by rw [pow_succ] at h; omega
    have key : powMod m (a * a % m) n (b / 2) = (a * a) ^ (b / 2) % m := by
      rw [powMod_eq m n _ _ hb, ← Nat.pow_mod]
    unfold powMod
    rw [key, ← pow_two, ← pow_mul]
    split
    · rename_i h2
      rw [Nat.mod_mul_mod, ← pow_succ]
      congr 2; omega
    · rename_i h2
      congr 2; omega

theorem order_pred : order - 1 = 2 ^ 32 * 3 * 11 * 19 * 10177 * 125527 * 859267 * 906349 ^ 2 * 2508409 * 2529403 * 52437899 * 254760293 ^ 2 := by decide +kernel

/-- a power of 7 in the field, computed -/
theorem pow7 (b c : Nat) (hb : b < 2 ^ 255) (h : powMod order 7 255 b = c) : ((7 : ZMod order)) ^ b = (c : Nat) := by
  rw [powMod_eq _ _ _ _ hb] at h
  rw [← h]
  have : ((7 : ZMod order)) ^ b = ((7 ^ b : Nat) : ZMod order) := by push_cast; rfl
  rw [this, ZMod.natCast_eq_natCast_iff', Nat.mod_mod]

theorem ne_one (c : Nat) (h1 : c % order ≠ 1) : ((c : Nat) : ZMod order) ≠ 1 := by
  intro h
  have h2 : ((c : Nat) : ZMod order) = ((1 : Nat) : ZMod order) := by simpa using h
  rw [ZMod.natCast_eq_natCast_iff'] at h2
  exact h1 (h2.trans (by decide +kernel))

/-- The order of the group is a prime number. -/
theorem order_prime : order.Prime := by
  apply lucas_primality order 7
  · rw [pow7 (order - 1) 1 (by decide +kernel) (by decide +kernel)]; simp
  · intro q hq hd
    have small : q ∈ [2, 3, 11, 19, 10177, 125527, 859267, 906349, 2508409, 2529403, 52437899, 254760293] := by
      rw [order_pred] at hd
      have step : ∀ {p : Nat}, p.Prime → q ∣ p → q = p := fun hp h => (Nat.prime_dvd_prime_iff_eq hq hp).1 h
      simp only [hq.dvd_mul] at hd
      simp only [List.mem_cons, List.not_mem_nil, or_false]
      rcases hd with ((((((((((( h | h) | h) | h) | h) | h) | h) | h) | h) | h) | h) | h)
      · exact Or.inl (step (by norm_num) (hq.dvd_of_dvd_pow h))
      · have := step (by norm_num) h; tauto
      · have := step (by norm_num) h; tauto
      · have := step (by norm_num) h; tauto
      · have := step (by norm_num) h; tauto
      · have := step (by norm_num) h; tauto
      · have := step (by norm_num) h; tauto
      · have := step (p := 906349) (by norm_num) (hq.dvd_of_dvd_pow h); tauto
      · have := step (by norm_num) h; tauto
      · have := step (by norm_num) h; tauto
      · have := step (by norm_num) h; tauto
      · have := step (p := 254760293) (by norm_num) (hq.dvd_of_dvd_pow h); tauto
    have hb : (order - 1) / q < 2 ^ 255 := lt_of_le_of_lt (Nat.div_le_self _ _) (by decide +kernel)
    rw [pow7 _ _ hb rfl]
    apply ne_one
    have all : ∀ q ∈ [2, 3, 11, 19, 10177, 125527, 859267, 906349, 2508409, 2529403, 52437899, 254760293],
        powMod order 7 255 ((order - 1) / q) % order ≠ 1 := by decide +kernel
    exact all q small

instance fact : Fact order.Prime := ⟨order_prime⟩

end Verif.BP.Bls381
