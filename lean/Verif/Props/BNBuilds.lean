import Verif.BN.OpenSSL
import Verif.Props.BN
import Mathlib.Tactic.NormNum.Prime
import Mathlib.Tactic.IntervalCases

/-!
# C161-C163: the two `BigNumber` backends compared; primes in a range and safe primes
-/

set_option linter.unusedSimpArgs false
set_option linter.unusedVariables false

namespace Verif.BN

/-! ## Specification -/

/-- The two builds give the same: the same value, or an error both. -/
def Agree {α : Type} (rust : Res String α) (ossl : Res Unit α) : Prop :=
  (∃ v, rust = .ok v ∧ ossl = .ok v) ∨ ((∃ e, rust = .err e) ∧ ossl = .err ())

theorem Agree.ok {α : Type} (v : α) : Agree (.ok v) (.ok v) := Or.inl ⟨v, rfl, rfl⟩
theorem Agree.err {α : Type} (e : String) : Agree (.err e : Res String α) (.err ()) := Or.inr ⟨⟨e, rfl⟩, rfl⟩

theorem agree_ok_iff {α : Type} (v w : α) : Agree (.ok v) (.ok w) ↔ v = w := by
  constructor
  · rintro (⟨x, h1, h2⟩ | ⟨⟨e, h⟩, -⟩)
    · simp only [Res.ok.injEq] at h1 h2
      rw [h1, h2]
    · cases h
  · rintro rfl
    exact Agree.ok v

/-! ## C161: where they agree -/

/-- C161: operations without modulus, on all integers. -/
theorem agree_plain (a b : Int) (w : Nat) (bs : Bytes) (negative : Bool) :
    add a b = Ossl.add a b ∧ sub a b = Ossl.sub a b ∧ mul a b = Ossl.mul a b ∧ sqr a = Ossl.sqr a ∧
    gcd a b = Ossl.gcd a b ∧ cmp a b = Ossl.cmp a b ∧ numBits a = Ossl.numBits a ∧ fromBytes bs = Ossl.fromBytes bs ∧
    addWord a w = Ossl.addWord a w ∧ subWord a w = Ossl.subWord a w ∧ mulWord a w = Ossl.mulWord a w ∧
    lshift1 a = Ossl.lshift1 a ∧ setNegative a negative = Ossl.setNegative a negative ∧
    Agree (div a b) (Ossl.div a b) ∧ Agree (divWord a w) (Ossl.divWord a w) := by
  refine ⟨rfl, rfl, rfl, rfl, rfl, rfl, rfl, rfl, rfl, rfl, rfl, ?_, ?_, ?_, ?_⟩
  · unfold lshift1 Ossl.lshift1
    ring
  · unfold setNegative Ossl.setNegative
    by_cases h : a < 0
    · cases negative <;> simp only [h, decide_true, if_true, Bool.false_eq_true, if_false] <;> omega
    · cases negative <;> simp only [h, decide_false, if_true, Bool.false_eq_true, if_false] <;> omega
  · unfold div Ossl.div
    by_cases h : b = 0
    · rw [if_pos h, if_pos h]; exact Agree.err _
    · rw [if_neg h, if_neg h]; exact Agree.ok _
  · unfold divWord Ossl.divWord
    by_cases h : w = 0
    · rw [if_pos h, if_pos h]; exact Agree.err _
    · rw [if_neg h, if_neg h, agree_ok_iff]
      by_cases ha : a < 0
      · rw [if_pos ha]
        obtain ⟨m, rfl⟩ : ∃ m : Nat, a = -(m : Int) := ⟨a.natAbs, by omega⟩
        rw [Int.neg_tdiv, Int.natAbs_neg, Int.natAbs_natCast]
        congr 1
      · rw [if_neg ha]
        obtain ⟨m, rfl⟩ : ∃ m : Nat, a = (m : Int) := ⟨a.natAbs, by omega⟩
        rw [Int.natAbs_natCast]
        rfl

/-- C161: a copy is equal to the original in both builds. -/
theorem agree_clone (a : Int) : tryClone a = a ∧ Ossl.tryClone a = a := by
  refine ⟨rfl, ?_⟩
  have h : ((ofBe (Ossl.toBytes a) : Nat) : Int) = (a.natAbs : Int) := by
    by_cases h0 : a = 0
    · subst h0; rfl
    · have h1 := from_to_bytes (a.natAbs : Int) (by omega)
      unfold fromBytes toBytes at h1
      rw [if_neg (by omega), Int.natAbs_natCast] at h1
      exact h1
  unfold Ossl.tryClone
  rw [h]
  unfold Ossl.setNegative
  by_cases h : a < 0
  · rw [if_pos (decide_eq_true h)]; omega
  · rw [if_neg (by simpa using h)]; omega

theorem ossl_modulus_eq (a n : Int) (hn : n ≠ 0) : Ossl.modulus a n = .ok (a % |n|) := by
  unfold Ossl.modulus
  rw [if_neg hn]
  simp only [Res.ok.injEq]
  have hp : 0 < |n| := abs_pos.2 hn
  have h2 : a % |n| < |n| := Int.emod_lt_of_pos _ hp
  have h3 : 0 ≤ a % |n| := Int.emod_nonneg _ hp.ne'
  have h4 : a % n = a % |n| := (Int.emod_abs a n).symm
  rw [Int.tmod_eq_emod, h4]
  have habs : ((n.natAbs : Nat) : Int) = |n| := (Int.abs_eq_natAbs n).symm
  by_cases h : 0 ≤ a ∨ n ∣ a
  · rw [if_pos h, Nat.cast_zero, sub_zero, if_neg (by omega)]
  · rw [if_neg h, habs, if_pos (by omega)]
    by_cases hneg : n < 0
    · rw [if_pos hneg, abs_of_neg hneg]
      ring
    · rw [if_neg hneg, abs_of_nonneg (by omega)]
      ring

theorem modulus_eq_abs (a n : Int) (hn : n ≠ 0) : modulus a n = .ok (a % |n|) := by
  obtain ⟨r, h, hc⟩ := modulus_spec a n hn
  rw [h, hc.unique (canonical_emod n a hn)]

/-- C161: reduction, multiplication and subtraction modulo any number, zero and negative ones included. -/
theorem agree_modulus (a b n : Int) :
    Agree (modulus a n) (Ossl.modulus a n) ∧ Agree (modMul a b n) (Ossl.modMul a b n) ∧
    Agree (modSub a b n) (Ossl.modSub a b n) := by
  have key : ∀ x, Agree (modulus x n) (Ossl.modulus x n) := by
    intro x
    by_cases hn : n = 0
    · subst hn
      exact Agree.err _
    · rw [modulus_eq_abs x n hn, ossl_modulus_eq x n hn]
      exact Agree.ok _
  exact ⟨key _, key _, key _⟩

/-- The inverse of OpenSSL is the canonical inverse, for all operands, negative ones included. -/
theorem ossl_inverse_spec (inv1 : Bool) (a n : Int) (hn : 1 < |n|) :
    (Int.gcd a n = 1 → ∃ x, Ossl.inverse inv1 a n = .ok x ∧ 0 ≤ x ∧ x < |n| ∧ a * x ≡ 1 [ZMOD n]) ∧
    (Int.gcd a n ≠ 1 → Ossl.inverse inv1 a n = .err ()) := by
  have h0 : n ≠ 0 := by rintro rfl; simp at hn
  have h1 : ¬ (n = 1 ∨ n = -1) := by rintro (rfl | rfl) <;> simp at hn
  constructor
  · intro hg
    refine ⟨Int.gcdA a n % |n|, by simp [Ossl.inverse, h0, h1, hg], Int.emod_nonneg _ (by omega),
      Int.emod_lt_of_pos _ (by omega), ?_⟩
    have hb := Int.gcd_eq_gcd_ab a n
    rw [hg] at hb
    have hc := (canonical_emod n (Int.gcdA a n) h0).2.2
    calc a * (Int.gcdA a n % |n|) ≡ a * Int.gcdA a n [ZMOD n] := hc.mul_left _
      _ ≡ 1 [ZMOD n] := by
        rw [Int.modEq_iff_dvd]
        exact ⟨Int.gcdB a n, by push_cast at hb; linarith⟩
  · intro hg
    simp [Ossl.inverse, h0, h1, hg]

theorem inverse_unique {a n x y : Int} (hx : 0 ≤ x ∧ x < |n| ∧ a * x ≡ 1 [ZMOD n])
    (hy : 0 ≤ y ∧ y < |n| ∧ a * y ≡ 1 [ZMOD n]) : x = y := by
  have h : x ≡ y [ZMOD n] := by
    calc x = x * 1 := (mul_one x).symm
      _ ≡ x * (a * y) [ZMOD n] := hy.2.2.symm.mul_left _
      _ = (a * x) * y := by ring
      _ ≡ 1 * y [ZMOD n] := hx.2.2.mul_right _
      _ = y := one_mul y
  exact Canonical.unique (a := x) ⟨hx.1, hx.2.1, Int.ModEq.refl _⟩ ⟨hy.1, hy.2.1, h.symm⟩

/-- C161: inverses of numbers that are not negative, modulo numbers other than 0, 1 and -1. -/
theorem agree_inverse (inv1 : Bool) (a n : Int) (ha : 0 ≤ a) (hn : 1 < |n|) :
    Agree (inverse a n) (Ossl.inverse inv1 a n) := by
  obtain ⟨h1, h2⟩ := inverse_spec a n ha hn
  obtain ⟨g1, g2⟩ := ossl_inverse_spec inv1 a n hn
  by_cases hg : Int.gcd a n = 1
  · obtain ⟨x, hx, hx'⟩ := h1 hg
    obtain ⟨y, hy, hy'⟩ := g1 hg
    rw [hx, hy, inverse_unique hx' hy']
    exact Agree.ok _
  · rw [h2 hg, g2 hg]
    exact Agree.err _

theorem ossl_bnModExp_eq (a e n : Int) (he : 0 ≤ e) (hn : n ≠ 0) : Ossl.bnModExp a e n = .ok (a ^ e.toNat % |n|) := by
  unfold Ossl.bnModExp
  by_cases h : e = 0
  · subst h
    simp only [if_true, Int.toNat_zero, pow_zero, Res.ok.injEq]
    by_cases h1 : n = 1 ∨ n = -1
    · rw [if_pos h1]
      rcases h1 with rfl | rfl <;> rfl
    · rw [if_neg h1]
      have : 1 < |n| := by
        rcases lt_or_ge n 0 with h | h
        · rw [abs_of_neg h]; omega
        · rw [abs_of_nonneg h]; omega
      rw [Int.emod_eq_of_lt (by omega) this]
  · rw [if_neg h, if_neg hn]

theorem modExp_nonneg_eq (a e n : Int) (he : 0 ≤ e) (hn : n ≠ 0) : modExp a e n = .ok (a ^ e.toNat % |n|) := by
  obtain ⟨r, h, hc⟩ := mod_exp_nonneg_spec a e n he hn
  rw [h, hc.unique (canonical_emod n _ hn)]

/-- C161: powers with exponents that are not negative modulo any number but 0, of any base; and with negative exponents for
bases that are not negative, modulo numbers other than 0, 1 and -1. -/
theorem agree_mod_exp (inv1 : Bool) (a e n : Int) (h : (0 ≤ e ∧ n ≠ 0) ∨ (0 ≤ a ∧ 1 < |n|)) :
    Agree (modExp a e n) (Ossl.modExp inv1 a e n) := by
  by_cases he : e < 0
  · rcases h with h | ⟨ha, hn⟩
    · omega
    have hn0 : n ≠ 0 := by rintro rfl; simp at hn
    have hn1 : n ≠ 1 := by rintro rfl; simp at hn
    have hse : setNegative e false = -e := by simp [setNegative, he]
    have hse' : Ossl.setNegative e false = -e := by simp [Ossl.setNegative]; omega
    have hag := agree_inverse inv1 a n ha hn
    unfold modExp Ossl.modExp
    rw [if_neg hn1, if_pos he, if_pos he]
    rcases hag with ⟨v, h1, h2⟩ | ⟨⟨m, h1⟩, h2⟩
    · rw [h1, h2, Res.ok_bind, Res.ok_bind, hse, hse', ossl_bnModExp_eq v (-e) n (by omega) hn0, getModulus_eq]
      obtain ⟨r, hr, hc⟩ := modpow_spec v (-e) n (by omega) hn0
      rw [hr, hc.unique (canonical_emod n _ hn0)]
      exact Agree.ok _
    · rw [h1, h2]
      exact Agree.err _
  · have hn : n ≠ 0 := by
      rcases h with h | h
      · exact h.2
      · rintro rfl; simp at h
    rw [modExp_nonneg_eq a e n (by omega) hn]
    unfold Ossl.modExp
    rw [if_neg he, ossl_bnModExp_eq a e n (by omega) hn]
    exact Agree.ok _

/-- C161: division modulo numbers other than 0, 1 and -1, by numbers that are not negative. -/
theorem agree_mod_div (inv1 : Bool) (a b p : Int) (hb : 0 ≤ b) (hp : 1 < |p|) :
    Agree (modDiv a b p) (Ossl.modDiv inv1 a b p) := by
  have hp0 : p ≠ 0 := by rintro rfl; simp at hp
  unfold modDiv Ossl.modDiv Ossl.modMul
  rcases agree_inverse inv1 b p hb hp with ⟨v, h1, h2⟩ | ⟨⟨m, h1⟩, h2⟩
  · rw [h1, h2, Res.ok_bind, Res.ok_bind, modulus_eq_abs _ p hp0, ossl_modulus_eq _ p hp0]
    exact Agree.ok _
  · rw [h1, h2]
    exact Agree.err _

/-- C161: random squares; the number drawn is the same by assumption. -/
theorem agree_random_qr (n : Int) (draw : Nat) (hn : 0 < n) (hd : (draw : Int) < n) :
    randomQr n draw = .ok ((draw : Int) ^ 2 % n) ∧ Ossl.randomQr n draw = .ok ((draw : Int) ^ 2 % n) := by
  unfold randomQr Ossl.randomQr randRange Ossl.randRange
  rw [if_neg (by omega), if_neg (by omega), Res.ok_bind, Res.ok_bind, modulus_eq_abs _ n hn.ne',
    ossl_modulus_eq _ n hn.ne', abs_of_pos hn]
  unfold sqr Ossl.sqr
  rw [← pow_two]
  exact ⟨rfl, rfl⟩

/-! ## C162: exactly where they differ -/

/-- C162: `to_bytes`: nothing for zero in the native build, one byte in the pure build. -/
theorem to_bytes_agree_iff (a : Int) : toBytes a = Ossl.toBytes a ↔ a ≠ 0 := by
  unfold toBytes Ossl.toBytes
  by_cases h : a = 0
  · subst h; simp
  · simp [h]

/-- C162: `from_u32` of a `usize` keeps only 32 bits in the native build. -/
theorem from_u32_agree_iff (n : Nat) : fromU32 n = Ossl.fromU32 n ↔ n < 2 ^ 32 := by
  unfold fromU32 Ossl.fromU32
  norm_num
  omega

/-- C162: `increment` and `decrement` lose the sign in the native build. -/
theorem increment_agree_iff (a : Int) :
    (increment a = Ossl.increment a ↔ 0 ≤ a) ∧ (decrement a = Ossl.decrement a ↔ 0 ≤ a) ∧
    Ossl.increment a = |a| + 1 ∧ Ossl.decrement a = |a| - 1 := by
  unfold increment Ossl.increment decrement Ossl.decrement
  rw [Int.abs_eq_natAbs]
  omega

theorem ossl_shift_eq (a : Int) (d : Nat) (hd : 0 < d) :
    (if a < 0 then -((a.natAbs / d : Nat) : Int) else ((a.natAbs / d : Nat) : Int)) = a / (d : Int) ↔ 0 ≤ a ∨ (d : Int) ∣ a := by
  by_cases h : a < 0
  · rw [if_pos h]
    obtain ⟨m, rfl⟩ : ∃ m : Nat, a = -(m : Int) := ⟨a.natAbs, by omega⟩
    rw [Int.natAbs_neg, Int.natAbs_natCast, Int.dvd_neg]
    have hd' : (0 : Int) < (d : Int) := by exact_mod_cast hd
    push_cast
    constructor
    · intro he
      right
      have h1 := Int.emod_add_mul_ediv (-(m : Int)) (d : Int)
      have h2 := Int.emod_nonneg (-(m : Int)) hd'.ne'
      have h3 := Int.emod_add_mul_ediv (m : Int) (d : Int)
      have h4 := Int.emod_nonneg (m : Int) hd'.ne'
      rw [← he] at h1
      have h5 : (m : Int) % d = 0 := by nlinarith
      exact Int.dvd_of_emod_eq_zero h5
    · rintro (h' | h')
      · omega
      · rw [Int.neg_ediv_of_dvd h']
  · rw [if_neg h]
    obtain ⟨m, rfl⟩ : ∃ m : Nat, a = (m : Int) := ⟨a.natAbs, by omega⟩
    rw [Int.natAbs_natCast]
    constructor
    · intro _
      left
      omega
    · intro _
      push_cast
      rfl

/-- C162: right shifts round differently below zero, and the native build refuses shifts of 2^31 bits and more. -/
theorem rshift1_agree_iff (a : Int) : rshift1 a = Ossl.rshift1 a ↔ 0 ≤ a ∨ 2 ∣ a := by
  have := ossl_shift_eq a 2 (by omega)
  unfold rshift1 Ossl.rshift1
  rw [← eq_comm]
  exact_mod_cast this

theorem rshift_agree_iff (a : Int) (n : Nat) (hn : n < 2 ^ 32) :
    Agree (.ok (rshift a n)) (Ossl.rshift a n) ↔ n < 2 ^ 31 ∧ (0 ≤ a ∨ (2 : Int) ^ n ∣ a) := by
  unfold Ossl.rshift
  rw [Nat.mod_eq_of_lt hn]
  by_cases h : 2 ^ 31 ≤ n
  · rw [if_pos h]
    constructor
    · rintro (⟨v, -, h2⟩ | ⟨⟨e, h1⟩, -⟩)
      · cases h2
      · cases h1
    · intro h'
      omega
  · rw [if_neg h, agree_ok_iff]
    have := ossl_shift_eq a (2 ^ n) (by positivity)
    push_cast at this
    unfold rshift
    rw [eq_comm]
    push_cast
    rw [this]
    exact ⟨fun h1 => ⟨by omega, h1⟩, fun h1 => h1.2⟩

theorem testBit_odd (m n : Nat) : m.testBit n = decide ((m / 2 ^ n) % 2 = 1) := Nat.testBit_eq_decide_div_mod_eq

/-- C162: reading a bit of a negative number: the pure build reads the two's complement and takes the sign for negative
positions, the native build reads the magnitude. -/
theorem is_bit_set_agree_iff (a n : Int) :
    isBitSetAt a n = Ossl.isBitSet a n ↔ 0 ≤ a ∨ (0 ≤ n ∧ (2 : Int) ^ n.toNat ∣ a) := by
  unfold isBitSetAt Ossl.isBitSet
  by_cases hn : n < 0
  · rw [if_pos hn, if_pos hn]
    simp only [decide_eq_false_iff_not]
    omega
  · rw [if_neg hn, if_neg hn, testBit_odd]
    unfold isBitSet
    have hp : (0 : Int) < 2 ^ n.toNat := by positivity
    generalize hk : n.toNat = k at *
    have hn' : 0 ≤ n := by omega
    simp only [hn', true_and]
    by_cases ha : 0 ≤ a
    · obtain ⟨m, rfl⟩ : ∃ m : Nat, a = (m : Int) := ⟨a.natAbs, by omega⟩
      simp only [ha, true_or, iff_true, Int.natAbs_natCast, decide_eq_decide]
      norm_cast
    · obtain ⟨m, rfl⟩ : ∃ m : Nat, a = -(m : Int) := ⟨a.natAbs, by omega⟩
      simp only [ha, false_or, Int.natAbs_neg, Int.natAbs_natCast, decide_eq_decide]
      have key : (-(m : Int)) / 2 ^ k = -((m / 2 ^ k : Nat) : Int) ↔ (2 : Int) ^ k ∣ -(m : Int) := by
        have := ossl_shift_eq (-(m : Int)) (2 ^ k) (by positivity)
        rw [if_pos (by omega), Int.natAbs_neg, Int.natAbs_natCast] at this
        push_cast at this ⊢
        rw [eq_comm, this]
        simp only [ha, false_or]
      rw [← key]
      have h1 := Int.emod_add_mul_ediv (-(m : Int)) (2 ^ k)
      have h2 := Int.emod_nonneg (-(m : Int)) hp.ne'
      have h3 := Int.emod_lt_of_pos (-(m : Int)) hp
      have h4 := Nat.mod_add_div m (2 ^ k)
      have h5 := Nat.mod_lt m (Nat.two_pow_pos k)
      generalize hq : (-(m : Int)) / 2 ^ k = q at *
      generalize hr : (-(m : Int)) % 2 ^ k = r at *
      generalize hq' : m / 2 ^ k = q' at *
      generalize hr' : m % 2 ^ k = r' at *
      have h4' : (r' : Int) + 2 ^ k * (q' : Int) = m := by exact_mod_cast h4
      have h5' : (r' : Int) < 2 ^ k := by exact_mod_cast h5
      have hs : q + q' = 0 ∨ q + q' = -1 := by
        have e : (2 : Int) ^ k * (q + q') = -(r + r') := by nlinarith
        have lo : -2 < q + q' := by
          by_contra hc
          have : (2 : Int) ^ k * (q + q') ≤ 2 ^ k * (-2) := by
            apply mul_le_mul_of_nonneg_left (by omega) hp.le
          omega
        have hi : q + q' < 1 := by
          by_contra hc
          have : (2 : Int) ^ k * 1 ≤ 2 ^ k * (q + q') := by
            apply mul_le_mul_of_nonneg_left (by omega) hp.le
          omega
        omega
      constructor
      · intro hiff
        rcases hs with hs | hs
        · omega
        · exfalso
          omega
      · intro he
        omega

/-- C162: setting a bit: alike for numbers that are not negative; for negative positions the pure build panics and the
native build returns an error; below zero the results differ. -/
theorem set_bit_agree (a n : Int) (ha : 0 ≤ a) (hn : 0 ≤ n) : Agree (setBitAt a n) (Ossl.setBit a n) := by
  unfold setBitAt Ossl.setBit
  rw [if_neg (by omega), if_neg (by omega), agree_ok_iff, if_neg (by omega)]
  obtain ⟨m, rfl⟩ : ∃ m : Nat, a = (m : Int) := ⟨a.natAbs, by omega⟩
  rfl

theorem set_bit_differs (a n : Int) (hn : n < 0) : setBitAt a n = .panic ∧ Ossl.setBit a n = .err () ∧
    setBitAt (-2) 0 = .ok (-1) ∧ Ossl.setBit (-2) 0 = .ok (-3) := by
  refine ⟨by simp [setBitAt, hn], by simp [Ossl.setBit, hn], by decide +kernel, by decide +kernel⟩

/-- C162: powers without modulus. -/
theorem exp_agree_iff (a e : Int) :
    Agree (exp a e) (.ok (Ossl.exp a e)) ↔ (a = 0 ∧ e ≠ 0) ∨ (a ≠ 0 ∧ 0 ≤ e ∧ e < 2 ^ 64) := by
  unfold exp Ossl.exp
  by_cases ha : a = 0
  · subst ha
    rw [if_pos rfl, agree_ok_iff]
    by_cases he : e = 0
    · subst he; simp
    · simp only [he, ne_eq, not_false_eq_true, and_self, not_true_eq_false, false_and, or_false, iff_true]
      rw [zero_pow (by omega)]
  · rw [if_neg ha]
    by_cases he : e = 1
    · subst he
      rw [if_pos rfl, agree_ok_iff]
      simp [ha]
    · rw [if_neg he]
      by_cases hr : 0 ≤ e ∧ e < 2 ^ 64
      · rw [if_pos hr, agree_ok_iff]
        have : e.natAbs = e.toNat := by omega
        rw [this]
        simp only [ha, ne_eq, not_false_eq_true, hr, and_self, or_true]
      · rw [if_neg hr]
        constructor
        · rintro (⟨v, h1, -⟩ | ⟨-, h2⟩)
          · cases h1
          · cases h2
        · rintro (⟨h, -⟩ | ⟨-, h⟩)
          · exact absurd h ha
          · exact absurd h hr

/-- C162: modulus zero: the pure build panics, the native build returns an error or, for the exponent zero, one. -/
theorem mod_exp_zero_modulus (inv1 : Bool) (a e : Int) (he : 0 ≤ e) :
    modExp a e 0 = .panic ∧ Ossl.modExp inv1 a e 0 = if e = 0 then .ok 1 else .err () := by
  constructor
  · unfold modExp modpow
    rw [if_neg (by norm_num), if_neg (by omega)]
    simp [getModulus]
  · unfold Ossl.modExp Ossl.bnModExp
    rw [if_neg (by omega)]
    simp

/-- C162: inverses of negative numbers and modulo -1, and negative powers modulo 1. -/
theorem inverse_differs (inv1 : Bool) :
    inverse (-1) 5 = .ok 1 ∧ Ossl.inverse inv1 (-1) 5 = .ok 4 ∧
    inverse (-2) 4 = .ok 1 ∧ Ossl.inverse inv1 (-2) 4 = .err () ∧
    inverse 6 (-1) = .ok 0 ∧ Ossl.inverse false 6 (-1) = .err () ∧
    inverse 6 1 = .err "Invalid modulus" ∧ Ossl.inverse true 6 1 = .ok 0 ∧
    modExp 6 (-1) 1 = .ok 0 ∧ Ossl.modExp false 6 (-1) 1 = .err () := by
  refine ⟨by simp [inverse, invLoop, getModulus], ?_, by simp [inverse, invLoop, getModulus], ?_,
    by simp [inverse, invLoop, getModulus], by simp [Ossl.inverse], by simp [inverse], by simp [Ossl.inverse],
    by simp [modExp], by simp [Ossl.modExp, Ossl.inverse]⟩
  · obtain ⟨h, -⟩ := ossl_inverse_spec inv1 (-1) 5 (by norm_num)
    obtain ⟨x, hx, h1, h2, h3⟩ := h (by decide)
    rw [hx]
    norm_num at h2
    congr 1
    interval_cases x
    all_goals first | rfl | (exfalso; revert h3; decide)
  · obtain ⟨-, h⟩ := ossl_inverse_spec inv1 (-2) 4 (by norm_num)
    exact h (by decide)

/-- C162: random numbers below a bound that is not positive: the pure build panics, the native build returns an error. -/
theorem rand_range_differs (bound : Int) (draw : Nat) (h : bound ≤ 0) :
    randRange bound draw = .panic ∧ Ossl.randRange bound draw = .err () ∧
    randomQr bound draw = .panic ∧ Ossl.randomQr bound draw = .err () := by
  simp [randRange, Ossl.randRange, randomQr, Ossl.randomQr, h]

/-- The hypotheses of the theorems on agreement are met, with values that are not trivial. -/
theorem agree_met (inv1 : Bool) :
    Agree (inverse 3 11) (Ossl.inverse inv1 3 11) ∧ inverse 3 11 = .ok 4 ∧
    Agree (modExp (-2) 3 7) (Ossl.modExp inv1 (-2) 3 7) ∧ modExp (-2) 3 7 = .ok 6 ∧
    Agree (modDiv 5 3 (-11)) (Ossl.modDiv inv1 5 3 (-11)) := by
  refine ⟨agree_inverse inv1 3 11 (by norm_num) (by norm_num), by simp [inverse, invLoop, getModulus],
    agree_mod_exp inv1 _ _ _ (Or.inl (by norm_num)), by decide +kernel,
    agree_mod_div inv1 5 3 (-11) (by norm_num) (by norm_num)⟩

/-! ## C163: primes -/

/-- C163: `generate_prime_in_range` of the native build: an error exactly if the range is empty; otherwise the number
returned is in the range and passed the test, and the first candidate that passes is returned. -/
theorem ossl_prime_in_range (probable : Nat → Bool) (start stop : Int) (draws : List Nat)
    (hd : ∀ d ∈ draws, (d : Int) < stop - start) :
    (stop ≤ start → Ossl.primeInRange probable start stop draws = .err ()) ∧
    (start < stop → ∃ r, Ossl.primeInRange probable start stop draws = .ok r ∧
      (∀ p, r = some p → start ≤ p ∧ p < stop ∧ 1 < p ∧ probable p.toNat = true) ∧
      (r = none ↔ ∀ d ∈ draws, Ossl.isPrime probable (d + start) = false)) := by
  constructor
  · intro h
    unfold Ossl.primeInRange Ossl.sub
    rw [if_pos (by omega)]
  · intro h
    refine ⟨_, by unfold Ossl.primeInRange Ossl.sub; rw [if_neg (by omega)], ?_, ?_⟩
    · intro p hp
      clear h
      induction draws with
      | nil => cases hp
      | cons d ds ih =>
        unfold Ossl.primeLoop at hp
        split_ifs at hp with hc
        · simp only [Option.some.injEq] at hp
          subst hp
          have := hd d (List.mem_cons_self ..)
          unfold Ossl.isPrime at hc
          simp only [Bool.and_eq_true, decide_eq_true_eq] at hc
          exact ⟨by omega, by omega, hc.1, hc.2⟩
        · exact ih (fun x hx => hd x (List.mem_cons_of_mem _ hx)) hp
    · clear hd h
      induction draws with
      | nil => simp [Ossl.primeLoop]
      | cons d ds ih =>
        unfold Ossl.primeLoop
        split_ifs with hc
        · simp [hc]
        · simp only [Bool.not_eq_true] at hc
          simp [ih, hc]

theorem or_one_eq (d : Nat) : d ||| 1 = if d % 2 = 1 then d else d + 1 := by
  have h := Nat.or_mod_two_eq_one (a := d) (b := 1)
  have h1 : (d ||| 1) / 2 = d / 2 := by
    have := Nat.or_div_two_pow (a := d) (b := 1) (n := 1)
    simpa using this
  have h2 : (d ||| 1) % 2 = 1 := by simp [h]
  split_ifs <;> omega

/-- C163: `generate_prime_in_range` of the pure build: an error exactly for a negative bound, a panic exactly for equal
bounds; otherwise the bounds are exchanged if necessary, and the number returned is odd, passed the test, and is not
below the lower and not above the upper bound; it is below the upper bound if that is even. -/
theorem rust_prime_in_range (probable : Nat → Bool) (start stop : Nat) (draws : List Nat)
    (hd : ∀ d ∈ draws, min start stop ≤ d ∧ d < max start stop) :
    (start = stop → primeInRange probable start stop draws = .panic) ∧
    (start ≠ stop → ∃ r, primeInRange probable start stop draws = .ok r ∧
      (∀ p, r = some p → min start stop ≤ p ∧ p ≤ max start stop ∧ (max start stop % 2 = 0 → p < max start stop) ∧
        p % 2 = 1 ∧ probable p = true) ∧
      (r = none ↔ ∀ d ∈ draws, probable (d ||| 1) = false)) := by
  have e1 : (if (stop : Int) < start then (stop : Int) else start) = ((min start stop : Nat) : Int) := by
    split_ifs <;> omega
  have e2 : (if (stop : Int) < start then (start : Int) else stop) = ((max start stop : Nat) : Int) := by
    split_ifs <;> omega
  have e3 : primeInRange probable start stop draws =
      if ((max start stop : Nat) : Int) ≤ ((min start stop : Nat) : Int) then .panic else .ok (primeLoop probable draws) := by
    unfold primeInRange
    rw [if_neg (by omega), if_neg (by omega)]
    simp only [e1, e2]
  rw [e3]
  constructor
  · rintro rfl
    rw [if_pos (by simp)]
  · intro hne
    refine ⟨_, if_neg (by omega), ?_, ?_⟩
    · intro p hp
      clear e1 e2 e3 hne
      induction draws with
      | nil => cases hp
      | cons d ds ih =>
        unfold primeLoop at hp
        split_ifs at hp with hc
        · simp only [Option.some.injEq] at hp
          subst hp
          have hb := hd d (List.mem_cons_self ..)
          refine ⟨?_, ?_, ?_, ?_, hc⟩ <;> rw [or_one_eq] <;> split_ifs <;> omega
        · exact ih (fun x hx => hd x (List.mem_cons_of_mem _ hx)) hp
    · clear hd e1 e2 e3 hne
      induction draws with
      | nil => simp [primeLoop]
      | cons d ds ih =>
        unfold primeLoop
        split_ifs with hc
        · simp [hc]
        · simp only [Bool.not_eq_true] at hc
          simp [ih, hc]

theorem rust_prime_in_range_negative (probable : Nat → Bool) (start stop : Int) (draws : List Nat)
    (h : start < 0 ∨ stop < 0) : ∃ e, primeInRange probable start stop draws = .err e := by
  unfold primeInRange
  by_cases h1 : start < 0
  · exact ⟨_, if_pos h1⟩
  · rw [if_neg h1, if_pos (by omega)]
    exact ⟨_, rfl⟩

/-- Negation of C163 as stated, for the pure build: the upper bound itself may be returned, and a prime in the range may
never be returned. -/
theorem rust_prime_in_range_returns_end :
    primeInRange (fun n => decide n.Prime) 2 3 [2] = .ok (some 3) ∧
    primeInRange (fun n => decide n.Prime) 6 7 [6] = .ok (some 7) ∧
    (∀ draws : List Nat, (∀ d ∈ draws, 2 ≤ d ∧ d < 3) → primeInRange (fun n => decide n.Prime) 2 3 draws ≠ .ok (some 2)) := by
  refine ⟨by decide +kernel, by decide +kernel, ?_⟩
  intro draws hd h
  obtain ⟨-, h2⟩ := rust_prime_in_range (fun n => decide n.Prime) 2 3 draws (by simpa using hd)
  obtain ⟨r, hr, hp, -⟩ := h2 (by norm_num)
  have hr' : primeInRange (fun n => decide n.Prime) 2 3 draws = .ok r := by exact_mod_cast hr
  rw [h] at hr'
  simp only [Res.ok.injEq] at hr'
  have := (hp 2 hr'.symm).2.2.2.1
  omega

/-- C163: a range without primes: both builds search for ever, whatever is drawn. -/
theorem prime_in_range_never_ends (draws : List Nat) (h1 : ∀ d ∈ draws, 24 ≤ d ∧ d < 28) :
    primeInRange (fun n => decide n.Prime) 24 28 draws = .ok none ∧
    Ossl.primeInRange (fun n => decide n.Prime) 24 28 (draws.map (· - 24)) = .ok none := by
  constructor
  · obtain ⟨-, h⟩ := rust_prime_in_range (fun n => decide n.Prime) 24 28 draws (by simpa using h1)
    obtain ⟨r, hr, -, hn⟩ := h (by norm_num)
    have hr' : primeInRange (fun n => decide n.Prime) 24 28 draws = .ok r := by exact_mod_cast hr
    rw [hr', hn.mpr]
    intro d hd
    have := h1 d hd
    obtain ⟨ha, hb⟩ := this
    interval_cases d <;> decide +kernel
  · have hd : ∀ d ∈ draws.map (· - 24), ((d : Nat) : Int) < 28 - 24 := by
      intro d hd
      obtain ⟨x, hx, rfl⟩ := List.mem_map.mp hd
      have := h1 x hx
      omega
    obtain ⟨-, h⟩ := ossl_prime_in_range (fun n => decide n.Prime) 24 28 _ hd
    obtain ⟨r, hr, -, hn⟩ := h (by norm_num)
    rw [hr, hn.mpr]
    intro d hd
    obtain ⟨x, hx, rfl⟩ := List.mem_map.mp hd
    obtain ⟨ha, hb⟩ := h1 x hx
    unfold Ossl.isPrime
    interval_cases x <;> decide +kernel

/-- C163: the exponents of credentials (`start = 2^596`, `end = 2^596 + 2^119`) are inside the range in both builds. -/
theorem cl_exponent_in_range (probable : Nat → Bool) (s t : Nat) (hs : s % 2 = 0) (ht : t % 2 = 0) (h0 : 0 < t)
    (draws : List Nat) (hd : ∀ d ∈ draws, s ≤ d ∧ d < s + t) (p : Nat)
    (h : primeInRange probable s ((s + t : Nat) : Int) draws = .ok (some p)) : s < p ∧ p < s + t := by
  have e1 : min s (s + t) = s := by omega
  have e2 : max s (s + t) = s + t := by omega
  obtain ⟨-, h2⟩ := rust_prime_in_range probable s (s + t) draws (by rw [e1, e2]; exact hd)
  obtain ⟨r, hr, hp, -⟩ := h2 (by omega)
  rw [h] at hr
  simp only [Res.ok.injEq] at hr
  obtain ⟨g1, -, g3, g4, -⟩ := hp p hr.symm
  rw [e2] at g3
  rw [e1] at g1
  have := g3 (by omega)
  omega

theorem cl_exponent_in_range_met :
    (2 ^ 596) % 2 = 0 ∧ (2 ^ 119) % 2 = 0 ∧ 0 < 2 ^ 119 ∧
    primeInRange (fun n => decide n.Prime) 8 ((8 + 4 : Nat) : Int) [9, 10] = .ok (some 11) := by
  refine ⟨by norm_num, by norm_num, by norm_num, by decide +kernel⟩

/-- C163: the native `is_safe_prime` accepts exactly the safe primes other than 7, if the test of primality is exact. -/
theorem ossl_is_safe_prime_iff (a : Int) :
    Ossl.isSafePrime (fun n => decide n.Prime) a = .ok true ↔
      ∃ p : Nat, a = p ∧ p.Prime ∧ ((p - 1) / 2).Prime ∧ p ≠ 7 := by
  have h3 : Ossl.fromU32 3 = 3 := by decide
  have h2 : Ossl.fromU32 2 = 2 := by decide
  unfold Ossl.isSafePrime
  rw [h3, h2, ossl_modulus_eq a 3 (by norm_num), Res.ok_bind]
  have habs : |(3 : Int)| = 3 := by norm_num
  rw [habs]
  simp only [Res.ok.injEq, Bool.and_eq_true, decide_eq_true_eq]
  unfold Ossl.isPrime
  simp only [Bool.and_eq_true, decide_eq_true_eq]
  constructor
  · rintro ⟨⟨hm, h1, hp⟩, h1', hp'⟩
    refine ⟨a.toNat, by omega, hp, ?_, ?_⟩
    · have hodd : a.toNat % 2 = 1 := by
        rcases hp.eq_two_or_odd with h | h
        · exfalso
          have : a = 2 := by omega
          subst this
          revert h1'
          decide
        · exact h
      have e : (Ossl.rshift1 a).toNat = (a.toNat - 1) / 2 := by
        unfold Ossl.rshift1
        rw [if_neg (by omega)]
        omega
      rw [← e]
      exact hp'
    · intro h7
      have : a = 7 := by omega
      subst this
      revert hm
      decide
  · rintro ⟨p, rfl, hp, hq, h7⟩
    have hp2 : p ≠ 2 := by
      rintro rfl
      revert hq
      norm_num
    have hodd : p % 2 = 1 := by
      rcases hp.eq_two_or_odd with h | h
      · exact absurd h hp2
      · exact h
    have hq2 := hq.two_le
    have e : Ossl.rshift1 (p : Int) = (((p - 1) / 2 : Nat) : Int) := by
      unfold Ossl.rshift1
      rw [if_neg (by omega)]
      omega
    have hp3 : p % 3 ≠ 0 := by
      intro h
      have : 3 ∣ p := Nat.dvd_of_mod_eq_zero h
      have := (Nat.prime_dvd_prime_iff_eq Nat.prime_three hp).mp this
      omega
    have hp1 : p % 3 ≠ 1 := by
      intro h
      have : 3 ∣ (p - 1) / 2 := by omega
      have := (Nat.prime_dvd_prime_iff_eq Nat.prime_three hq).mp this
      omega
    refine ⟨⟨by omega, ?_, ?_⟩, ?_, ?_⟩
    · have := hp.two_le
      omega
    · simpa using hp
    · rw [e]
      omega
    · rw [e, Int.toNat_natCast]
      exact hq

/-- C163: with any test that recognises all primes, the native `is_safe_prime` accepts every safe prime above 7, and it
refuses 7 whatever the test says. -/
theorem ossl_is_safe_prime_complete (probable : Nat → Bool) (hpr : ∀ p : Nat, p.Prime → probable p = true) :
    (∀ p : Nat, p.Prime → ((p - 1) / 2).Prime → p ≠ 7 → Ossl.isSafePrime probable p = .ok true) ∧
    Ossl.isSafePrime probable 7 = .ok false := by
  constructor
  · intro p hp hq h7
    have h := (ossl_is_safe_prime_iff p).mpr ⟨p, rfl, hp, hq, h7⟩
    unfold Ossl.isSafePrime Ossl.isPrime at *
    cases hm : Ossl.modulus (p : Int) (Ossl.fromU32 3) with
    | panic => rw [hm] at h; simp at h
    | err e => rw [hm] at h; simp at h
    | ok r =>
      rw [hm] at h
      rw [Res.ok_bind] at h ⊢
      simp only [Res.ok.injEq, Bool.and_eq_true, decide_eq_true_eq] at h ⊢
      exact ⟨⟨h.1.1, h.1.2.1, hpr _ h.1.2.2⟩, h.2.1, hpr _ h.2.2⟩
  · have h3 : Ossl.fromU32 3 = 3 := by decide
    have h2 : Ossl.fromU32 2 = 2 := by decide
    unfold Ossl.isSafePrime
    rw [h3, h2, ossl_modulus_eq 7 3 (by norm_num), Res.ok_bind]
    have : ¬ ((7 : Int) % |3| = 2) := by norm_num
    simp [this]

theorem ossl_is_safe_prime_met :
    Ossl.isSafePrime (fun n => decide n.Prime) 23 = .ok true ∧ Ossl.isSafePrime (fun n => decide n.Prime) 5 = .ok true := by
  constructor
  · exact (ossl_is_safe_prime_iff 23).mpr ⟨23, rfl, by norm_num, by norm_num, by norm_num⟩
  · exact (ossl_is_safe_prime_iff 5).mpr ⟨5, rfl, by norm_num, by norm_num, by norm_num⟩

/-- C163: both builds say that negative numbers are not prime, and agree on numbers above 1 if their tests do. -/
theorem is_prime_agree (probable : Nat → Bool) (a : Int) (h : probable 0 = false ∧ probable 1 = false) :
    isPrime probable a = Ossl.isPrime probable a := by
  unfold isPrime Ossl.isPrime
  by_cases h1 : a < 0
  · rw [if_pos h1]
    have : ¬ (1 < a) := by omega
    simp [this]
  · rw [if_neg h1]
    by_cases h2 : 1 < a
    · simp [h2]
    · have : a = 0 ∨ a = 1 := by omega
      rcases this with rfl | rfl
      · simpa using h.1
      · simpa using h.2

end Verif.BN
