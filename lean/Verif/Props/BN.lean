import Verif.BN.Model
import Mathlib.Data.Nat.Digits.Lemmas
import Mathlib.Data.Int.ModEq
import Mathlib.Algebra.Order.Ring.Abs
import Mathlib.Algebra.Order.Ring.Int
import Mathlib.Algebra.Order.Group.Int
import Mathlib.Tactic.NormNum
import Mathlib.Tactic.NormNum.DivMod
import Mathlib.Tactic.Linarith
import Mathlib.Tactic.LinearCombination
/-!
# Properties of the pure-Rust BigNumber backend (C10 – C12)
-/
namespace Verif.BN

theorem getModulus_eq (n : Int) : getModulus n = |n| := by
  unfold getModulus
  split
  · rw [abs_of_pos ‹_›]
  · rw [abs_of_nonpos (by omega)]

/-! ### C10 modular inverse -/

/-- loop invariant of the extended Euclidean algorithm, for a non-negative argument -/
structure Inv (a n t newT r newR : Int) : Prop where
  ht : n ∣ t * a - r
  hn : n ∣ newT * a - newR
  hr : 0 < r
  hnr : 0 ≤ newR
  hg : Int.gcd r newR = Int.gcd a n
  hb : |newT| * r + |t| * newR = n
  hs : t * newT ≤ 0

theorem abs_sub_of_opp {t s q : Int} (h : t * s ≤ 0) (hq : 0 ≤ q) : |t - q * s| = |t| + q * |s| := by
  have : |q * s| = q * |s| := by rw [abs_mul, abs_of_nonneg hq]
  rw [← this]
  rcases le_total 0 t with ht | ht <;> rcases le_total 0 s with hs' | hs'
  · rcases eq_or_lt_of_le ht with rfl | ht
    · simp
    · have : s = 0 := by nlinarith
      simp [this]
  · have : q * s ≤ 0 := by nlinarith
    rw [abs_of_nonneg (by linarith), abs_of_nonneg ht, abs_of_nonpos this]; ring
  · have : 0 ≤ q * s := by nlinarith
    rw [abs_of_nonpos (by linarith), abs_of_nonpos ht, abs_of_nonneg this]; ring
  · rcases eq_or_lt_of_le ht with rfl | ht
    · simp
    · have : s = 0 := by nlinarith
      simp [this]

theorem Inv.step {a n t newT r newR : Int} (h : Inv a n t newT r newR) (h0 : newR ≠ 0) :
    Inv a n newT (t - Int.tdiv r newR * newT) newR (r - Int.tdiv r newR * newR) := by
  have hpos : 0 < newR := lt_of_le_of_ne h.hnr (Ne.symm h0)
  have hq : 0 ≤ Int.tdiv r newR := Int.tdiv_nonneg h.hr.le h.hnr
  have hm : r - Int.tdiv r newR * newR = r % newR := by
    rw [Int.tdiv_eq_ediv_of_nonneg h.hr.le, Int.emod_def]; ring
  refine ⟨h.hn, ?_, hpos, ?_, ?_, ?_, ?_⟩
  · have : (t - Int.tdiv r newR * newT) * a - (r - Int.tdiv r newR * newR)
        = (t * a - r) - Int.tdiv r newR * (newT * a - newR) := by ring
    rw [this]; exact dvd_sub h.ht (Dvd.dvd.mul_left h.hn _)
  · rw [hm]; exact Int.emod_nonneg _ h0
  · rw [hm, ← h.hg, Int.gcd_comm r newR]
    rw [Int.gcd_comm, Int.gcd_emod, Int.gcd_comm]
  · rw [abs_sub_of_opp h.hs hq]
    have := h.hb
    linarith [this]
  · have h1 := h.hs
    nlinarith [mul_nonneg hq (mul_self_nonneg newT)]

/-- what the loop delivers -/
theorem invLoop_spec (a n : Int) : ∀ (k : Nat) (t newT r newR : Int), newR.natAbs ≤ k → Inv a n t newT r newR →
    |t| ≤ n → ∃ t' r', invLoop t newT r newR = (t', r') ∧ r' = (Int.gcd a n : Int) ∧ n ∣ t' * a - r' ∧ |t'| ≤ n := by
  intro k
  induction k with
  | zero =>
    intro t newT r newR hk h hb
    have : newR = 0 := by omega
    subst this
    refine ⟨t, r, by rw [invLoop]; simp, ?_, h.ht, hb⟩
    rw [← h.hg]; simp [abs_of_pos h.hr]
  | succ k ih =>
    intro t newT r newR hk h hb
    by_cases h0 : newR = 0
    · subst h0
      refine ⟨t, r, by rw [invLoop]; simp, ?_, h.ht, hb⟩
      rw [← h.hg]; simp [abs_of_pos h.hr]
    · rw [invLoop, if_neg h0]
      refine ih _ _ _ _ ?_ (h.step h0) ?_
      · have hm : r - Int.tdiv r newR * newR = Int.tmod r newR := by rw [Int.tmod_def, Int.mul_comm]
        rw [hm, Int.natAbs_tmod]
        have := Nat.mod_lt r.natAbs (show newR.natAbs > 0 by omega)
        omega
      · have := h.hb
        have h1 : 0 ≤ |t| * newR := mul_nonneg (abs_nonneg _) h.hnr
        have h2 : |newT| * 1 ≤ |newT| * r := mul_le_mul_of_nonneg_left h.hr (abs_nonneg _)
        linarith

/-- **C10** For every modulus of absolute value greater than one and every non-negative `a`, `inverse` returns the
canonical inverse when `gcd a n = 1` and an error otherwise. -/
theorem inverse_spec (a n : Int) (ha : 0 ≤ a) (hn : 1 < |n|) :
    (Int.gcd a n = 1 → ∃ x, inverse a n = .ok x ∧ 0 ≤ x ∧ x < |n| ∧ a * x ≡ 1 [ZMOD n]) ∧
    (Int.gcd a n ≠ 1 → inverse a n = .err "Not invertible") := by
  have hn1 : ¬ (n = 1 ∨ n = 0) := by
    rintro (rfl | rfl) <;> simp at hn
  have hinv : Inv a |n| 0 1 |n| a := by
    refine ⟨by simp, by simp, by omega, ha, ?_, by simp, by simp⟩
    rw [Int.gcd_comm]
  obtain ⟨t, r, hl, hr, hd, hb⟩ := invLoop_spec a |n| _ _ _ _ _ le_rfl hinv (by simp)
  have hgg : Int.gcd a |n| = Int.gcd a n := by rw [Int.gcd, Int.gcd, Int.natAbs_abs]
  rw [hgg] at hr
  have hgpos : Int.gcd a n ≠ 0 := by
    intro h0; rw [Int.gcd_eq_zero_iff] at h0; exact hn1 (Or.inr h0.2)
  constructor
  · intro hg
    have hr1 : r = 1 := by rw [hr, hg]; rfl
    subst hr1
    refine ⟨if t < 0 then t + |n| else t, ?_, ?_, ?_, ?_⟩
    · unfold inverse
      rw [if_neg hn1]
      simp only [getModulus_eq, hl]
      simp
    · have := abs_le.1 hb
      split <;> omega
    · have h1 := abs_le.1 hb
      split
      · omega
      · rcases eq_or_lt_of_le h1.2 with h | h
        · exfalso
          rw [h] at hd
          have : |n| ∣ 1 := by
            have h2 := dvd_sub (Dvd.intro a rfl : |n| ∣ |n| * a) hd
            simpa using h2
          have := Int.le_of_dvd one_pos this
          omega
        · exact h
    · have h2 : n ∣ t * a - 1 := (abs_dvd _ _).1 hd
      refine (Int.modEq_iff_dvd.2 ?_).symm
      split
      · have : a * (t + |n|) - 1 = (t * a - 1) + a * |n| := by ring
        rw [this]; exact dvd_add h2 (Dvd.dvd.mul_left ((dvd_abs _ _).2 dvd_rfl) _)
      · rw [mul_comm]; exact h2
  · intro hg
    unfold inverse
    rw [if_neg hn1]
    simp only [getModulus_eq, hl]
    rw [if_pos]
    omega

/-- **C10** moduli 0 and 1 are refused. -/
theorem inverse_bad_modulus (a n : Int) (h : n = 0 ∨ n = 1) : inverse a n = .err "Invalid modulus" := by
  unfold inverse; rw [if_pos h.symm]

example : inverse 3 11 = .ok 4 := by simp [inverse, invLoop, getModulus]
example : inverse 6 9 = .err "Not invertible" := by simp [inverse, invLoop, getModulus]

/-- **C10, limits.** The restriction to non-negative `a` is necessary: the code does not reduce its argument first,
and for negative arguments it returns wrong inverses, and "inverses" of elements that have none. -/
theorem inverse_negative_wrong :
    inverse (-1) 5 = .ok 1 ∧ ¬ ((-1) * 1 ≡ 1 [ZMOD 5]) ∧ inverse (-2) 4 = .ok 1 ∧ Int.gcd (-2) 4 ≠ 1 := by
  refine ⟨by simp [inverse, invLoop, getModulus], by decide, by simp [inverse, invLoop, getModulus], by decide⟩

/-! ### C11 modular arithmetic -/

/-- Specification: `r` is the canonical representative of the residue class of `a` modulo `n`. -/
def Canonical (n a r : Int) : Prop := 0 ≤ r ∧ r < |n| ∧ r ≡ a [ZMOD n]

theorem Canonical.unique {n a r s : Int} (h : Canonical n a r) (h' : Canonical n a s) : r = s := by
  obtain ⟨h1, h2, h3⟩ := h
  obtain ⟨g1, g2, g3⟩ := h'
  have hd : n ∣ s - r := (h3.trans g3.symm).dvd
  have hd' : |n| ∣ s - r := (abs_dvd _ _).2 hd
  have := Int.eq_zero_of_abs_lt_dvd hd' (by rw [abs_lt]; omega)
  omega

theorem canonical_emod (n a : Int) (hn : n ≠ 0) : Canonical n a (a % |n|) := by
  refine ⟨Int.emod_nonneg _ (by simpa using hn), Int.emod_lt_of_pos _ (abs_pos.2 hn), ?_⟩
  have := Int.mod_modEq a |n|
  exact (Int.modEq_iff_dvd.2 ((abs_dvd _ _).1 this.dvd))

/-- **C11** `modulus` returns the canonical representative, for positive and negative moduli and operands. -/
theorem modulus_spec (a n : Int) (hn : n ≠ 0) : ∃ r, modulus a n = .ok r ∧ Canonical n a r := by
  refine ⟨a % |n|, ?_, canonical_emod n a hn⟩
  unfold modulus
  rw [if_neg hn]
  simp only [getModulus_eq]
  congr 1
  have hp : 0 < |n| := abs_pos.2 hn
  have h2 : a % |n| < |n| := Int.emod_lt_of_pos _ hp
  have h3 : 0 ≤ a % |n| := Int.emod_nonneg _ hp.ne'
  rw [Int.tmod_eq_emod]
  simp only [Int.natAbs_abs]
  have habs : ((n.natAbs : Nat) : Int) = |n| := (Int.abs_eq_natAbs n).symm
  by_cases h : 0 ≤ a ∨ |n| ∣ a
  · rw [if_pos h, Nat.cast_zero, sub_zero, if_neg (by omega)]
  · rw [if_neg h, habs]
    split <;> omega

theorem modulus_zero (a : Int) : modulus a 0 = .err "Cannot have modulus==0" := by simp [modulus]

theorem modulus_eq_emod (a n : Int) (hn : 0 < n) : modulus a n = .ok (a % n) := by
  obtain ⟨r, h, hc⟩ := modulus_spec a n hn.ne'
  have := canonical_emod n a hn.ne'
  rw [abs_of_pos hn] at this
  rw [h, hc.unique this]

/-- **C11** `mod_mul` and `mod_sub`. -/
theorem mod_mul_spec (a b n : Int) (hn : n ≠ 0) : ∃ r, modMul a b n = .ok r ∧ Canonical n (a * b) r :=
  modulus_spec _ _ hn
theorem mod_sub_spec (a b n : Int) (hn : n ≠ 0) : ∃ r, modSub a b n = .ok r ∧ Canonical n (a - b) r :=
  modulus_spec _ _ hn

theorem modpow_spec (a e n : Int) (he : 0 ≤ e) (hn : n ≠ 0) :
    ∃ r, modpow a e |n| = .ok r ∧ Canonical n (a ^ e.toNat) r := by
  refine ⟨a ^ e.toNat % |n|, ?_, canonical_emod n _ hn⟩
  unfold modpow
  rw [if_neg (by simp [hn, he])]
  rw [Int.fmod_eq_emod_of_nonneg _ (abs_nonneg n)]

/-- **C11** `mod_exp` with a non-negative exponent. -/
theorem mod_exp_nonneg_spec (a e n : Int) (he : 0 ≤ e) (hn : n ≠ 0) :
    ∃ r, modExp a e n = .ok r ∧ Canonical n (a ^ e.toNat) r := by
  unfold modExp
  by_cases h1 : n = 1
  · subst h1
    exact ⟨0, by simp, le_rfl, by simp, Int.modEq_one⟩
  · rw [if_neg h1, if_neg (by omega), getModulus_eq]
    exact modpow_spec a e n he hn

/-- **C11** `mod_exp` with a negative exponent: the canonical inverse of the positive power when the (non-negative)
base is invertible, an error otherwise. -/
theorem mod_exp_neg_spec (a e n : Int) (ha : 0 ≤ a) (he : e < 0) (hn : 1 < |n|) :
    (Int.gcd a n = 1 → ∃ r, modExp a e n = .ok r ∧ 0 ≤ r ∧ r < |n| ∧ r * a ^ (-e).toNat ≡ 1 [ZMOD n]) ∧
    (Int.gcd a n ≠ 1 → modExp a e n = .err "Not invertible") := by
  have hn1 : n ≠ 1 := by rintro rfl; simp at hn
  have hn0 : n ≠ 0 := by rintro rfl; simp at hn
  obtain ⟨hi, hni⟩ := inverse_spec a n ha hn
  have hse : setNegative e false = -e := by simp [setNegative, he]
  constructor
  · intro hg
    obtain ⟨x, hx, hx0, hxn, hxa⟩ := hi hg
    obtain ⟨r, hr, h1, h2, h3⟩ := modpow_spec x (-e) n (by omega) hn0
    refine ⟨r, ?_, h1, h2, ?_⟩
    · unfold modExp
      rw [if_neg hn1, if_pos he, hx, Res.ok_bind, hse, getModulus_eq, hr]
    · calc r * a ^ (-e).toNat ≡ x ^ (-e).toNat * a ^ (-e).toNat [ZMOD n] := h3.mul_right _
        _ = (a * x) ^ (-e).toNat := by rw [← mul_pow, mul_comm]
        _ ≡ 1 ^ (-e).toNat [ZMOD n] := hxa.pow _
        _ = 1 := one_pow _
  · intro hg
    unfold modExp
    rw [if_neg hn1, if_pos he, hni hg, Res.err_bind]

/-- **C11** `mod_div`: the canonical quotient when the (non-negative) divisor is invertible, an error otherwise. -/
theorem mod_div_spec (a b p : Int) (hb : 0 ≤ b) (hp : 1 < |p|) :
    (Int.gcd b p = 1 → ∃ r, modDiv a b p = .ok r ∧ 0 ≤ r ∧ r < |p| ∧ r * b ≡ a [ZMOD p]) ∧
    (Int.gcd b p ≠ 1 → modDiv a b p = .err "Not invertible") := by
  have hp0 : p ≠ 0 := by rintro rfl; simp at hp
  obtain ⟨hi, hni⟩ := inverse_spec b p hb hp
  constructor
  · intro hg
    obtain ⟨x, hx, hx0, hxn, hxa⟩ := hi hg
    obtain ⟨r, hr, h1, h2, h3⟩ := modulus_spec (a * x) p hp0
    refine ⟨r, ?_, h1, h2, ?_⟩
    · unfold modDiv
      rw [hx, Res.ok_bind, hr]
    · calc r * b ≡ (a * x) * b [ZMOD p] := h3.mul_right _
        _ = a * (b * x) := by ring
        _ ≡ a * 1 [ZMOD p] := hxa.mul_left _
        _ = a := mul_one _
  · intro hg
    unfold modDiv
    rw [hni hg, Res.err_bind]

example : modExp 3 (-2) 11 = .ok 5 := by
  have h : inverse 3 11 = .ok 4 := by simp [inverse, invLoop, getModulus]
  unfold modExp; rw [h]; decide

/-! ### C12 bytes and bits -/

theorem ofBe_append (xs : Bytes) (b : UInt8) : ofBe (xs ++ [b]) = ofBe xs * 256 + b.toNat := by
  simp [ofBe]

theorem ofBe_digits (l : List Nat) (hl : ∀ d ∈ l, d < 256) :
    ofBe (l.reverse.map UInt8.ofNat) = Nat.ofDigits 256 l := by
  induction l with
  | nil => rfl
  | cons d l ih =>
    rw [List.reverse_cons, List.map_append, List.map_singleton, ofBe_append, ih fun x hx => hl x (by simp [hx]),
      Nat.ofDigits_cons, UInt8.toNat_ofNat', Nat.mod_eq_of_lt (by simpa using hl d (by simp))]
    ring

/-- **C12** `to_bytes` / `from_bytes` round trip on non-negative numbers. -/
theorem from_to_bytes (a : Int) (ha : 0 ≤ a) : fromBytes (toBytes a) = a := by
  unfold fromBytes toBytes
  split
  · next h => subst h; rfl
  · rw [ofBe_digits _ fun d hd => Nat.digits_lt_base (by norm_num) hd, Nat.ofDigits_digits]
    omega

/-- **C12** `to_bytes` has no leading zero byte, except that zero is the single byte 0. -/
theorem to_bytes_minimal (a : Int) (ha : a ≠ 0) : ∃ b rest, toBytes a = b :: rest ∧ b ≠ 0 := by
  unfold toBytes
  rw [if_neg ha]
  have hne : Nat.digits 256 a.natAbs ≠ [] := Nat.digits_ne_nil_iff_ne_zero.2 (by omega)
  have hl := Nat.getLast_digit_ne_zero 256 (m := a.natAbs) (by omega)
  obtain ⟨init, hinit⟩ : ∃ init, Nat.digits 256 a.natAbs = init ++ [(Nat.digits 256 a.natAbs).getLast hne] :=
    ⟨_, (List.dropLast_append_getLast hne).symm⟩
  have hlt : (Nat.digits 256 a.natAbs).getLast hne < 256 :=
    Nat.digits_lt_base (by norm_num) (List.getLast_mem hne)
  rw [hinit]
  refine ⟨UInt8.ofNat ((Nat.digits 256 a.natAbs).getLast hne), (init.reverse.map UInt8.ofNat), by simp, ?_⟩
  intro h
  have := congrArg UInt8.toNat h
  rw [UInt8.toNat_ofNat', Nat.mod_eq_of_lt (by simpa using hlt)] at this
  exact hl (by simpa using this)

theorem to_bytes_zero : toBytes 0 = [0] := rfl

/-- **C12** the sign is lost. -/
theorem to_bytes_neg (a : Int) : toBytes (-a) = toBytes a := by
  simp [toBytes]

/-- **C12** `to_bytes` of a parsed byte string drops its leading zeros and nothing else. -/
theorem to_from_bytes (b : UInt8) (rest : Bytes) (hb : b ≠ 0) : toBytes (fromBytes (b :: rest)) = b :: rest := by
  have hpos : ∀ (l : Bytes) (acc : Nat), 0 < acc → 0 < l.foldl (fun acc b => acc * 256 + b.toNat) acc := by
    intro l; induction l with
    | nil => intro acc h; exact h
    | cons x l ih => intro acc h; exact ih _ (by positivity)
  have hval : ∀ l : Bytes, ofBe l = Nat.ofDigits 256 (l.reverse.map UInt8.toNat) := by
    intro l
    induction l using List.reverseRecOn with
    | nil => rfl
    | append_singleton l x ih =>
      rw [ofBe_append, ih]; simp [Nat.ofDigits_cons]; ring
  have hb0 : b.toNat ≠ 0 := by
    intro h; apply hb; exact UInt8.toNat_inj.1 (by simpa using h)
  have hne : (fromBytes (b :: rest)) ≠ 0 := by
    have := hpos rest b.toNat (by omega)
    simp [fromBytes, ofBe] 
    omega
  unfold toBytes
  rw [if_neg hne]
  have : (fromBytes (b :: rest)).natAbs = Nat.ofDigits 256 ((b :: rest).reverse.map UInt8.toNat) := by
    rw [← hval]; rfl
  rw [this, Nat.digits_ofDigits 256 (by norm_num)]
  · rw [← List.map_reverse, List.reverse_reverse, List.map_map]
    conv_rhs => rw [← List.map_id (b :: rest)]
    refine List.map_congr_left fun x _ => ?_
    simp
  · intro d hd
    simp only [List.mem_map] at hd
    obtain ⟨x, _, rfl⟩ := hd
    exact x.toNat_lt
  · intro hne'
    simp [hb0]

theorem isBitSet_eq_testBit (a : Int) (n : Nat) : isBitSet a n = a.testBit n := by
  unfold isBitSet
  cases a with
  | ofNat m =>
    rw [Int.testBit]
    have : (Int.ofNat m / 2 ^ n) % 2 = ((m / 2 ^ n % 2 : Nat) : Int) := by simp
    rw [this, Nat.testBit_eq_decide_div_mod_eq]
    congr 1
    exact propext (by norm_cast)
  | negSucc m =>
    rw [Int.testBit, Nat.testBit_eq_decide_div_mod_eq]
    have h : (Int.negSucc m / 2 ^ n) = Int.negSucc (m / 2 ^ n) := by
      have := Int.negSucc_ediv m (b := 2 ^ n) (by positivity)
      rw [this, Int.negSucc_eq]; norm_cast
    rw [h]
    by_cases hm : m / 2 ^ n % 2 = 1
    · simp [hm]; omega
    · simp [hm]; omega

/-- **C12** `set_bit` sets exactly the requested bit and leaves all others alone (also for negative numbers, in two's
complement). -/
theorem set_bit_reads_back (a : Int) (k j : Nat) : isBitSet (setBit a k) j = (decide (j = k) || isBitSet a j) := by
  rw [isBitSet_eq_testBit, isBitSet_eq_testBit, setBit, Int.testBit_lor, Bool.or_comm]
  congr 1
  show Nat.testBit (2 ^ k) j = _
  rw [Nat.testBit_two_pow]
  exact decide_eq_decide.2 eq_comm

/-- **C12** the bits determine a non-negative number: reading bit `j` is the `j`-th binary digit. -/
theorem is_bit_set_iff (a : Int) (j : Nat) : isBitSet a j = true ↔ (a / 2 ^ j) % 2 = 1 := by
  simp [isBitSet]

/-- **C12** setting a clear bit adds exactly its weight. -/
theorem set_bit_value (a : Int) (ha : 0 ≤ a) (k : Nat) (h : isBitSet a k = false) : setBit a k = a + 2 ^ k := by
  obtain ⟨m, rfl⟩ := Int.eq_ofNat_of_zero_le ha
  rw [isBitSet_eq_testBit] at h
  have hm : m.testBit k = false := h
  show ((m ||| 2 ^ k : Nat) : Int) = _
  have : m ||| 2 ^ k = m + 2 ^ k := by
    apply Nat.eq_of_testBit_eq
    intro i
    have hsplit : 2 ^ k * (m / 2 ^ k) + m % 2 ^ k = m := Nat.div_add_mod m (2 ^ k)
    have hlt : m % 2 ^ k < 2 ^ k := Nat.mod_lt _ (by positivity)
    have heven : m / 2 ^ k % 2 = 0 := by
      rw [Nat.testBit_eq_decide_div_mod_eq] at hm
      have := of_decide_eq_false hm
      omega
    have h1 : m = 2 ^ k * (m / 2 ^ k) ||| m % 2 ^ k := by
      rw [← Nat.two_pow_add_eq_or_of_lt hlt, hsplit]
    have h2 : m + 2 ^ k = 2 ^ k * (m / 2 ^ k + 1) ||| m % 2 ^ k := by
      rw [← Nat.two_pow_add_eq_or_of_lt hlt]
      calc m + 2 ^ k = (2 ^ k * (m / 2 ^ k) + m % 2 ^ k) + 2 ^ k := by rw [hsplit]
        _ = _ := by ring
    rw [h2, Nat.testBit_or, Nat.testBit_or, Nat.testBit_two_pow]
    have h3 := congrArg (fun x => Nat.testBit x i) h1
    simp only [Nat.testBit_or] at h3
    rw [h3, Nat.testBit_two_pow_mul, Nat.testBit_two_pow_mul]
    rcases lt_trichotomy i k with hik | hik | hik
    · simp [show ¬ k ≤ i by omega, show k ≠ i by omega]
    · subst hik
      simp only [le_refl, Nat.sub_self]
      have e1 : (m / 2 ^ i + 1).testBit 0 = true := by
        rw [Nat.testBit_zero]; simp; omega
      rw [e1]; simp
    · obtain ⟨j, hj⟩ : ∃ j, i - k = j + 1 := ⟨i - k - 1, by omega⟩
      have e1 : (m / 2 ^ k + 1).testBit (j + 1) = (m / 2 ^ k).testBit (j + 1) := by
        rw [Nat.testBit_succ, Nat.testBit_succ, show (m / 2 ^ k + 1) / 2 = m / 2 ^ k / 2 by omega]
      rw [hj, e1]
      simp [show k ≠ i by omega]
  rw [this]; push_cast; ring

/-- **C12** `rshift` is (floor) division by a power of two, `lshift1`/`rshift1` are inverse. -/
theorem rshift_spec (a : Int) (n : Nat) : rshift a n * 2 ^ n ≤ a ∧ a < (rshift a n + 1) * 2 ^ n := by
  have hp : (0 : Int) < 2 ^ n := by positivity
  have h1 := Int.emod_add_mul_ediv a (2 ^ n)
  have h2 := Int.emod_nonneg a hp.ne'
  have h3 := Int.emod_lt_of_pos a hp
  unfold rshift
  constructor <;> nlinarith

theorem rshift1_lshift1 (a : Int) : rshift1 (lshift1 a) = a := by
  simp [rshift1, lshift1]

example : setBit 5 1 = 7 ∧ toBytes 258 = [1, 2] := by decide +kernel

/-! ### C64 plain integer operations -/

/-- **C64** `div` rounds towards zero: the quotient `q` is the one with `a = q b + r`, `|r| < |b|` and `r` of the sign of
`a`; it fails exactly for a zero divisor. -/
theorem div_spec (a b : Int) (hb : b ≠ 0) :
    ∃ q r, div a b = .ok q ∧ a = q * b + r ∧ |r| < |b| ∧ (0 ≤ a → 0 ≤ r) ∧ (a ≤ 0 → r ≤ 0) := by
  refine ⟨Int.tdiv a b, Int.tmod a b, by simp [div, hb], ?_, ?_, ?_, ?_⟩
  · have := Int.tmod_add_mul_tdiv a b
    linarith [mul_comm b (Int.tdiv a b)]
  · rw [Int.abs_eq_natAbs, Int.abs_eq_natAbs, Int.natAbs_tmod]
    exact_mod_cast Nat.mod_lt _ (by omega)
  · exact fun h => Int.tmod_nonneg b h
  · intro h
    have := Int.tmod_nonneg b (a := -a) (by omega)
    rw [Int.neg_tmod] at this
    omega

theorem div_by_zero (a : Int) : div a 0 = .err "a cannot be zero" := by simp [div]

/-- **C64** `gcd` is the non-negative common divisor that every common divisor divides. -/
theorem gcd_spec (a b : Int) :
    0 ≤ gcd a b ∧ gcd a b ∣ a ∧ gcd a b ∣ b ∧ ∀ d, d ∣ a → d ∣ b → d ∣ gcd a b :=
  ⟨by unfold gcd; exact Int.natCast_nonneg _, Int.gcd_dvd_left .., Int.gcd_dvd_right .., fun _ h1 h2 => Int.dvd_coe_gcd h1 h2⟩

/-- **C64** `exp` is exact on exponents that fit 64 bits (except `0^0`) … -/
theorem exp_exact (a e : Int) (h0 : 0 ≤ e) (h1 : e < 2 ^ 64) (h2 : a ≠ 0 ∨ e ≠ 0) : exp a e = .ok (a ^ e.toNat) := by
  unfold exp
  by_cases ha : a = 0
  · rw [if_pos ha, ha, zero_pow]
    rcases h2 with h2 | h2
    · exact absurd ha h2
    · omega
  · rw [if_neg ha]
    by_cases he : e = 1
    · rw [if_pos he, he]; simp
    · rw [if_neg he, if_pos ⟨h0, h1⟩]

/-- … and an error on all others, unless the base is zero. -/
theorem exp_error (a e : Int) (ha : a ≠ 0) (he : e < 0 ∨ 2 ^ 64 ≤ e) : exp a e = .err "'a' cannot be u64" := by
  unfold exp
  rw [if_neg ha, if_neg, if_neg]
  · rintro ⟨h1, h2⟩
    omega
  · rintro rfl
    omega

/-- **C64 is violated at 0**: `0^e` is answered with 0 for every exponent, also for `0^0` and for negative exponents. -/
theorem exp_zero_base (e : Int) : exp 0 e = .ok 0 := by simp [exp]

/-- **C64** `set_negative` gives the number of the same magnitude with the requested sign. -/
theorem set_negative_spec (a : Int) (negative : Bool) :
    |setNegative a negative| = |a| ∧ (negative = true → setNegative a negative ≤ 0) ∧
      (negative = false → 0 ≤ setNegative a negative) := by
  unfold setNegative
  by_cases h : a < 0 <;> cases negative <;> simp [h, abs_neg] <;> omega

example : div (-7) 2 = .ok (-3) ∧ gcd (-12) 18 = 6 ∧ exp 3 4 = .ok 81 ∧ exp 2 (-1) = .err "'a' cannot be u64" := by decide +kernel

end Verif.BN
