import Verif.CL.Helpers
import Verif.Props.BN
import Mathlib.NumberTheory.SumFourSquares
import Mathlib.Data.Nat.Size
/-!
# Properties of the CL arithmetic helpers (C15, C16, C49)
-/
namespace Verif.CL

/-! ### C15 four squares -/

theorem loopK_sound {d r0 r1 : Nat} {r : Nat × Nat × Nat × Nat} : ∀ k, loopK d r0 r1 k = some r →
    d = r.1 ^ 2 + r.2.1 ^ 2 + r.2.2.1 ^ 2 + r.2.2.2 ^ 2 := by
  intro k
  induction k with
  | zero => simp [loopK]
  | succ k ih =>
    rw [loopK]
    simp only
    split
    · rintro h; obtain rfl := Option.some.inj h; simpa using ‹d = _›
    · split
      · rintro h; obtain rfl := Option.some.inj h; simpa using ‹d = _›
      · exact ih

theorem loopJ_sound {d r0 : Nat} {r : Nat × Nat × Nat × Nat} : ∀ j, loopJ d r0 j = some r →
    d = r.1 ^ 2 + r.2.1 ^ 2 + r.2.2.1 ^ 2 + r.2.2.2 ^ 2 := by
  intro j
  induction j with
  | zero => simp [loopJ]
  | succ j ih =>
    rw [loopJ]
    split
    · rintro h; obtain rfl := Option.some.inj h; simpa using ‹d = _›
    · split
      · rename_i _ r' hk
        rintro h; obtain rfl := Option.some.inj h; exact loopK_sound _ hk
      · exact ih

theorem loopI_sound {d : Nat} {r : Nat × Nat × Nat × Nat} : ∀ i, loopI d i = some r →
    d = r.1 ^ 2 + r.2.1 ^ 2 + r.2.2.1 ^ 2 + r.2.2.2 ^ 2 := by
  intro i
  induction i with
  | zero => simp [loopI]
  | succ i ih =>
    rw [loopI]
    split
    · rintro h; obtain rfl := Option.some.inj h; simpa using ‹d = _›
    · split
      · rename_i _ r' hk
        rintro h; obtain rfl := Option.some.inj h; exact loopJ_sound _ hk
      · exact ih

theorem loopK_complete {d r0 r1 c e : Nat} (hc : 1 ≤ c) (h : d = r0 ^ 2 + r1 ^ 2 + c ^ 2 + e ^ 2) :
    ∀ k, c ≤ k → loopK d r0 r1 k ≠ none := by
  intro k
  induction k with
  | zero => intro hk; omega
  | succ k ih =>
    intro hk
    rw [loopK]
    simp only
    split
    · simp
    · split
      · simp
      · rename_i h1 h2
        by_cases hck : c = k + 1
        · exfalso
          apply h2
          subst hck
          have : d - r0 ^ 2 - r1 ^ 2 - (k + 1) ^ 2 = e ^ 2 := by omega
          rw [this, largestRoot, Nat.sqrt_eq']
          exact h
        · exact ih (by omega)

theorem loopJ_complete {d r0 b c e : Nat} (hb : 1 ≤ b) (h : d = r0 ^ 2 + b ^ 2 + c ^ 2 + e ^ 2) (hz : c = 0 → e = 0) :
    ∀ j, b ≤ j → loopJ d r0 j ≠ none := by
  intro j
  induction j with
  | zero => intro hk; omega
  | succ j ih =>
    intro hj
    rw [loopJ]
    split
    · simp
    · split
      · simp
      · rename_i h1 _ hk
        by_cases hbj : b = j + 1
        · exfalso
          subst hbj
          by_cases hc : c = 0
          · rw [hc, hz hc] at h; exact h1 (by simpa using h)
          · refine loopK_complete (c := c) (e := e) (by omega) h _ ?_ hk
            rw [largestRoot, Nat.le_sqrt']
            omega
        · exact ih (by omega)

theorem loopI_complete {d a b c e : Nat} (ha : 1 ≤ a) (h : d = a ^ 2 + b ^ 2 + c ^ 2 + e ^ 2)
    (hz : b = 0 → c = 0 ∧ e = 0) (hz' : c = 0 → e = 0) :
    ∀ i, a ≤ i → loopI d i ≠ none := by
  intro i
  induction i with
  | zero => intro hk; omega
  | succ i ih =>
    intro hi
    rw [loopI]
    split
    · simp
    · split
      · simp
      · rename_i h1 _ hk
        by_cases hai : a = i + 1
        · exfalso
          subst hai
          by_cases hb : b = 0
          · rw [hb, (hz hb).1, (hz hb).2] at h; exact h1 (by simpa using h)
          · refine loopJ_complete (b := b) (c := c) (e := e) (by omega) h hz' _ ?_ hk
            rw [largestRoot, Nat.le_sqrt']
            omega
        · exact ih (by omega)

/-- Lagrange's theorem with the zeros last -/
theorem four_squares_zeros_last (d : Nat) : ∃ a b c e : Nat, d = a ^ 2 + b ^ 2 + c ^ 2 + e ^ 2 ∧
    (a = 0 → b = 0) ∧ (b = 0 → c = 0) ∧ (c = 0 → e = 0) := by
  obtain ⟨a, b, c, e, h⟩ := Nat.sum_four_squares d
  -- insertion sort, pair by pair
  have swap : ∀ x y : Nat, ∃ x' y', x' ^ 2 + y' ^ 2 = x ^ 2 + y ^ 2 ∧ y' ≤ x' ∧ x' = max x y ∧ y' = min x y := by
    intro x y
    rcases le_total x y with hxy | hxy
    · exact ⟨y, x, by ring, hxy, by omega, by omega⟩
    · exact ⟨x, y, rfl, hxy, by omega, by omega⟩
  obtain ⟨a1, b1, h1, _, e1, f1⟩ := swap a b
  obtain ⟨c1, d1, h2, _, e2, f2⟩ := swap c e
  obtain ⟨a2, c2, h3, _, e3, f3⟩ := swap a1 c1
  obtain ⟨b2, d2, h4, _, e4, f4⟩ := swap b1 d1
  obtain ⟨b3, c3, h5, _, e5, f5⟩ := swap b2 c2
  refine ⟨a2, b3, c3, d2, by omega, ?_, ?_, ?_⟩ <;> omega

/-- **C15** `four_squares(delta)` returns an error exactly for negative `delta`; otherwise it terminates with four
non-negative integers whose squares sum to `delta`. -/
theorem four_squares_spec (delta : Int) :
    (delta < 0 → fourSquares delta = .err "Cannot express a negative number as sum of four squares") ∧
    (0 ≤ delta → ∃ a b c e : Nat, fourSquares delta = .ok (a, b, c, e) ∧
      delta = (a : Int) ^ 2 + (b : Int) ^ 2 + (c : Int) ^ 2 + (e : Int) ^ 2) := by
  constructor
  · intro h; rw [fourSquares, if_pos h]
  · intro h
    obtain ⟨d, rfl⟩ := Int.eq_ofNat_of_zero_le h
    rw [fourSquares, if_neg (by omega)]
    simp only [Int.toNat_natCast]
    split
    · rename_i h0
      have : d = 0 := by
        rw [largestRoot, Nat.sqrt_eq_zero] at h0; exact h0
      subst this
      exact ⟨0, 0, 0, 0, rfl, by simp⟩
    · rename_i h0
      obtain ⟨a, b, c, e, hd, z1, z2, z3⟩ := four_squares_zeros_last d
      have ha : a ≠ 0 := by
        intro ha
        have hb := z1 ha
        have hc := z2 hb
        have he := z3 hc
        subst ha hb hc he
        apply h0; rw [hd]; rfl
      have hne := loopI_complete (by omega) hd (fun hb => ⟨z2 hb, z3 (z2 hb)⟩) z3 (largestRoot d)
        (by rw [largestRoot, Nat.le_sqrt']; omega)
      cases hl : loopI d (largestRoot d) with
      | none => exact absurd hl hne
      | some r =>
        obtain ⟨a', b', c', e'⟩ := r
        refine ⟨a', b', c', e', rfl, ?_⟩
        have := loopI_sound _ hl
        simp only at this
        exact_mod_cast this

example : fourSquares 107 = .ok (9, 5, 1, 0) := by decide +kernel

/-! ### C16 predicates -/

/-- Specification: what each predicate means for an attribute value. -/
def Predicate.Holds (p : Predicate) (attr : Int) : Prop :=
  match p.pType with
  | .GE => attr ≥ p.value
  | .LE => attr ≤ p.value
  | .GT => attr > p.value
  | .LT => attr < p.value

theorem i32_checked {x y : Int} (h : i32 .checked x = .ok y) : y = x ∧ InI32 x := by
  unfold i32 at h
  split at h
  · exact ⟨(Res.ok.inj h).symm, ‹_›⟩
  · simp at h

/-- **C16** (overflow checks on) whenever `get_delta` returns, the predicate holds iff the delta is non-negative, and the
attribute value is `delta' + delta` (`>=`, `>`) or `delta' - delta` (`<=`, `<`) whenever `get_delta_prime` returns. -/
theorem predicate_delta (p : Predicate) (attr d : Int) (h : p.getDelta .checked attr = .ok d) :
    (p.Holds attr ↔ 0 ≤ d) ∧
    ∀ d', p.getDeltaPrime .checked = .ok d' → attr = if p.isLess then d' - d else d' + d := by
  obtain ⟨n, t, v⟩ := p
  cases t
  · obtain ⟨rfl, _⟩ := i32_checked h
    refine ⟨by simp [Predicate.Holds], fun d' hd' => ?_⟩
    obtain rfl := Res.ok.inj hd'
    simp [Predicate.isLess]
  · obtain ⟨rfl, _⟩ := i32_checked h
    refine ⟨by simp [Predicate.Holds], fun d' hd' => ?_⟩
    obtain rfl := Res.ok.inj hd'
    simp [Predicate.isLess]
  · simp only [Predicate.getDelta] at h
    rw [Res.bind_eq_ok] at h
    obtain ⟨x, hx, hy⟩ := h
    obtain ⟨rfl, _⟩ := i32_checked hx
    obtain ⟨rfl, _⟩ := i32_checked hy
    refine ⟨by simp only [Predicate.Holds]; omega, fun d' hd' => ?_⟩
    obtain ⟨rfl, _⟩ := i32_checked hd'
    simp [Predicate.isLess]
  · simp only [Predicate.getDelta] at h
    rw [Res.bind_eq_ok] at h
    obtain ⟨x, hx, hy⟩ := h
    obtain ⟨rfl, _⟩ := i32_checked hx
    obtain ⟨rfl, _⟩ := i32_checked hy
    refine ⟨by simp only [Predicate.Holds]; omega, fun d' hd' => ?_⟩
    obtain ⟨rfl, _⟩ := i32_checked hd'
    simp [Predicate.isLess]

/-- **C16** in wrapping (release) builds the same results are returned when nothing overflows. -/
theorem predicate_delta_wrapping (p : Predicate) (attr d : Int) (h : p.getDelta .checked attr = .ok d) :
    p.getDelta .wrapping attr = .ok d := by
  have key : ∀ x y, i32 .checked x = .ok y → i32 .wrapping x = .ok y := by
    intro x y hxy
    obtain ⟨rfl, hr⟩ := i32_checked hxy
    rw [i32, if_pos hr]
  obtain ⟨n, t, v⟩ := p
  cases t <;> simp only [Predicate.getDelta] at h ⊢
  · exact key _ _ h
  · exact key _ _ h
  all_goals
    rw [Res.bind_eq_ok] at h ⊢
    obtain ⟨x, hx, hy⟩ := h
    exact ⟨x, key _ _ hx, key _ _ hy⟩

/-- **C16, limits** Overflow is reachable with values that fit `i32`: with checks the prover (and the verifier, through
`get_delta_prime`) panics; with wrapping the delta of an unsatisfied predicate is positive, and the verifier's bound for
"attr > i32::MAX" becomes `i32::MIN`, i.e. it holds of every value. -/
theorem predicate_overflow :
    (∃ p : Predicate, InI32 p.value ∧ p.getDeltaPrime .checked = .panic) ∧
    (∃ (p : Predicate) (attr d : Int), InI32 p.value ∧ InI32 attr ∧ ¬ p.Holds attr ∧
      p.getDelta .wrapping attr = .ok d ∧ 0 ≤ d) ∧
    (∃ p : Predicate, InI32 p.value ∧ (∀ attr, InI32 attr → ¬ p.Holds attr) ∧
      ∃ d', p.getDeltaPrime .wrapping = .ok d' ∧ ∀ attr, InI32 attr → ∃ d : Int, 0 ≤ d ∧ attr = d' + d) := by
  refine ⟨⟨⟨"a", .GT, 2 ^ 31 - 1⟩, by decide, by decide⟩,
    ⟨⟨"a", .GE, 1⟩, -2 ^ 31, 2 ^ 31 - 1, by decide, by decide, by simp [Predicate.Holds], by decide, by decide⟩,
    ⟨⟨"a", .GT, 2 ^ 31 - 1⟩, by decide, ?_, -2 ^ 31, by decide, ?_⟩⟩
  · intro attr h
    simp only [Predicate.Holds, InI32] at *; omega
  · intro attr h
    refine ⟨attr + 2 ^ 31, ?_, by ring⟩
    unfold InI32 at h; omega

example : (⟨"age", .GE, 18⟩ : Predicate).getDelta .checked 28 = .ok 10 := by decide

/-! ### C49 bit-wise or, v'', byte order -/

theorem setBit_nonneg (a : Int) (ha : 0 ≤ a) (k : Nat) : 0 ≤ BN.setBit a k := by
  obtain ⟨m, rfl⟩ := Int.eq_ofNat_of_zero_le ha
  show (0 : Int) ≤ ((m ||| 2 ^ k : Nat) : Int)
  omega

theorem orLoop (a b : Int) : ∀ n : Nat, ∃ r : Int, 0 ≤ r ∧
    (List.range n).foldl (fun result i => if BN.isBitSet a i || BN.isBitSet b i then BN.setBit result i else result) 0 = r ∧
    ∀ j, BN.isBitSet r j = (decide (j < n) && (BN.isBitSet a j || BN.isBitSet b j)) := by
  intro n
  induction n with
  | zero => exact ⟨0, le_rfl, rfl, fun j => by simp [BN.isBitSet]⟩
  | succ n ih =>
    obtain ⟨r, h0, hr, hj⟩ := ih
    rw [List.range_succ, List.foldl_append, hr]
    simp only [List.foldl_cons, List.foldl_nil]
    by_cases hb : (BN.isBitSet a n || BN.isBitSet b n) = true
    · rw [if_pos hb]
      refine ⟨_, setBit_nonneg r h0 n, rfl, fun j => ?_⟩
      rw [BN.set_bit_reads_back, hj]
      by_cases hjn : j = n
      · subst hjn; simp [hb]
      · have : (decide (j < n + 1)) = decide (j < n) := decide_eq_decide.2 (by omega)
        rw [this]; simp [hjn]
    · rw [if_neg hb]
      refine ⟨r, h0, rfl, fun j => ?_⟩
      rw [hj]
      by_cases hjn : j = n
      · subst hjn; simp only [Bool.not_eq_true] at hb; simp [hb]
      · have : (decide (j < n + 1)) = decide (j < n) := decide_eq_decide.2 (by omega)
        rw [this]

/-- **C49** `bitwise_or_big_int` of non-negative numbers has exactly the union of the bits, and is the bit-wise or. -/
theorem bitwise_or_spec (a b : Nat) : bitwiseOrBigInt a b = ((a ||| b : Nat) : Int) := by
  obtain ⟨r, h0, hr, hj⟩ := orLoop a b (max (numBits a) (numBits b))
  have heq : bitwiseOrBigInt a b = r := hr
  rw [heq]
  obtain ⟨m, rfl⟩ := Int.eq_ofNat_of_zero_le h0
  congr 1
  apply Nat.eq_of_testBit_eq
  intro i
  have h1 := hj i
  simp only [BN.isBitSet_eq_testBit] at h1
  have h1' : m.testBit i = (decide (i < max (numBits a) (numBits b)) && (a.testBit i || b.testBit i)) := h1
  rw [h1', Nat.testBit_or]
  by_cases hi : i < max (numBits a) (numBits b)
  · simp [hi]
  · have ha : a.testBit i = false := Nat.testBit_lt_two_pow (lt_of_lt_of_le (Nat.lt_size_self a)
      (Nat.pow_le_pow_right (by norm_num) (by simp [numBits] at hi; omega)))
    have hb : b.testBit i = false := Nat.testBit_lt_two_pow (lt_of_lt_of_le (Nat.lt_size_self b)
      (Nat.pow_le_pow_right (by norm_num) (by simp [numBits] at hi; omega)))
    simp [ha, hb]

/-- **C49** `v''` always has exactly `LARGE_VPRIME_PRIME` = 2724 significant bits. -/
theorem v_prime_prime_range (a : Nat) (ha : a < 2 ^ 2724) :
    2 ^ 2723 ≤ generateVPrimePrime a ∧ generateVPrimePrime a < 2 ^ 2724 := by
  have h : generateVPrimePrime a = ((a ||| 2 ^ 2723 : Nat) : Int) := by
    have := bitwise_or_spec a (2 ^ 2723)
    rw [← this]; unfold generateVPrimePrime LARGE_VPRIME_PRIME; rw [Nat.cast_pow]; rfl
  rw [h]
  constructor
  · have : 2 ^ 2723 ≤ a ||| 2 ^ 2723 := Nat.right_le_or
    exact_mod_cast this
  · have : a ||| 2 ^ 2723 < 2 ^ 2724 := Nat.or_lt_two_pow ha (Nat.pow_lt_pow_right (by norm_num) (by norm_num))
    exact_mod_cast this

/-- **C49** `transform_u32_to_array_of_u8` is the big-endian encoding, and is injective on `u32`. -/
theorem transform_u32_spec (x : Nat) (hx : x < 2 ^ 32) : (transformU32 x).length = 4 ∧ ofBe (transformU32 x) = x := by
  refine ⟨rfl, ?_⟩
  have : transformU32 x = beU32 x := by
    simp [transformU32, beU32, Nat.shiftRight_eq_div_pow]
  rw [this, ofBe_beU32_of_lt hx]

/-- **C49** attribute encodings are determined by the hash: different digests of the same length give different
integers, in either byte order. -/
theorem ofBe_injective : ∀ (a b : Bytes), a.length = b.length → ofBe a = ofBe b → a = b := by
  intro a
  induction a using List.reverseRecOn with
  | nil => intro b hl _; exact (List.length_eq_zero_iff.1 hl.symm).symm
  | append_singleton l x ih =>
    intro b hl h
    rcases List.eq_nil_or_concat b with rfl | ⟨l', y, rfl⟩
    · simp at hl
    · rw [List.concat_eq_append] at *
      rw [BN.ofBe_append, BN.ofBe_append] at h
      have hx := x.toNat_lt
      have hy := y.toNat_lt
      have h1 : ofBe l = ofBe l' := by omega
      have h2 : x = y := UInt8.toNat_inj.1 (by omega)
      rw [ih l' (by simpa using hl) h1, h2]

theorem encode_attribute_collision_iff (hash : Bytes → Bytes) (n : Nat) (hlen : ∀ m, (hash m).length = n) (m m' : Bytes)
    (little : Bool) : encodeAttribute hash m little = encodeAttribute hash m' little ↔ hash m = hash m' := by
  constructor
  · intro h
    simp only [encodeAttribute, BN.fromBytes, Int.natCast_inj] at h
    cases little
    · exact ofBe_injective _ _ (by simp [hlen]) (by simpa using h)
    · have := ofBe_injective (hash m).reverse (hash m').reverse (by simp [hlen]) (by simpa using h)
      simpa using this
  · intro h; simp [encodeAttribute, h]

end Verif.CL
