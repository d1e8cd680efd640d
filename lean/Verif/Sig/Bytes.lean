import Verif.Common
import Mathlib.Tactic.Linarith
import Mathlib.Tactic.NormNum

/-!
# Byte strings of a fixed size as numbers
-/

namespace Verif.Sig

/-- The little-endian value of a byte string. -/
def ofLe : Bytes → Nat
  | [] => 0
  | b :: bs => b.toNat + 256 * ofLe bs

/-- The `n` low bytes of a number, little endian. -/
def toLe : Nat → Nat → Bytes
  | 0, _ => []
  | n + 1, x => UInt8.ofNat x :: toLe n (x / 256)

/-- The `n` low bytes of a number, big endian. -/
def toBe (n x : Nat) : Bytes := (toLe n x).reverse

@[simp] theorem toLe_length (n x : Nat) : (toLe n x).length = n := by
  induction n generalizing x with
  | zero => rfl
  | succ n ih => simp [toLe, ih]

@[simp] theorem toBe_length (n x : Nat) : (toBe n x).length = n := by simp [toBe]

theorem ofLe_toLe (n x : Nat) (h : x < 256 ^ n) : ofLe (toLe n x) = x := by
  induction n generalizing x with
  | zero =>
    simp only [Nat.pow_zero, Nat.lt_one_iff] at h
    subst h
    rfl
  | succ n ih =>
    have h' : x / 256 < 256 ^ n := by
      rw [Nat.div_lt_iff_lt_mul (by norm_num)]
      rwa [Nat.pow_succ] at h
    simp only [toLe, ofLe, ih _ h', UInt8.toNat_ofNat']
    omega

theorem ofLe_lt (b : Bytes) : ofLe b < 256 ^ b.length := by
  induction b with
  | nil => simp [ofLe]
  | cons a b ih =>
    simp only [ofLe, List.length_cons, Nat.pow_succ]
    have := a.toNat_lt
    omega

theorem toLe_ofLe (b : Bytes) : toLe b.length (ofLe b) = b := by
  induction b with
  | nil => rfl
  | cons a b ih =>
    have ha := a.toNat_lt
    have h1 : (a.toNat + 256 * ofLe b) / 256 = ofLe b := by omega
    have h2 : UInt8.ofNat (a.toNat + 256 * ofLe b) = a := by
      apply UInt8.toNat_inj.mp
      rw [UInt8.toNat_ofNat']
      omega
    simp only [List.length_cons, toLe, ofLe, h1, h2, ih]

theorem ofLe_append (a b : Bytes) : ofLe (a ++ b) = ofLe a + 256 ^ a.length * ofLe b := by
  induction a with
  | nil => simp [ofLe]
  | cons x a ih =>
    simp only [List.cons_append, ofLe, ih, List.length_cons, Nat.pow_succ]
    ring

theorem ofBe_append_singleton (a : Bytes) (x : UInt8) : ofBe (a ++ [x]) = ofBe a * 256 + x.toNat := by
  simp [ofBe]

theorem ofBe_reverse (b : Bytes) : ofBe b.reverse = ofLe b := by
  induction b with
  | nil => rfl
  | cons a b ih =>
    rw [List.reverse_cons, ofBe_append_singleton, ih]
    simp only [ofLe]
    ring

theorem ofBe_eq (b : Bytes) : ofBe b = ofLe b.reverse := by
  rw [← ofBe_reverse, List.reverse_reverse]

theorem ofBe_toBe (n x : Nat) (h : x < 256 ^ n) : ofBe (toBe n x) = x := by
  rw [toBe, ofBe_reverse, ofLe_toLe n x h]

theorem toBe_ofBe (b : Bytes) : toBe b.length (ofBe b) = b := by
  rw [ofBe_eq, toBe]
  have := toLe_ofLe b.reverse
  rw [List.length_reverse] at this
  rw [this, List.reverse_reverse]

theorem ofBe_lt (b : Bytes) : ofBe b < 256 ^ b.length := by
  rw [ofBe_eq]
  have := ofLe_lt b.reverse
  rwa [List.length_reverse] at this

/-! ## Clamping -/

/-- `clamp_scalar` of x25519-dalek and the same three lines in `ExpandedSecretKey::from` of ed25519-dalek (crates used by
libursa/src/kex/x25519.rs:18-49 and libursa/src/signatures/ed25519.rs:138-142): the three low bits of byte 0 and the top
bit of byte 31 are cleared, the bit below it is set. -/
def clamp (b : Bytes) : Bytes := (b.modify 0 (· &&& 248)).modify 31 (fun x => (x &&& 127) ||| 64)

@[simp] theorem clamp_length (b : Bytes) : (clamp b).length = b.length := by simp [clamp]

theorem modify_append_len {α : Type} (a : List α) (x : α) (l : List α) (f : α → α) :
    (a ++ x :: l).modify a.length f = a ++ f x :: l := by
  induction a with
  | nil => simp
  | cons y a ih => simpa using ih

/-- the shape of 32 bytes: the first, thirty, the last -/
theorem shape32 (b : Bytes) (h : b.length = 32) : ∃ (x : UInt8) (m : Bytes) (z : UInt8), m.length = 30 ∧
    b = x :: (m ++ [z]) := by
  obtain ⟨x, t, rfl⟩ := List.exists_cons_of_length_eq_add_one h
  have ht : t.length = 31 := by simpa using h
  have hne : t ≠ [] := by
    intro h0
    rw [h0] at ht
    simp at ht
  refine ⟨x, t.dropLast, t.getLast hne, by simp [ht], ?_⟩
  rw [List.dropLast_append_getLast hne]

theorem clamp_shape (x : UInt8) (m : Bytes) (z : UInt8) (h : m.length = 30) :
    clamp (x :: (m ++ [z])) = (x &&& 248) :: (m ++ [(z &&& 127) ||| 64]) := by
  unfold clamp
  have h1 : (x :: (m ++ [z])).modify 0 (· &&& 248) = ((x &&& 248) :: m) ++ z :: [] := by simp
  rw [h1]
  have h2 := modify_append_len ((x &&& 248) :: m) z [] (fun y => (y &&& 127) ||| 64)
  rw [List.length_cons, h] at h2
  exact h2

theorem clamp_clamp (b : Bytes) (h : b.length = 32) : clamp (clamp b) = clamp b := by
  obtain ⟨x, m, z, hm, rfl⟩ := shape32 b h
  rw [clamp_shape x m z hm, clamp_shape _ m _ hm]
  have h1 : ∀ x : UInt8, x &&& 248 &&& 248 = x &&& 248 := by
    intro x
    rw [UInt8.and_assoc]
    rfl
  have h2 : ∀ z : UInt8, ((z &&& 127 ||| 64) &&& 127) ||| 64 = z &&& 127 ||| 64 := by
    intro z
    have h : ∀ n : Fin 256, ((n.val &&& 127 ||| 64) &&& 127) ||| 64 = n.val &&& 127 ||| 64 := by decide +kernel
    apply UInt8.toNat_inj.mp
    simp only [UInt8.toNat_or, UInt8.toNat_and]
    exact h ⟨z.toNat, z.toNat_lt⟩
  rw [h1, h2]

theorem byte_low (x : UInt8) : (x &&& 248).toNat % 8 = 0 := by
  have h : ∀ n : Fin 256, (n.val &&& 248) % 8 = 0 := by decide +kernel
  rw [UInt8.toNat_and]
  exact h ⟨x.toNat, x.toNat_lt⟩

theorem byte_high (z : UInt8) : 64 ≤ ((z &&& 127) ||| 64).toNat ∧ ((z &&& 127) ||| 64).toNat < 128 := by
  have h : ∀ n : Fin 256, 64 ≤ ((n.val &&& 127) ||| 64) ∧ ((n.val &&& 127) ||| 64) < 128 := by decide +kernel
  rw [UInt8.toNat_or, UInt8.toNat_and]
  exact h ⟨z.toNat, z.toNat_lt⟩

/-- A clamped scalar is a multiple of the cofactor 8 and has its top bit at position 254. -/
theorem clamp_scalar (b : Bytes) (h : b.length = 32) :
    8 ∣ ofLe (clamp b) ∧ 2 ^ 254 ≤ ofLe (clamp b) ∧ ofLe (clamp b) < 2 ^ 255 := by
  obtain ⟨x, m, z, hm, rfl⟩ := shape32 b h
  rw [clamp_shape x m z hm]
  have hx := byte_low x
  have hz := byte_high z
  generalize (x &&& 248) = x' at hx ⊢
  generalize ((z &&& 127) ||| 64) = z' at hz ⊢
  have hmm := ofLe_lt m
  rw [hm] at hmm
  have e : ofLe (x' :: (m ++ [z'])) = x'.toNat + 256 * (ofLe m + 256 ^ 30 * z'.toNat) := by
    simp only [ofLe, ofLe_append, hm]
    ring
  rw [e]
  have hx' := x'.toNat_lt
  norm_num at hmm ⊢
  refine ⟨?_, ?_, ?_⟩
  · omega
  · omega
  · omega

/-- `array_ref!(b, 0, 32)` (crate arrayref): the first 32 bytes, or a panic -/
def arrayRef32 {ε : Type} (b : Bytes) : Res ε Bytes := if 32 ≤ b.length then .ok (b.take 32) else .panic

end Verif.Sig
