import Mathlib.Data.List.Basic
import Mathlib.Tactic.Ring
/-!
# Common infrastructure: results with panics, byte strings, big-endian integers
-/
namespace Verif

/-- Outcome of a Rust function returning `Result<α, ε>`: `ok`, `err`, or a panic
(slice index out of range, `unwrap` of `None`/`Err`, integer underflow, failed assertion). -/
inductive Res (ε α : Type) where
  | ok (a : α)
  | err (e : ε)
  | panic
  deriving DecidableEq, Repr

namespace Res
variable {ε α β : Type}

/-- Rust's `?` operator: propagate errors and panics. -/
def bind : Res ε α → (α → Res ε β) → Res ε β
  | ok a, f => f a
  | err e, _ => err e
  | panic, _ => panic

instance : Monad (Res ε) where
  pure := Res.ok
  bind := Res.bind

@[simp] theorem pure_eq (a : α) : (pure a : Res ε α) = ok a := rfl
@[simp] theorem ok_bind (a : α) (f : α → Res ε β) : (ok a >>= f) = f a := rfl
@[simp] theorem err_bind (e : ε) (f : α → Res ε β) : ((err e : Res ε α) >>= f) = err e := rfl
@[simp] theorem panic_bind (f : α → Res ε β) : ((panic : Res ε α) >>= f) = panic := rfl

instance : LawfulMonad (Res ε) := LawfulMonad.mk' _
  (id_map := fun x => by cases x <;> rfl)
  (pure_bind := fun _ _ => rfl)
  (bind_assoc := fun x _ _ => by cases x <;> rfl)

theorem bind_eq_ok {x : Res ε α} {f : α → Res ε β} {b : β} :
    (x >>= f) = ok b ↔ ∃ a, x = ok a ∧ f a = ok b := by
  cases x <;> simp

/-- Turn an `Option` into a result, `None` being the given error (`ok_or`). -/
def ofOption (e : ε) : Option α → Res ε α
  | some a => ok a
  | none => err e

@[simp] theorem ofOption_some (e : ε) (a : α) : ofOption e (some a) = ok a := rfl
@[simp] theorem ofOption_none (e : ε) : ofOption e (none : Option α) = err e := rfl

/-- Indexing / `unwrap`: `None` is a panic. -/
def unwrap : Option α → Res ε α
  | some a => ok a
  | none => panic

@[simp] theorem unwrap_some (a : α) : (unwrap (some a) : Res ε α) = ok a := rfl
@[simp] theorem unwrap_none : (unwrap (none : Option α) : Res ε α) = panic := rfl

end Res

/-- Byte strings (`Vec<u8>`, `&[u8]`). -/
abbrev Bytes := List UInt8

/-- `u32::to_be_bytes` of `n as u32` (the cast truncates modulo 2^32). -/
def beU32 (n : Nat) : Bytes :=
  [UInt8.ofNat (n / 2 ^ 24), UInt8.ofNat (n / 2 ^ 16), UInt8.ofNat (n / 2 ^ 8), UInt8.ofNat n]

/-- Big-endian value of a byte string; on four bytes this is `u32::from_be_bytes`. -/
def ofBe (bs : Bytes) : Nat := bs.foldl (fun acc b => acc * 256 + b.toNat) 0

@[simp] theorem beU32_length (n : Nat) : (beU32 n).length = 4 := rfl

theorem ofBe_beU32 (n : Nat) : ofBe (beU32 n) = n % 2 ^ 32 := by
  simp only [ofBe, beU32, List.foldl_cons, List.foldl_nil, UInt8.toNat_ofNat']
  omega

theorem ofBe_beU32_of_lt {n : Nat} (h : n < 2 ^ 32) : ofBe (beU32 n) = n := by
  rw [ofBe_beU32, Nat.mod_eq_of_lt h]

/-- A fixed-size byte encoding of elements of a group or field: `to_bytes` always returns `size`
bytes, `from_bytes` may fail, and `from_bytes (to_bytes r)` succeeds with `r`.  This is the contract of
`Group::to_bytes` / `Group::from_bytes` (ursa_sharing/src/lib.rs:57-82) and of `SerDes` in pairing-plus. -/
structure Codec (R : Type) where
  size : Nat
  enc : R → Bytes
  dec : Bytes → Option R
  enc_length : ∀ r, (enc r).length = size
  dec_enc : ∀ r, dec (enc r) = some r

theorem Codec.enc_injective {R : Type} (c : Codec R) : Function.Injective c.enc := by
  intro a b h
  have := c.dec_enc a
  rw [h, c.dec_enc b] at this
  exact (Option.some.inj this).symm

end Verif
