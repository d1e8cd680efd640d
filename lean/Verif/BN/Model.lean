import Verif.Common
import Mathlib.Data.Int.Bitwise
import Mathlib.Data.Nat.Digits.Defs
/-!
# Model of `BigNumber`, pure-Rust backend (libursa/src/bn/rust.rs)

`BigNumber { bn: num_bigint::BigInt }` is modelled by `Int`.  The operations of num-bigint used by the wrapper are
modelled by the Lean integer operations they implement: `+ - *`, `/` and `%` (truncating: `Int.tdiv`, `Int.tmod`),
`>>` (floor division by a power of two), `|` (two's complement), `modpow` (result in `[0,m)` for `m > 0`, panics for a
negative exponent or a zero modulus), `to_bytes_be` (magnitude, no leading zeros, `[0]` for zero).
Errors carry the message of the Rust error.  `BigNumberContext` arguments are ignored by this backend.
-/
namespace Verif.BN

/-- libursa/src/bn/rust.rs:196-199 `to_bytes`: big-endian magnitude; num-bigint returns `[0]` for zero. -/
def toBytes (a : Int) : Bytes :=
  if a = 0 then [0] else ((Nat.digits 256 a.natAbs).reverse.map UInt8.ofNat)

/-- libursa/src/bn/rust.rs:182-186 `from_bytes`. -/
def fromBytes (bs : Bytes) : Int := (ofBe bs : Int)

/-- libursa/src/bn/rust.rs:151-155 `is_bit_set`: `(bn >> n).is_odd()`; the `i32` position is modelled by a `Nat`
(negative positions are cast to huge `usize` values and are not modelled). -/
def isBitSet (a : Int) (n : Nat) : Bool := decide ((a / 2 ^ n) % 2 = 1)

/-- libursa/src/bn/rust.rs:157-162 `set_bit`: `bn |= 1 << n`; same restriction on `n`. -/
def setBit (a : Int) (n : Nat) : Int := Int.lor a ((2 ^ n : Nat) : Int)

/-- libursa/src/bn/rust.rs:465-468 `rshift`, num-bigint `>>` rounds towards minus infinity. -/
def rshift (a : Int) (n : Nat) : Int := a / 2 ^ n

/-- libursa/src/bn/rust.rs:457-459 `lshift1`. -/
def lshift1 (a : Int) : Int := a * 2

/-- libursa/src/bn/rust.rs:461-463 `rshift1`. -/
def rshift1 (a : Int) : Int := a / 2

/-- libursa/src/bn/rust.rs:342-348 `_get_modulus`. -/
def getModulus (n : Int) : Int := if 0 < n then n else -n

/-- libursa/src/bn/rust.rs:323-340 `modulus`. -/
def modulus (a n : Int) : Res String Int :=
  if n = 0 then .err "Cannot have modulus==0"
  else
    let m := getModulus n
    let res := Int.tmod a m
    .ok (if res < 0 then res + m else res)

/-- libursa/src/bn/rust.rs:229-237 `mod_mul`. -/
def modMul (a b n : Int) : Res String Int := modulus (a * b) n

/-- libursa/src/bn/rust.rs:239-246 `mod_sub`. -/
def modSub (a b n : Int) : Res String Int := modulus (a - b) n

/-- libursa/src/bn/rust.rs:248-262 `div` (truncating). -/
def div (a b : Int) : Res String Int :=
  if b = 0 then .err "a cannot be zero" else .ok (Int.tdiv a b)

/-- libursa/src/bn/rust.rs:264-272 `gcd`. -/
def gcd (a b : Int) : Int := (Int.gcd a b : Int)

/-- libursa/src/bn/rust.rs:398-412 the `while` loop of `inverse`; state `(t, new_t, r, new_r)`, returns the final `(t, r)`. -/
def invLoop (t newT r newR : Int) : Int × Int :=
  if newR = 0 then (t, r)
  else
    let q := Int.tdiv r newR
    invLoop newT (t - q * newT) newR (r - q * newR)
  termination_by newR.natAbs
  decreasing_by
    have h : r - Int.tdiv r newR * newR = Int.tmod r newR := by
      rw [Int.tmod_def, Int.mul_comm]
    rw [h, Int.natAbs_tmod]
    exact Nat.mod_lt _ (by omega)

/-- libursa/src/bn/rust.rs:372-426 `inverse`. -/
def inverse (a n : Int) : Res String Int :=
  if n = 1 ∨ n = 0 then .err "Invalid modulus"
  else
    let m := getModulus n
    let (t, r) := invLoop 0 1 m a
    if r > 1 then .err "Not invertible"
    else .ok (if t < 0 then t + m else t)

/-- num-bigint `BigInt::modpow`: panics on a negative exponent or zero modulus; rounds like `mod_floor`. -/
def modpow (a e m : Int) : Res String Int :=
  if e < 0 ∨ m = 0 then .panic else .ok (Int.fmod (a ^ e.toNat) m)

/-- libursa/src/bn/rust.rs:428-443 `set_negative`: the sign is flipped when it differs from the requested one. -/
def setNegative (a : Int) (negative : Bool) : Int :=
  match decide (a < 0), negative with
  | true, true => a
  | false, false => a
  | true, false => -a
  | false, true => -a

/-- libursa/src/bn/rust.rs:301-321 `mod_exp`. -/
def modExp (a e n : Int) : Res String Int :=
  if n = 1 then .ok 0
  else if e < 0 then do
    let res ← inverse a n
    modpow res (setNegative e false) (getModulus n)
  else modpow a e (getModulus n)

/-- libursa/src/bn/rust.rs:350-370 `exp`: zero base gives zero, exponent one a copy, otherwise the exponent must fit `u64`. -/
def exp (a e : Int) : Res String Int :=
  if a = 0 then .ok 0
  else if e = 1 then .ok a
  else if 0 ≤ e ∧ e < 2 ^ 64 then .ok (a ^ e.toNat)
  else .err "'a' cannot be u64"

/-- libursa/src/bn/rust.rs:470-478 `mod_div`. -/
def modDiv (a b p : Int) : Res String Int := do
  let i ← inverse b p
  modulus (a * i) p

end Verif.BN
