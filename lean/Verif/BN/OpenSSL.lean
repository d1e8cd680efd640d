import Verif.BN.Model
import Mathlib.Data.Int.GCD

/-!
# Model of `BigNumber`, OpenSSL backend (libursa/src/bn/openssl.rs), and the rest of the pure backend

`BigNumber { openssl_bn: BigNum }` is modelled by `Int`.  The functions of OpenSSL behind the crate openssl are modelled
by what their manual and source say they compute on integers (sign and magnitude).  Versions of OpenSSL differ in whether
the inverse modulo 1 or -1 is an error or zero; this is the argument `inv1`.  Failures of allocation and numbers of 2^31
bits or more are not modelled.  Errors are `()` where only their presence matters.
-/

namespace Verif.BN

namespace Ossl

/-- libursa/src/bn/openssl.rs:171-173 `to_bytes` (`BN_bn2bin`): the magnitude, nothing for zero -/
def toBytes (a : Int) : Bytes := (Nat.digits 256 a.natAbs).reverse.map UInt8.ofNat

/-- libursa/src/bn/openssl.rs:156-159 `from_bytes` (`BN_bin2bn`) -/
def fromBytes (bs : Bytes) : Int := (ofBe bs : Int)

/-- libursa/src/bn/openssl.rs:141-144 `from_u32`: the argument is a `usize`, cast to `u32` -/
def fromU32 (n : Nat) : Int := ((n % 2 ^ 32 : Nat) : Int)

/-- libursa/src/bn/openssl.rs:128-130 `num_bits` (`BN_num_bits`) -/
def numBits (a : Int) : Nat := a.natAbs.size

/-- libursa/src/bn/openssl.rs:132-134 `is_bit_set` (`BN_is_bit_set`): a bit of the magnitude; false for negative positions -/
def isBitSet (a : Int) (n : Int) : Bool := if n < 0 then false else a.natAbs.testBit n.toNat

/-- libursa/src/bn/openssl.rs:136-139 `set_bit` (`BN_set_bit`): of the magnitude; an error for negative positions -/
def setBit (a : Int) (n : Int) : Res Unit Int :=
  if n < 0 then .err ()
  else
    let m : Int := ((a.natAbs ||| 2 ^ n.toNat : Nat) : Int)
    .ok (if a < 0 then -m else m)

/-- libursa/src/bn/openssl.rs:179-183 `add` (`BN_add`) -/
def add (a b : Int) : Int := a + b
/-- libursa/src/bn/openssl.rs:185-189 `sub` (`BN_sub`) -/
def sub (a b : Int) : Int := a - b
/-- libursa/src/bn/openssl.rs:192-211 `sqr` (`BN_sqr`) -/
def sqr (a : Int) : Int := a * a
/-- libursa/src/bn/openssl.rs:212-236 `mul` (`BN_mul`) -/
def mul (a b : Int) : Int := a * b

/-- libursa/src/bn/openssl.rs:413-437 `modulus` (`BN_nnmod`): the remainder of the truncating division, plus the magnitude
of the modulus if negative -/
def modulus (a n : Int) : Res Unit Int :=
  if n = 0 then .err ()
  else
    let r := Int.tmod a n
    .ok (if r < 0 then (if n < 0 then r - n else r + n) else r)

/-- libursa/src/bn/openssl.rs:238-265 `mod_mul` (`BN_mod_mul`) -/
def modMul (a b n : Int) : Res Unit Int := modulus (a * b) n

/-- libursa/src/bn/openssl.rs:267-294 `mod_sub` (`BN_mod_sub`) -/
def modSub (a b n : Int) : Res Unit Int := modulus (a - b) n

/-- libursa/src/bn/openssl.rs:296-320 `div` (`BN_div`) -/
def div (a b : Int) : Res Unit Int := if b = 0 then .err () else .ok (Int.tdiv a b)

/-- libursa/src/bn/openssl.rs:322-346 `gcd` (`BN_gcd`) -/
def gcd (a b : Int) : Int := (Int.gcd a b : Int)

/-- libursa/src/bn/openssl.rs:350-353 `add_word` -/
def addWord (a : Int) (w : Nat) : Int := a + w
/-- libursa/src/bn/openssl.rs:355-358 `sub_word` -/
def subWord (a : Int) (w : Nat) : Int := a - w
/-- libursa/src/bn/openssl.rs:360-363 `mul_word` -/
def mulWord (a : Int) (w : Nat) : Int := a * w
/-- libursa/src/bn/openssl.rs:365-368 `div_word` (`BN_div_word`): of the magnitude, the sign is kept -/
def divWord (a : Int) (w : Nat) : Res Unit Int :=
  if w = 0 then .err ()
  else
    let m : Int := ((a.natAbs / w : Nat) : Int)
    .ok (if a < 0 then -m else m)

/-- libursa/src/bn/openssl.rs:465-489 `inverse` (`BN_mod_inverse`): an error if there is no inverse, otherwise the
representative below the magnitude of the modulus; `inv1` says whether the inverse modulo 1 and -1 is zero or an error -/
def inverse (inv1 : Bool) (a n : Int) : Res Unit Int :=
  if n = 0 then .err ()
  else if n = 1 ∨ n = -1 then (if inv1 then .ok 0 else .err ())
  else if Int.gcd a n = 1 then .ok (Int.gcdA a n % |n|)
  else .err ()

/-- `BN_mod_exp` for exponents that are not negative: the exponent zero is looked at first, the sign of the modulus is
ignored -/
def bnModExp (a e n : Int) : Res Unit Int :=
  if e = 0 then .ok (if n = 1 ∨ n = -1 then 0 else 1)
  else if n = 0 then .err ()
  else .ok (a ^ e.toNat % |n|)

/-- libursa/src/bn/openssl.rs:491-495 `set_negative`: the magnitude with the sign asked for -/
def setNegative (a : Int) (negative : Bool) : Int :=
  if negative then -((a.natAbs : Nat) : Int) else ((a.natAbs : Nat) : Int)

/-- libursa/src/bn/openssl.rs:370-411 `mod_exp` and `_mod_exp` -/
def modExp (inv1 : Bool) (a e n : Int) : Res Unit Int :=
  if e < 0 then do
    let i ← inverse inv1 a n
    bnModExp i (setNegative e false) n
  else bnModExp a e n

/-- libursa/src/bn/openssl.rs:439-463 `exp` (`BN_exp`): the sign of the exponent is ignored -/
def exp (a e : Int) : Int := a ^ e.natAbs

/-- libursa/src/bn/openssl.rs:501-505 `increment`: of the magnitude, which `to_vec` gives -/
def increment (a : Int) : Int := (a.natAbs : Int) + 1

/-- libursa/src/bn/openssl.rs:507-511 `decrement`: of the magnitude -/
def decrement (a : Int) : Int := (a.natAbs : Int) - 1

/-- libursa/src/bn/openssl.rs:513-517 `lshift1` (`BN_lshift1`) -/
def lshift1 (a : Int) : Int := 2 * a

/-- libursa/src/bn/openssl.rs:519-523 `rshift1` (`BN_rshift1`): of the magnitude, the sign is kept -/
def rshift1 (a : Int) : Int :=
  let m : Int := ((a.natAbs / 2 : Nat) : Int)
  if a < 0 then -m else m

/-- libursa/src/bn/openssl.rs:525-529 `rshift` (`BN_rshift`): the `u32` is cast to `i32`, negative shifts are errors -/
def rshift (a : Int) (n : Nat) : Res Unit Int :=
  if 2 ^ 31 ≤ n % 2 ^ 32 then .err ()
  else
    let m : Int := ((a.natAbs / 2 ^ n : Nat) : Int)
    .ok (if a < 0 then -m else m)

/-- libursa/src/bn/openssl.rs:531-563 `mod_div` and `_mod_div` -/
def modDiv (inv1 : Bool) (a b p : Int) : Res Unit Int := do
  let i ← inverse inv1 b p
  modMul a i p

/-- libursa/src/bn/openssl.rs:572-576 `try_clone`: the magnitude with the sign put back -/
def tryClone (a : Int) : Int := setNegative (((ofBe (toBytes a) : Nat) : Int)) (decide (a < 0))

/-- libursa/src/bn/openssl.rs:589-593 and 603-607 `cmp` and `eq` (`BN_cmp`) -/
def cmp (a b : Int) : Ordering := compare a b

/-- libursa/src/bn/openssl.rs:122-126 `rand_range` (`BN_rand_range`); `draw` is what the generator gives for a positive
bound, a number from 0 to the bound minus 1 -/
def randRange (bound : Int) (draw : Nat) : Res Unit Int := if bound ≤ 0 then .err () else .ok (draw : Int)

/-- libursa/src/bn/openssl.rs:565-568 `random_qr` -/
def randomQr (n : Int) (draw : Nat) : Res Unit Int := do
  let r ← randRange n draw
  modulus (sqr r) n

/-- libursa/src/bn/openssl.rs:74-88 `is_prime` (`BN_is_prime_ex`): `probable` is the outcome of the probabilistic test of
numbers above 1 -/
def isPrime (probable : Nat → Bool) (a : Int) : Bool := decide (1 < a) && probable a.toNat

/-- libursa/src/bn/openssl.rs:90-109 `is_safe_prime` -/
def isSafePrime (probable : Nat → Bool) (a : Int) : Res Unit Bool := do
  let r ← modulus a (fromU32 3)
  .ok (decide (r = fromU32 2) && isPrime probable a && isPrime probable (rshift1 a))

/-- libursa/src/bn/openssl.rs:60-70: the loop of `generate_prime_in_range` over the numbers drawn; `none` if they run out
before a prime is found -/
def primeLoop (probable : Nat → Bool) (start : Int) : List Nat → Option Int
  | [] => none
  | d :: ds => if isPrime probable (d + start) then some (d + start) else primeLoop probable start ds

/-- libursa/src/bn/openssl.rs:51-72 `generate_prime_in_range`; the numbers drawn are below `end - start`, see `randRange` -/
def primeInRange (probable : Nat → Bool) (start stop : Int) (draws : List Nat) : Res Unit (Option Int) :=
  if sub stop start ≤ 0 then .err () else .ok (primeLoop probable start draws)

end Ossl

/-! ## The rest of the pure backend -/

/-- libursa/src/bn/rust.rs:147-149 `num_bits` -/
def numBits (a : Int) : Nat := a.natAbs.size

/-- libursa/src/bn/rust.rs:151-155 `is_bit_set` for all positions: a negative one, cast to `usize`, is beyond all bits, so
that only the sign is left -/
def isBitSetAt (a : Int) (n : Int) : Bool := if n < 0 then decide (a < 0) else isBitSet a n.toNat

/-- libursa/src/bn/rust.rs:157-162 `set_bit` for all positions: for a negative one the mask does not fit into memory and
its allocation panics -/
def setBitAt (a : Int) (n : Int) : Res String Int := if n < 0 then .panic else .ok (setBit a n.toNat)

/-- libursa/src/bn/rust.rs:164-168 `from_u32` -/
def fromU32 (n : Nat) : Int := (n : Int)

/-- libursa/src/bn/rust.rs:205-208 `add` -/
def add (a b : Int) : Int := a + b
/-- libursa/src/bn/rust.rs:210-213 `sub` -/
def sub (a b : Int) : Int := a - b
/-- libursa/src/bn/rust.rs:215-218 `sqr` -/
def sqr (a : Int) : Int := a * a
/-- libursa/src/bn/rust.rs:220-227 `mul` -/
def mul (a b : Int) : Int := a * b

/-- libursa/src/bn/rust.rs:274-277 `add_word` -/
def addWord (a : Int) (w : Nat) : Int := a + w
/-- libursa/src/bn/rust.rs:279-282 `sub_word` -/
def subWord (a : Int) (w : Nat) : Int := a - w
/-- libursa/src/bn/rust.rs:284-287 `mul_word` -/
def mulWord (a : Int) (w : Nat) : Int := a * w
/-- libursa/src/bn/rust.rs:289-299 `div_word` -/
def divWord (a : Int) (w : Nat) : Res String Int :=
  if w = 0 then .err "a cannot be zero" else .ok (Int.tdiv a w)

/-- libursa/src/bn/rust.rs:449-451 `increment` -/
def increment (a : Int) : Int := a + 1
/-- libursa/src/bn/rust.rs:453-455 `decrement` -/
def decrement (a : Int) : Int := a - 1

/-- libursa/src/bn/rust.rs:485-489 `try_clone` -/
def tryClone (a : Int) : Int := a

/-- libursa/src/bn/rust.rs:514-518 and 528-532 `cmp` and `eq` -/
def cmp (a b : Int) : Ordering := compare a b

/-- libursa/src/bn/rust.rs:135-145 `rand_range`: `gen_bigint_range` panics for an empty range; `draw` as above -/
def randRange (bound : Int) (draw : Nat) : Res String Int := if bound ≤ 0 then .panic else .ok (draw : Int)

/-- libursa/src/bn/rust.rs:480-483 `random_qr` -/
def randomQr (n : Int) (draw : Nat) : Res String Int := do
  let r ← randRange n draw
  modulus (sqr r) n

/-- libursa/src/bn/rust.rs:35-49 and 121-123 `is_prime`: `probable` is the outcome of the probabilistic test of
glass_pumpkin -/
def isPrime (probable : Nat → Bool) (a : Int) : Bool := if a < 0 then false else probable a.toNat

/-- libursa/src/bn/rust.rs:100-109: the loop of `generate_prime_in_range` over the numbers drawn -/
def primeLoop (probable : Nat → Bool) : List Nat → Option Nat
  | [] => none
  | d :: ds => if probable (d ||| 1) then some (d ||| 1) else primeLoop probable ds

/-- libursa/src/bn/rust.rs:69-119 `generate_prime_in_range`: the bounds are exchanged if necessary; `gen_biguint_range`
panics for an empty range; the numbers drawn are from the lower bound to the upper bound minus 1 -/
def primeInRange (probable : Nat → Bool) (start stop : Int) (draws : List Nat) : Res String (Option Nat) :=
  if start < 0 then .err "Invalid number for 'start'"
  else if stop < 0 then .err "Invalid number for 'end'"
  else
    let lo := if stop < start then stop else start
    let hi := if stop < start then start else stop
    if hi ≤ lo then .panic else .ok (primeLoop probable draws)

end Verif.BN
