import Verif.BN.Model
import Mathlib.Data.Nat.Sqrt
import Mathlib.Data.Nat.Size
/-!
# Model of arithmetic helpers of the CL scheme (libursa/src/cl/helpers.rs, libursa/src/cl/mod.rs)
-/
namespace Verif.CL

/-! ## Four squares -/

/-- helpers.rs:472-474 `largest_square_less_than`: floor of the square root.  Simplification: the Rust goes through `f64`;
for arguments below 2^31 (the only ones passed) `f64::sqrt` is exact enough that its floor is the integer square root. -/
def largestRoot (d : Nat) : Nat := Nat.sqrt d

/-- helpers.rs:510-524 innermost loop, `k` from its start value down to 1 -/
def loopK (d r0 r1 : Nat) : Nat → Option (Nat × Nat × Nat × Nat)
  | 0 => none
  | k + 1 =>
    let r2 := k + 1
    if d = r0 ^ 2 + r1 ^ 2 + r2 ^ 2 then some (r0, r1, r2, 0)
    else
      let r3 := largestRoot (d - r0 ^ 2 - r1 ^ 2 - r2 ^ 2)
      if d = r0 ^ 2 + r1 ^ 2 + r2 ^ 2 + r3 ^ 2 then some (r0, r1, r2, r3)
      else loopK d r0 r1 k

/-- helpers.rs:502-525 middle loop -/
def loopJ (d r0 : Nat) : Nat → Option (Nat × Nat × Nat × Nat)
  | 0 => none
  | j + 1 =>
    let r1 := j + 1
    if d = r0 ^ 2 + r1 ^ 2 then some (r0, r1, 0, 0)
    else
      match loopK d r0 r1 (largestRoot (d - r0 ^ 2 - r1 ^ 2)) with
      | some r => some r
      | none => loopJ d r0 j

/-- helpers.rs:493-526 `'outer` loop -/
def loopI (d : Nat) : Nat → Option (Nat × Nat × Nat × Nat)
  | 0 => none
  | i + 1 =>
    let r0 := i + 1
    if d = r0 ^ 2 then some (r0, 0, 0, 0)
    else
      match loopJ d r0 (largestRoot (d - r0 ^ 2)) with
      | some r => some r
      | none => loopI d i

/-- helpers.rs:478-537 `four_squares`.  For `delta = 0` the loop body never runs and the initial array `[0,0,0,0]` is
returned.  For positive `delta` the Rust would return whatever the array holds if the search ended without `break`;
the model says `panic` there, and `four_squares_spec` shows that this does not happen. -/
def fourSquares (delta : Int) : Res String (Nat × Nat × Nat × Nat) :=
  if delta < 0 then .err "Cannot express a negative number as sum of four squares"
  else
    let d := delta.toNat
    if largestRoot d = 0 then .ok (0, 0, 0, 0)
    else Res.unwrap (loopI d (largestRoot d))

/-! ## Predicates -/

/-- How the compiler treats `i32` overflow: debug builds panic, release builds wrap. -/
inductive Overflow | checked | wrapping
  deriving DecidableEq, Repr

/-- the range of `i32` -/
def InI32 (x : Int) : Prop := -2 ^ 31 ≤ x ∧ x < 2 ^ 31
instance (x : Int) : Decidable (InI32 x) := inferInstanceAs (Decidable (_ ∧ _))

/-- the `i32` result of an arithmetic operation whose exact value is `x` -/
def i32 (m : Overflow) (x : Int) : Res String Int :=
  if InI32 x then .ok x
  else match m with
    | .checked => .panic
    | .wrapping => .ok (Int.bmod x (2 ^ 32))

/-- mod.rs:971-976 `PredicateType` -/
inductive PredicateType | GE | LE | GT | LT
  deriving DecidableEq, Repr

/-- mod.rs:935-939 `Predicate` -/
structure Predicate where
  attrName : String
  pType : PredicateType
  value : Int
  deriving DecidableEq, Repr

namespace Predicate

/-- mod.rs:942-949 `get_delta` -/
def getDelta (m : Overflow) (p : Predicate) (attr : Int) : Res String Int :=
  match p.pType with
  | .GE => i32 m (attr - p.value)
  | .GT => do i32 m ((← i32 m (attr - p.value)) - 1)
  | .LE => i32 m (p.value - attr)
  | .LT => do i32 m ((← i32 m (p.value - attr)) - 1)

/-- mod.rs:951-958 `get_delta_prime` -/
def getDeltaPrime (m : Overflow) (p : Predicate) : Res String Int :=
  match p.pType with
  | .GE => .ok p.value
  | .GT => i32 m (p.value + 1)
  | .LE => .ok p.value
  | .LT => i32 m (p.value - 1)

/-- mod.rs:960-965 `is_less` -/
def isLess (p : Predicate) : Bool :=
  match p.pType with
  | .GE | .GT => false
  | .LE | .LT => true

end Predicate

/-! ## Bit-wise or, byte transformation -/

/-- number of significant bits of the magnitude (libursa/src/bn/rust.rs:147-149 `num_bits`) -/
def numBits (a : Int) : Nat := a.natAbs.size

/-- helpers.rs:262-276 `bitwise_or_big_int` -/
def bitwiseOrBigInt (a b : Int) : Int :=
  (List.range (max (numBits a) (numBits b))).foldl
    (fun result i => if BN.isBitSet a i || BN.isBitSet b i then BN.setBit result i else result) 0

/-- helpers.rs:279-293 `transform_u32_to_array_of_u8`: most significant byte first -/
def transformU32 (x : Nat) : Bytes :=
  [3, 2, 1, 0].map fun i => UInt8.ofNat (x >>> (i * 8))

/-- constants.rs:8, 33-35 -/
def LARGE_VPRIME_PRIME : Nat := 2724

/-- helpers.rs:137-149 `_generate_v_prime_prime` for the random number `a` of `LARGE_VPRIME_PRIME` bits -/
def generateVPrimePrime (a : Int) : Int := bitwiseOrBigInt a (2 ^ (LARGE_VPRIME_PRIME - 1))

/-- helpers.rs:102-122 `encode_attribute`: the hash of the attribute read as a big- or little-endian integer -/
def encodeAttribute (hash : Bytes → Bytes) (attr : Bytes) (little : Bool) : Int :=
  let h := hash attr
  BN.fromBytes (if little then h.reverse else h)

end Verif.CL
