import Verif.Common
import Verif.Sig.Bytes
import Verif.BN.Model
import Verif.CL.Helpers
import Mathlib.Data.ZMod.Basic
import Mathlib.Algebra.Field.ZMod
/-!
# Model of the scalars and of hashing to the curve in libursa/src/pair/amcl.rs

The file wraps the crate `amcl` (curve BN254), which is not part of /repo.  `Big` is the contract of the `BIG` functions
that are called: a `BIG` is the integer it holds (about 280 bits, signed limbs, so neither the sum of two values of 32
bytes nor a negative difference is cut off).  Text encodings (`to_hex`, `from_hex`) and the random generator's output
distribution are not modelled.
-/
namespace Verif.Pair

open Verif Verif.Sig

/-- The functions of `amcl::bn254::big::BIG` with the modulus `CURVE_ORDER` = `q`, as they are documented.  Nothing is
assumed about `rmod`, `modmul`, `powmod` on negative values, nor about `invmodp` on multiples of `q`. -/
structure Big (q : Nat) where
  rmod : Int → Int
  modneg : Int → Int
  modmul : Int → Int → Int
  powmod : Int → Int → Int
  invmodp : Int → Int
  randomnum : Bytes → Int
  rmod_eq : ∀ a, 0 ≤ a → rmod a = a % q
  modneg_cong : ∀ a, (q : Int) ∣ modneg a + a
  modneg_range : ∀ a, 0 ≤ a → 0 ≤ modneg a ∧ modneg a ≤ q
  modneg_neg : ∀ a, a < 0 → 0 ≤ modneg a
  modmul_eq : ∀ a b, 0 ≤ a → 0 ≤ b → modmul a b = a * b % q
  powmod_eq : ∀ a e, 0 ≤ a → 0 ≤ e → powmod a e = a ^ e.toNat % q
  invmodp_eq : ∀ a, 0 ≤ a → ¬ (q : Int) ∣ a → (0 ≤ invmodp a ∧ invmodp a < q) ∧ (q : Int) ∣ invmodp a * a - 1
  randomnum_range : ∀ seed, 0 ≤ randomnum seed ∧ randomnum seed < q

/-- amcl.rs:6, 377 `MODBYTES`, which is `GroupOrderElement::BYTES_REPR_SIZE` -/
def modBytes : Nat := 32

/-- amcl.rs:371-374 `GroupOrderElement` -/
@[ext] structure Scalar where
  bn : Int
deriving DecidableEq

section
variable {q : Nat} (B : Big q)

/-- amcl.rs:379-384 `GroupOrderElement::new`, with 67-77 `_random_mod_order`; `seed` are the 128 bytes of the system's
generator -/
def Scalar.new (seed : Bytes) : Res String Scalar := .ok ⟨B.randomnum seed⟩

/-- amcl.rs:386-405 `new_from_seed` -/
def Scalar.newFromSeed (seed : Bytes) : Res String Scalar :=
  if seed.length ≠ modBytes then .err "InvalidStructure" else .ok ⟨B.randomnum seed⟩

/-- amcl.rs:407-414 `pow_mod` -/
def Scalar.powMod (x e : Scalar) : Res String Scalar := .ok ⟨B.powmod x.bn e.bn⟩

/-- amcl.rs:416-422 `add_mod` -/
def Scalar.addMod (x r : Scalar) : Res String Scalar := .ok ⟨B.rmod (x.bn + r.bn)⟩

/-- amcl.rs:424-439 `sub_mod` -/
def Scalar.subMod (x r : Scalar) : Res String Scalar :=
  let diff := x.bn - r.bn
  if diff < 0 then .ok ⟨B.modneg diff⟩ else .ok ⟨diff⟩

/-- amcl.rs:441-448 `mul_mod` -/
def Scalar.mulMod (x r : Scalar) : Res String Scalar := .ok ⟨B.modmul x.bn r.bn⟩

/-- amcl.rs:450-456 `inverse` -/
def Scalar.inverse (x : Scalar) : Res String Scalar := .ok ⟨B.invmodp x.bn⟩

/-- amcl.rs:458-463 `mod_neg` -/
def Scalar.modNeg (x : Scalar) : Res String Scalar := .ok ⟨B.modneg x.bn⟩

end

/-- amcl.rs:476-481 `to_bytes`; `BIG::tobytes` writes the 32 low bytes, big endian -/
def Scalar.toBytes (x : Scalar) : Res String Bytes := .ok (toBe modBytes (x.bn % 256 ^ modBytes).toNat)

/-- amcl.rs:483-503 `from_bytes`; `BIG::frombytes` reads 32 bytes, big endian -/
def Scalar.fromBytes (b : Bytes) : Res String Scalar :=
  if b.length > modBytes then .err "InvalidStructure"
  else if b.length < modBytes then .ok ⟨ofBe (List.replicate (modBytes - b.length) 0 ++ b)⟩
  else .ok ⟨ofBe b⟩

/-- `amcl::bn254::ecp::ECP::new_big`: the point with a given x coordinate, the point at infinity if there is none.  The
coordinate is taken modulo the size `p` of the base field; some coordinate belongs to a point. -/
structure Curve (P : Type) where
  p : Nat
  newBig : Int → P
  isInfinity : P → Bool
  newBig_mod : ∀ x, newBig x = newBig (x % p)
  p_pos : 0 < p
  some_point : ∃ x, isInfinity (newBig x) = false

/-- amcl.rs:175-178: `while point.is_infinity() { el.bn.inc(1); point = ECP::new_big(&el.bn); }`; `fuel` bounds the
number of iterations, `fromHash_least` shows that the loop ends before the fuel does -/
def searchFrom {P : Type} (C : Curve P) : Nat → Int → Option P
  | 0, _ => none
  | fuel + 1, x =>
    let point := C.newBig x
    if C.isInfinity point then searchFrom C fuel (x + 1) else some point

/-- amcl.rs:171-181 `PointG1::from_hash` -/
def fromHash {P : Type} (C : Curve P) (hash : Bytes) : Res String P := do
  let el ← Scalar.fromBytes hash
  Res.unwrap (searchFrom C C.p el.bn)

/-- libursa/src/cl/helpers.rs:539-541 `group_element_to_bignum` -/
def scalarToBignum (x : Scalar) : Res String Int := do
  let b ← x.toBytes
  pure (BN.fromBytes b)

/-- libursa/src/cl/helpers.rs:543-545 `bignum_to_group_element`, also issuer.rs:1344, prover.rs:812, 1759 -/
def bignumToScalar (a : Int) : Res String Scalar := Scalar.fromBytes (BN.toBytes a)

/-- The power of `gamma` for a revocation index: libursa/src/cl/mod.rs:527-529, issuer.rs:994-996, 1347-1349, 1364-1366,
1372-1374 -/
def indexPower {q : Nat} (B : Big q) (gamma : Scalar) (index : Nat) : Res String Scalar := do
  let pow ← Scalar.fromBytes (CL.transformU32 index)
  gamma.powMod B pow

/-- libursa/src/cl/prover.rs:1889 `x.add_mod(&ch_num_z.mul_mod(&y)?.mod_neg()?)`: one response of the non-revocation
proof -/
def response {q : Nat} (B : Big q) (x ch y : Scalar) : Res String Scalar := do
  let c ← ch.mulMod B y
  let n ← c.modNeg B
  x.addMod B n

end Verif.Pair
