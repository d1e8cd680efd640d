import Verif.Common
import Mathlib.Algebra.Module.Basic
import Mathlib.Algebra.Field.Basic
/-!
# Model of the `ursa_sharing` crate

`ursa_sharing/src/{lib,shamir,feldman,pedersen,error}.rs`.  The traits `Field` and `Group<Exp>`
(lib.rs:57-91) are modelled by a Mathlib field `F` and an `F`-module `R`; the byte conversions by a `Codec`.
`is_valid` ("not zero and less than the modulus") is `≠ 0`: elements of `F`/`R` are canonical by construction.
`from_usize` is the cast `Nat → F`.  Random generators are functions `Nat → F`, the i-th draw being `rng i`.
-/
namespace Verif.Sharing

/-- `SharingError` (error.rs:26-49). The two payload integers of `PedersenVerifierMinSize` are kept. -/
inductive SharingError where
  | ShareSecretMinSize
  | ShareLimitLessThanThreshold
  | ShareMinThreshold
  | ShareInvalidSecret
  | ShareInvalidIdentifier
  | ShareDuplicateIdentifier
  | ShareInvalidValue
  | PedersenVerifierMinSize (expected found : Nat)
  | PedersenBlindShareInvalid
  | InvalidPoint
  deriving DecidableEq, Repr

abbrev SharingResult := Res SharingError

/-- `shamir::Share` (shamir.rs:24-31); `identifier : u32` is a `Nat` that constructors keep `< 2^32`. -/
structure Share where
  identifier : Nat
  value : Bytes
  deriving DecidableEq, Repr

/-- `Share::new` (shamir.rs:35-40): `identifier as u32` truncates. -/
def Share.new (identifier : Nat) (value : Bytes) : Share := ⟨identifier % 2 ^ 32, value⟩

/-- `impl TryFrom<&[u8]> for Share` (shamir.rs:61-75). -/
def Share.tryFrom (value : Bytes) : SharingResult Share :=
  if value.length < 4 then .err .ShareSecretMinSize
  else .ok ⟨ofBe (value.take 4), value.drop 4⟩

/-- `shamir::Scheme`, `feldman::Scheme`, `pedersen::Scheme` (same two fields in each). -/
structure Scheme where
  threshold : Nat
  limit : Nat
  deriving DecidableEq, Repr

/-- `Scheme::new` (shamir.rs:95-103, feldman.rs:33-41, pedersen.rs:33-41; identical bodies). -/
def Scheme.new (threshold limit : Nat) : SharingResult Scheme :=
  if limit < threshold then .err .ShareLimitLessThanThreshold
  else if threshold < 2 then .err .ShareMinThreshold
  else .ok ⟨threshold, limit⟩

section
variable {F : Type} [Field F] [DecidableEq F]
variable {R : Type} [AddCommGroup R] [Module F R] [DecidableEq R]

/-- `Polynomial::new` (lib.rs:101-115): the intercept followed by `degree - 1` random coefficients. -/
def polyNew (rng : Nat → F) (intercept : F) (degree : Nat) : List F :=
  intercept :: (List.range (degree - 1)).map rng

/-- `Polynomial::evaluate` (lib.rs:118-131): Horner, starting from the last coefficient and walking down.
The empty vector (on which the Rust underflows) cannot be built by `Polynomial::new`; the model returns 0. -/
def evaluate (coefficients : List F) (x : F) : F :=
  match coefficients.reverse with
  | [] => 0
  | top :: rest => rest.foldl (fun out a => out * x + a) top

/-- The loop body of `Scheme::get_shares_and_polynomial` (shamir.rs:128-136): the share number `i` (0-based). -/
def mkShare (cF : Codec F) (polynomial : List F) (i : Nat) : Share :=
  let identifier := i + 1
  let x : F := (identifier : F)
  let y := evaluate polynomial x
  ⟨identifier % 2 ^ 32, cF.enc y⟩

/-- `Scheme::get_shares_and_polynomial` (shamir.rs:115-138). -/
def getSharesAndPolynomial (sch : Scheme) (cF : Codec F) (rng : Nat → F) (secret : F) :
    SharingResult (List Share × List F) :=
  if secret = 0 then .err .ShareInvalidSecret
  else
    let polynomial := polyNew rng secret sch.threshold
    .ok ((List.range sch.limit).map (mkShare cF polynomial), polynomial)

/-- `shamir::Scheme::split_secret` (shamir.rs:106-113). -/
def splitSecret (sch : Scheme) (cF : Codec F) (rng : Nat → F) (secret : F) : SharingResult (List Share) :=
  do let (shares, _) ← getSharesAndPolynomial sch cF rng secret
     pure shares

/-- Validation loop of `combine_shares` (shamir.rs:148-166). `dups` is the set of identifiers seen so far,
`xs`/`ys` are the coordinate vectors. The error of `R::from_bytes` is implementation specific; the model uses
`InvalidPoint` (what the example implementations return for points). -/
def collectShares (F : Type) [Field F] (cR : Codec R) :
    List Share → List Nat → List F → List R → SharingResult (List F × List R)
  | [], _, xs, ys => .ok (xs, ys)
  | share :: rest, dups, xs, ys =>
    if share.identifier = 0 then .err .ShareInvalidIdentifier
    else if share.identifier ∈ dups then .err .ShareDuplicateIdentifier
    else do
      let y ← Res.ofOption .InvalidPoint (cR.dec share.value)
      if y = 0 then .err .ShareInvalidValue
      else collectShares F cR rest (share.identifier :: dups)
            (xs ++ [(share.identifier : F)]) (ys ++ [y])

/-- Inner loop of `interpolate` (shamir.rs:181-199): the Lagrange basis value at 0 for node `i`. -/
def basisAt (xs : List F) (i : Nat) : F :=
  (List.range xs.length).foldl
    (fun basis j => if i = j then basis else basis * (xs.getD j 0 / (xs.getD j 0 - xs.getD i 0))) 1

/-- `Scheme::interpolate` (shamir.rs:172-206). -/
def interpolate (xs : List F) (ys : List R) : R :=
  (List.range xs.length).foldl (fun result i => result + basisAt xs i • ys.getD i 0) 0

/-- `shamir::Scheme::combine_shares` (shamir.rs:141-169). -/
def combineShares (F : Type) [Field F] [DecidableEq F] [Module F R] (sch : Scheme) (cR : Codec R)
    (shares : List Share) : SharingResult R :=
  if shares.length < sch.threshold then .err .ShareMinThreshold
  else do
    let (xs, ys) ← collectShares F cR shares [] [] []
    pure (interpolate xs ys)

/-! ## Feldman -/

/-- `FeldmanVerifier` (feldman.rs:135-141). -/
structure FeldmanVerifier (R : Type) where
  g : R
  commitments : List R
  deriving DecidableEq

/-- `feldman::Scheme::split_secret` (feldman.rs:47-77). The generator is a parameter
(`g.unwrap_or_else(|| R::random(rng))`: caller-supplied or random, either way an arbitrary element). -/
def feldmanSplit (sch : Scheme) (cF : Codec F) (rng : Nat → F) (secret : F) (g : R) :
    SharingResult (FeldmanVerifier R × List Share) := do
  let shamir ← Scheme.new sch.threshold sch.limit
  let (shares, polynomial) ← getSharesAndPolynomial shamir cF rng secret
  pure (⟨g, polynomial.map (fun c => c • g)⟩, shares)

/-- Loop of `verify_share` (feldman.rs:104-115, pedersen.rs:124-134): `i` is the running power of `x`. -/
def commitLoop (x : F) : List R → F → R → R
  | [], _, rhs => rhs
  | v :: vs, i, rhs => commitLoop x vs (i * x) (rhs + (i * x) • v)

/-- `feldman::Scheme::verify_share` (feldman.rs:80-129). -/
def feldmanVerify (sch : Scheme) (cF : Codec F) (share : Share) (v : FeldmanVerifier R) :
    SharingResult Unit :=
  if v.commitments.length < sch.threshold then .err .ShareMinThreshold
  else do
    let s ← Res.ofOption .InvalidPoint (cF.dec share.value)
    if s = 0 then .err .ShareInvalidValue
    else
      match v.commitments with
      | [] => .panic
      | c0 :: cs =>
        let rhs := commitLoop (share.identifier : F) cs 1 c0
        if rhs + s • (-v.g) = 0 then .ok () else .err .ShareInvalidValue

/-- `feldman::Scheme::combine_shares` and `pedersen::Scheme::combine_shares`
(feldman.rs:135-140, pedersen.rs:160-165). -/
def vssCombine (F : Type) [Field F] [DecidableEq F] [Module F R] (sch : Scheme) (cR : Codec R)
    (shares : List Share) : SharingResult R := do
  let shamir ← Scheme.new sch.threshold sch.limit
  combineShares F shamir cR shares

/-! ## Pedersen -/

/-- `PedersenVerifier` (pedersen.rs:169-177). -/
structure PedersenVerifier (R : Type) where
  g : R
  h : R
  commitments : List R
  deriving DecidableEq

/-- `PedersenVssResult` (pedersen.rs:226-235). -/
structure PedersenResult (F R : Type) where
  blinding : F
  blindingShares : List Share
  secretShares : List Share
  verifier : PedersenVerifier R

/-- `pedersen::Scheme::split_secret` (pedersen.rs:48-91). `rng`, `rng'` are the draws for the two polynomials,
`blinding` the drawn blinding factor. `coefficients[i]` for `i < threshold` is in range because
`Polynomial::new` builds exactly `threshold` coefficients. -/
def pedersenSplit (sch : Scheme) (cF : Codec F) (rng rng' : Nat → F) (blinding secret : F) (g h : R) :
    SharingResult (PedersenResult F R) := do
  let shamir ← Scheme.new sch.threshold sch.limit
  let (secretShares, sp) ← getSharesAndPolynomial shamir cF rng secret
  let (blindingShares, bp) ← getSharesAndPolynomial shamir cF rng' blinding
  let commitments := (List.range sch.threshold).map (fun i => sp.getD i 0 • g + bp.getD i 0 • h)
  pure ⟨blinding, blindingShares, secretShares, ⟨g, h, commitments⟩⟩

/-- `pedersen::Scheme::verify_share` (pedersen.rs:94-154). Note: no length check, `commitments[0]` panics on an
empty vector; the blinding share's identifier is not used. -/
def pedersenVerify (_sch : Scheme) (cF : Codec F) (share blindShare : Share) (v : PedersenVerifier R) :
    SharingResult Unit := do
  let s ← Res.ofOption .InvalidPoint (cF.dec share.value)
  if s = 0 then .err .ShareInvalidValue
  else do
    let t ← Res.ofOption .InvalidPoint (cF.dec blindShare.value)
    if t = 0 then .err .PedersenBlindShareInvalid
    else
      match v.commitments with
      | [] => .panic
      | c0 :: cs =>
        let rhs := commitLoop (share.identifier : F) cs 1 c0
        let rhs := rhs + s • (-v.g)
        let rhs := rhs + t • (-v.h)
        if rhs = 0 then .ok () else .err .ShareInvalidValue

/-! ## Verifier byte formats -/

/-- `FeldmanVerifier::to_bytes` (feldman.rs:145-152). -/
def FeldmanVerifier.toBytes (cR : Codec R) (v : FeldmanVerifier R) : Bytes :=
  cR.enc v.g ++ beU32 v.commitments.length ++ (v.commitments.map cR.enc).flatten

/-- The Rust slice `&value[offset..end]`: panics if `end > value.len()`. -/
def slice (value : Bytes) (offset stop : Nat) : SharingResult Bytes :=
  if stop ≤ value.length then .ok ((value.take stop).drop offset) else .panic

/-- The commitment loops of both `TryFrom` implementations (feldman.rs:178-184, pedersen.rs:213-219):
`offset` and `end` are *not* advanced, as in the source. -/
def readCommitments (cR : Codec R) (value : Bytes) (offset stop : Nat) : Nat → SharingResult (List R)
  | 0 => .ok []
  | k + 1 => do
    let bs ← slice value offset stop
    let c ← Res.ofOption .InvalidPoint (cR.dec bs)
    let cs ← readCommitments cR value offset stop k
    pure (c :: cs)

/-- `TryFrom<&[u8]> for FeldmanVerifier` (feldman.rs:155-188). -/
def FeldmanVerifier.tryFrom (cR : Codec R) (value : Bytes) : SharingResult (FeldmanVerifier R) :=
  if value.length < cR.size * 2 + 4 then
    .err (.PedersenVerifierMinSize (cR.size * 2 + 4) value.length)
  else do
    let gb ← slice value 0 cR.size
    let g ← Res.ofOption .InvalidPoint (cR.dec gb)
    let cb ← slice value cR.size (cR.size + 4)
    let cs := ofBe cb
    let commitments ← readCommitments cR value (cR.size + 4) (cR.size + 4 + cR.size) cs
    pure ⟨g, commitments⟩

/-- `PedersenVerifier::to_bytes` (pedersen.rs:181-189). -/
def PedersenVerifier.toBytes (cR : Codec R) (v : PedersenVerifier R) : Bytes :=
  cR.enc v.g ++ cR.enc v.h ++ beU32 v.commitments.length ++ (v.commitments.map cR.enc).flatten

/-- `TryFrom<&[u8]> for PedersenVerifier` (pedersen.rs:192-223). -/
def PedersenVerifier.tryFrom (cR : Codec R) (value : Bytes) : SharingResult (PedersenVerifier R) :=
  if value.length < cR.size * 2 + 4 then
    .err (.PedersenVerifierMinSize (cR.size * 2 + 4) value.length)
  else do
    let gb ← slice value 0 cR.size
    let g ← Res.ofOption .InvalidPoint (cR.dec gb)
    let hb ← slice value cR.size (cR.size + cR.size)
    let h ← Res.ofOption .InvalidPoint (cR.dec hb)
    let cb ← slice value (cR.size + cR.size) (cR.size + cR.size + 4)
    let cs := ofBe cb
    let off := cR.size + cR.size + 4
    let commitments ← readCommitments cR value off (off + cR.size) cs
    pure ⟨g, h, commitments⟩

end

/-- `Share::to_bytes` (shamir.rs:44-48) with an explicit call-depth bound `fuel`: the source appends
`self.to_bytes()` (not `self.value`) to the identifier bytes, i.e. it calls itself unconditionally.
`none` means "still running after `fuel` nested calls". -/
def Share.toBytes : Nat → Share → Option Bytes
  | 0, _ => none
  | fuel + 1, s => do
    let o := beU32 s.identifier
    let rest ← Share.toBytes fuel s
    pure (o ++ rest)

end Verif.Sharing
