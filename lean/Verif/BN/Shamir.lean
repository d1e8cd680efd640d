import Verif.BN.Model
/-!
# Model of libursa/src/sharing/shamir.rs (Shamir secret sharing over `BigNumber`)

`u8` parameters are natural numbers (the theorems assume `< 256` where it matters); the identifier of a share is the
value of its `u8`.  Randomness is the argument `rng` (the successive results of `rand_range`).
-/
namespace Verif.BN

/-- shamir.rs:19-24 `Element` -/
structure Element where
  modulus : Int
  value : Int
  deriving DecidableEq, Repr

namespace Element

/-- shamir.rs:28-31 `Element::new` (`unwrap` of `modulus`, which fails only for modulus 0). -/
def new (m v : Int) : Res String Element :=
  match BN.modulus v m with
  | .ok r => .ok ⟨m, r⟩
  | _ => .panic

/-- shamir.rs:34-36 `is_valid` -/
def isValid (e : Element) : Bool := decide (0 ≤ e.value) && decide (e.value < e.modulus)

/-- shamir.rs:44-47 `from_bytes` -/
def fromBytes (m : Int) (bs : Bytes) : Res String Element := new m (BN.fromBytes bs)

/-- shamir.rs:99-107 `validate` -/
def validate (a b : Element) : Res String Unit :=
  if a.modulus ≠ b.modulus then .err "Different modulus not allowed" else .ok ()

/-- shamir.rs:50-57 `add` -/
def add (a b : Element) : Res String Element := do
  validate a b
  let value ← BN.modulus (a.value + b.value) a.modulus
  pure ⟨a.modulus, value⟩

/-- shamir.rs:60-67 `sub` -/
def sub (a b : Element) : Res String Element := do
  validate a b
  let value ← modSub a.value b.value a.modulus
  pure ⟨a.modulus, value⟩

/-- shamir.rs:70-77 `mul` -/
def mul (a b : Element) : Res String Element := do
  validate a b
  let value ← modMul a.value b.value b.modulus
  pure ⟨a.modulus, value⟩

/-- shamir.rs:80-87 `div` -/
def div (a b : Element) : Res String Element := do
  validate a b
  let value ← modDiv a.value b.value b.modulus
  pure ⟨a.modulus, value⟩

/-- shamir.rs:90-97 `neg` -/
def neg (a : Element) : Res String Element := do
  let value ← modSub 0 a.value a.modulus
  pure ⟨a.modulus, value⟩

end Element

/-- shamir.rs:145-161 `Polynomial::new`: the intercept and `degree` random coefficients. -/
def polyNew (rng : Nat → Int) (intercept : Element) (degree : Nat) : List Element :=
  intercept :: (List.range degree).map fun i => ⟨intercept.modulus, rng i⟩

/-- shamir.rs:164-175 `evaluate` (Horner from the top coefficient down; `coefficients` is never empty in the code, the
empty vector underflows = panic). -/
def evaluate (coefficients : List Element) (x : Element) : Res String Element :=
  match coefficients.reverse with
  | [] => .panic
  | top :: rest => rest.foldlM (fun out c => do let m ← out.mul x; m.add c) top

/-- shamir.rs:193-208 the inner loop of `interpolate`: basis polynomial `i` at zero. -/
def basisAt (xs : List Element) (zero : Element) (i : Nat) : Res String Element :=
  (List.range xs.length).foldlM (fun basis j =>
    if i = j then pure basis
    else do
      let num ← (xs.getD j zero).neg
      let denom ← (xs.getD i zero).sub (xs.getD j zero)
      let quo ← num.div denom
      basis.mul quo) ⟨zero.modulus, 1⟩

/-- shamir.rs:179-213 `interpolate`. (`x_coordinates[0]` on an empty slice panics.) -/
def interpolate (xs ys : List Element) : Res String Element :=
  match xs with
  | [] => .panic
  | x0 :: _ =>
    (List.range xs.length).foldlM (fun result i => do
      let basis ← basisAt xs ⟨x0.modulus, 0⟩ i
      let group ← (ys.getD i ⟨x0.modulus, 0⟩).mul basis
      result.add group) ⟨x0.modulus, 0⟩

/-- shamir.rs:218-223 `Share` -/
structure Share where
  identifier : Nat
  value : Int
  deriving DecidableEq, Repr

/-- shamir.rs:227-231 `Share::to_bytes`: value bytes followed by the identifier byte -/
def Share.toBytes (s : Share) : Bytes := BN.toBytes s.value ++ [UInt8.ofNat s.identifier]

/-- shamir.rs:234-239 `Share::from_bytes`: panics on the empty slice (`data.len() - 1`). -/
def Share.fromBytes (data : Bytes) (modulus : Int) : Res String Share :=
  match data.getLast? with
  | none => .panic
  | some last => do
    let value ← BN.modulus (BN.fromBytes data.dropLast) modulus
    pure ⟨last.toNat, value⟩

/-- shamir.rs:298-306 the body of the share loop, for loop index `i` -/
def mkShare (field : Int) (polynomial : List Element) (i : Nat) : Res String Share := do
  let identifier := i + 1
  let x ← Element.fromBytes field [UInt8.ofNat identifier]
  let y ← evaluate polynomial x
  pure ⟨identifier, y.value⟩

/-- shamir.rs:259-308 `split_secret` -/
def splitSecret (rng : Nat → Int) (secret : Bytes) (threshold total : Nat) (field : Int) : Res String (List Share) :=
  if total < threshold then .err "total cannot be less than the threshold"
  else if threshold < 2 then .err "threshold must be at least 2"
  else if secret.length = 0 then .err "secret cannot be empty"
  else if field < 2 then .err "field must be greater than 1"
  else
    let element : Element := ⟨field, fromBytes secret⟩
    if ¬ element.isValid then .err "secret is too large"
    else
      let polynomial := polyNew rng element (threshold - 1)
      (List.range total).mapM (mkShare field polynomial)

/-- shamir.rs:331-356 the validation loop of `combine_shares` -/
def collectShares (field : Int) : List Share → List Nat → List Element → List Element →
    Res String (List Element × List Element)
  | [], _, xs, ys => .ok (xs, ys)
  | share :: rest, dups, xs, ys =>
    if share.value = 0 then .err "Share must have a non-zero value"
    else if share.identifier = 0 then .err "Share must have a non-zero identifier"
    else if share.identifier ∈ dups then .err "Duplicate shares cannot be used to reconstruct the secret"
    else do
      let x ← Element.fromBytes field [UInt8.ofNat share.identifier]
      collectShares field rest (share.identifier :: dups) (xs ++ [x]) (ys ++ [⟨field, share.value⟩])

/-- shamir.rs:311-359 `combine_shares` -/
def combineShares (shares : List Share) (field : Int) : Res String Bytes :=
  if shares.length < 2 then .err "Less than two shares cannot be used to reconstruct the secret"
  else if field < 2 then .err "field must be greater than 1"
  else do
    let (xs, ys) ← collectShares field shares [] [] []
    let secret ← interpolate xs ys
    pure (toBytes secret.value)

end Verif.BN
