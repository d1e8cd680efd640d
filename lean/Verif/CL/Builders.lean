import Verif.CL.Json
import Mathlib.Data.Prod.Lex
/-!
# Model of the builders of schemas, values and proof requests (libursa/src/cl/mod.rs)
-/
namespace Verif.CL

open Verif BN Json

/-- `BTreeMap::insert` / `BTreeSet::insert` on the elements in order: an element with the same key is replaced (elements of
a set with the same key are equal) -/
def bInsert {α κ : Type} [LinearOrder κ] (key : α → κ) (x : α) : List α → List α
  | [] => [x]
  | y :: l =>
    if key x < key y then x :: y :: l
    else if key x = key y then x :: l
    else y :: bInsert key x l

/-! ## Schemas -/

/-- mod.rs:48-63, 77-92 `CredentialSchemaBuilder` and `NonCredentialSchemaBuilder`: the state is the `BTreeSet`, `add_attr`
never fails, `finalize` hands over the set -/
def SchemaBuilder.addAttr (attrs : List String) (attr : String) : List String := bInsert id attr attrs

/-- mod.rs:49-63: `new`, the calls of `add_attr`, `finalize` -/
def SchemaBuilder.build (calls : List String) : List String := calls.foldl SchemaBuilder.addAttr []

/-! ## Values -/

/-- the calls of `CredentialValuesBuilder` -/
inductive ValuesCall where
  | decKnown (attr value : String)
  | decHidden (attr value : String)
  | decCommitment (attr value blinding : String)
  | known (attr : String) (value : Int)
  | hidden (attr : String) (value : Int)
  | commitment (attr : String) (value blinding : Int)

/-- `BigNumber::from_dec` of either build -/
def fromDecOf : Build → String → Res Unit Int
  | .portable, s => fromDec s.toList
  | .native, s => osslFromDec s.toList

/-- the attribute of a call -/
def ValuesCall.attr : ValuesCall → String
  | .decKnown a _ => a
  | .decHidden a _ => a
  | .decCommitment a _ _ => a
  | .known a _ => a
  | .hidden a _ => a
  | .commitment a _ _ => a

/-- mod.rs:189-259: the value to be inserted; the numbers are parsed before the map is touched -/
def ValuesCall.arg (b : Build) : ValuesCall → Res Unit CredentialValue
  | .decKnown _ v => do
    let v ← fromDecOf b v
    pure (.known v)
  | .decHidden _ v => do
    let v ← fromDecOf b v
    pure (.hidden v)
  | .decCommitment _ v bf => do
    let v ← fromDecOf b v
    let bf ← fromDecOf b bf
    pure (.commitment v bf)
  | .known _ v => .ok (.known v)
  | .hidden _ v => .ok (.hidden v)
  | .commitment _ v bf => .ok (.commitment v bf)

/-- mod.rs:189-259 `add_dec_known` .. `add_value_commitment`: what is returned, and the builder afterwards -/
def ValuesBuilder.call (b : Build) (m : Map CredentialValue) (c : ValuesCall) : Res Unit Unit × Map CredentialValue :=
  match c.arg b with
  | .ok v => (.ok (), bInsert Prod.fst (c.attr, v) m)
  | .err e => (.err e, m)
  | .panic => (.panic, m)

/-- mod.rs:183-187, 261-265: `new`, the calls, `finalize`; calls that fail are ignored by the caller -/
def ValuesBuilder.build (b : Build) (calls : List ValuesCall) : Map CredentialValue :=
  calls.foldl (fun m c => (ValuesBuilder.call b m c).2) []

/-! ## Proof requests -/

/-- mod.rs:971-976: the derived order is the order of declaration -/
def PredicateType.rank : PredicateType → Nat
  | .GE => 0
  | .LE => 1
  | .GT => 2
  | .LT => 3

/-- mod.rs:934-939: the derived order of predicates: by name, type, value -/
def Predicate.key (p : Predicate) : String ×ₗ ℕ ×ₗ ℤ := toLex (p.attrName, toLex (p.pType.rank, p.value))

/-- the calls of `SubProofRequestBuilder` -/
inductive RequestCall where
  | reveal (attr : String)
  | predicate (attr pType : String) (value : Int)

/-- mod.rs:904-915: the texts of predicate types -/
def PredicateType.parse : String → Res String PredicateType
  | "GE" => .ok .GE
  | "LE" => .ok .LE
  | "GT" => .ok .GT
  | "LT" => .ok .LT
  | _ => .err "InvalidStructure"

/-- mod.rs:893-896 `add_revealed_attr`, mod.rs:898-925 `add_predicate` -/
def RequestBuilder.call (r : SubProofRequest) : RequestCall → Res String Unit × SubProofRequest
  | .reveal a => (.ok (), { r with revealed := insert a r.revealed })
  | .predicate a t v =>
    match PredicateType.parse t with
    | .ok t => (.ok (), { r with predicates := bInsert Predicate.key { attrName := a, pType := t, value := v } r.predicates })
    | .err e => (.err e, r)
    | .panic => (.panic, r)

/-- mod.rs:884-891, 927-929: `new`, the calls, `finalize` -/
def RequestBuilder.build (calls : List RequestCall) : SubProofRequest :=
  calls.foldl (fun r c => (RequestBuilder.call r c).2) { revealed := ∅, predicates := [] }

/-- mod.rs:870-875 `Deserialize for SubProofRequest`: the elements of the two sets are inserted one after the other -/
def SubProofRequest.fromJson : Reader SubProofRequest := fun j => do
  let fs ← fields j
  let r ← req fs "revealed_attrs" (readVec readStr)
  let p ← req fs "predicates" (readVec Predicate.fromJson)
  pure { revealed := r.toFinset, predicates := p.foldl (fun l x => bInsert Predicate.key x l) [] }

end Verif.CL
