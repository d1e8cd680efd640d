import Verif.Wasm.Model
/-!
# Serialisation of the handle of the ECDSA scheme (libursa/src/signatures/secp256k1.rs)

A call that may not return is modelled with a bound on the depth of the stack: `none` is "more stack is needed".
-/
namespace Verif.Sig.Handle

/-- The two methods of a serde `Serializer` that are used, with results in `Out`.  `serialize_newtype_struct(name, value)` gets what `value.serialize` gives. -/
structure Serializer (Out : Type) where
  str : List Char → Out
  newtype : String → Out → Out

/-- `serde_json`: a newtype is written as what is in it -/
def json : Serializer (List Char) := ⟨fun s => s, fun _ v => v⟩

variable {Out : Type}

/-- libursa/src/signatures/secp256k1.rs:75-83 `Serialize`: `serialize_newtype_struct("EcdsaSecp256k1Sha256", &self)` serialises `self` again -/
def serialize (S : Serializer Out) : Nat → Option Out
  | 0 => none
  | stack + 1 => (serialize S stack).map (S.newtype "EcdsaSecp256k1Sha256")

/-- libursa/src/utils/macros.rs:157-166: the same call in the key types, which serialises the text of the bytes -/
def serializeKey (S : Serializer Out) (name : String) (key : Bytes) : Nat → Option Out
  | 0 => none
  | _ + 1 => some (S.newtype name (S.str (Symm.hexEncode key)))

/-- libursa/src/signatures/secp256k1.rs:85-110 `Deserialize`: any text is a handle (`some s`: a text; `none`: something else) -/
def deserialize : Option (List Char) → Res Unit Unit
  | some _ => .ok ()
  | none => .err ()

end Verif.Sig.Handle
