import Verif.CL.Presentation
import Verif.BN.Text
import Mathlib.Data.String.Basic
import Mathlib.Data.Finset.Sort
/-!
# Model of the JSON form of the objects of the CL scheme
(libursa/src/cl/mod.rs with serde's derived `Serialize` / `Deserialize`, read and written by serde_json as in
libursa/src/ffi/cl)

A document is its syntax tree; the text of a document (white space, escapes, number formats) is serde_json's business and
not modelled, nor are documents that give a struct as an array of its fields, which serde accepts too.  Numbers of
documents are integers (fractions are refused by every reader here).  Error messages are not modelled faithfully.
-/
namespace Verif.CL

open Verif BN

/-- a JSON document; the fields of an object are in the order of the text -/
inductive Json where
  | null
  | bool (b : Bool)
  | num (n : Int)
  | str (s : String)
  | arr (l : List Json)
  | obj (fields : List (String × Json))

/-- what `Deserialize` does with a document -/
abbrev Reader (α : Type) := Json → Res String α

/-- the two builds of `BigNumber` -/
inductive Build | portable | native
  deriving DecidableEq, Repr

namespace Json

/-! ## Building blocks -/

/-- `BigNumber`: libursa/src/bn/rust.rs:534-545, libursa/src/bn/openssl.rs:609-620 `Serialize` -/
def ofBn : Build → Int → Json
  | .portable, a => .str (String.ofList (serialize a))
  | .native, a => .str (String.ofList (osslSerialize a))

/-- an error of another type becomes a message -/
def liftErr {α : Type} : Res Unit α → Res String α
  | .ok a => .ok a
  | .err _ => .err "custom"
  | .panic => .panic

/-- `BigNumber`: libursa/src/bn/rust.rs:547-572, libursa/src/bn/openssl.rs:622-647 `Deserialize` -/
def readBn : Build → Reader Int
  | .portable, .str s => liftErr (deserialize s.toList)
  | .native, .str s => liftErr (osslDeserialize s.toList)
  | _, _ => .err "invalid type"

/-- `String` -/
def readStr : Reader String
  | .str s => .ok s
  | _ => .err "invalid type"

/-- unsigned integers below `bound` (`u32`, `u8`) -/
def readNat (bound : Nat) : Reader Nat
  | .num n => if 0 ≤ n ∧ n < bound then .ok n.toNat else .err "invalid value"
  | _ => .err "invalid type"

/-- `u32`; the bound is 2^32 -/
def readU32 : Reader Nat := readNat 4294967296

/-- `i32` -/
def readI32 : Reader Int
  | .num n => if InI32 n then .ok n else .err "invalid value"
  | _ => .err "invalid type"

/-- `Option<T>`: `null` is `None` -/
def ofOpt {α : Type} (w : α → Json) : Option α → Json
  | none => .null
  | some a => w a

/-- `Option<T>` -/
def readOpt {α : Type} (r : Reader α) : Reader (Option α)
  | .null => .ok none
  | j => do
    let a ← r j
    pure (some a)

/-- `Vec<T>` -/
def ofVec {α : Type} (w : α → Json) (l : List α) : Json := .arr (l.map w)

/-- `Vec<T>` -/
def readVec {α : Type} (r : Reader α) : Reader (List α)
  | .arr l => l.mapM r
  | _ => .err "invalid type"

/-- `HashMap<String, T>`, `BTreeMap<String, T>`: an object, in the order of iteration -/
def ofMap {α : Type} (w : α → Json) (m : Map α) : Json := .obj (m.map (fun e => (e.1, w e.2)))

/-- `insert` into a map; the order of a `HashMap` is arbitrary, here: a new key comes last -/
def mapSet {α : Type} (m : Map α) (k : String) (v : α) : Map α :=
  if m.hasKey k then m.map (fun e => if e.1 = k then (k, v) else e) else m ++ [(k, v)]

/-- `HashMap<String, T>`: the entries are inserted one after the other -/
def readEntries {α : Type} (r : Reader α) (fs : List (String × Json)) : Res String (Map α) :=
  fs.foldlM (fun m e => do
    let v ← r e.2
    pure (mapSet m e.1 v)) []

/-- `HashMap<String, T>` -/
def readHashMap {α : Type} (r : Reader α) : Reader (Map α)
  | .obj fs => readEntries r fs
  | _ => .err "invalid type"

/-- `BTreeMap<String, T>`: sorted by key -/
def readBTreeMap {α : Type} (r : Reader α) : Reader (Map α)
  | .obj fs => do
    let m ← readEntries r fs
    pure (m.mergeSort (fun a b => decide (a.1 ≤ b.1)))
  | _ => .err "invalid type"

/-- `BTreeSet<String>`: sorted, without repetitions -/
def readStrSet : Reader (List String) := fun j => do
  let l ← readVec readStr j
  pure (l.toFinset.sort (· ≤ ·))

/-- `HashSet<u32>` -/
def readNatSet : Reader (Finset Nat) := fun j => do
  let l ← readVec readU32 j
  pure l.toFinset

/-- the fields of a struct -/
def fields : Json → Res String (List (String × Json))
  | .obj fs => .ok fs
  | _ => .err "invalid type"

/-- a required field: missing and repeated fields are errors, unknown fields are ignored -/
def req {α : Type} (fs : List (String × Json)) (name : String) (r : Reader α) : Res String α :=
  match fs.filter (fun e => e.1 == name) with
  | [] => .err "missing field"
  | [e] => r e.2
  | _ => .err "duplicate field"

/-- a field with `#[serde(default)]`, or of a type `Option` -/
def dflt {α : Type} (fs : List (String × Json)) (name : String) (d : α) (r : Reader α) : Res String α :=
  match fs.filter (fun e => e.1 == name) with
  | [] => .ok d
  | [e] => r e.2
  | _ => .err "duplicate field"

/-- Text of points, scalars and pairings (`to_string` / `from_string`, libursa/src/pair/amcl.rs:143-151, 296-304, 465-474,
607-615): the AMCL conversions by contract; `from_string` answers with some value for every text. -/
structure Txt (G : Type) where
  enc : G → String
  dec : String → G
  dec_enc : ∀ g, dec (enc g) = g

/-- `Serialize` of points, scalars and pairings: libursa/src/pair/amcl.rs:190-201, 331-342, 513-524, 640-651 -/
def Txt.write {G : Type} (t : Txt G) (g : G) : Json := .str (t.enc g)

/-- `Deserialize`: libursa/src/pair/amcl.rs:203-228, 344-369, 526-551, 653-678 -/
def Txt.read {G : Type} (t : Txt G) : Reader G
  | .str s => .ok (t.dec s)
  | _ => .err "invalid type"

end Json

open Json

section
variable {F G1 G2 GT : Type} (tF : Txt F) (t1 : Txt G1) (t2 : Txt G2) (tT : Txt GT) (b : Build)

/-! ## Keys -/

/-- mod.rs:316-324 `CredentialPrimaryPublicKey`, derived `Serialize` -/
def PrimaryPubKey.toJson (k : PrimaryPubKey) : Json :=
  .obj [("n", ofBn b k.n), ("s", ofBn b k.s), ("r", ofMap (ofBn b) k.r), ("rctxt", ofBn b k.rctxt), ("z", ofBn b k.z)]

/-- mod.rs:338-364 `Deserialize for CredentialPrimaryPublicKey`: a field `rms` of the older format goes into the map -/
def PrimaryPubKey.fromJson : Reader PrimaryPubKey := fun j => do
  let fs ← fields j
  let n ← req fs "n" (readBn b)
  let s ← req fs "s" (readBn b)
  let r ← req fs "r" (readHashMap (readBn b))
  let rctxt ← req fs "rctxt" (readBn b)
  let rms ← dflt fs "rms" 0 (readBn b)
  let z ← req fs "z" (readBn b)
  let r := if rms ≠ 0 then mapSet r "master_secret" rms else r
  pure { n := n, s := s, rctxt := rctxt, z := z, r := r }

/-- mod.rs:367-372 `CredentialPrimaryPrivateKey` -/
def PrimaryPrivKey.toJson (k : PrimaryPrivKey) : Json := .obj [("p", ofBn b k.p), ("q", ofBn b k.q)]

/-- mod.rs:367-372 -/
def PrimaryPrivKey.fromJson : Reader PrimaryPrivKey := fun j => do
  let fs ← fields j
  let p ← req fs "p" (readBn b)
  let q ← req fs "q" (readBn b)
  pure { p := p, q := q }

/-- mod.rs:382-388 `CredentialKeyCorrectnessProof`; a pair is an array of two -/
def KeyProof.toJson (k : KeyProof) : Json :=
  .obj [("c", ofBn b k.c), ("xz_cap", ofBn b k.xzCap),
    ("xr_cap", ofVec (fun e => .arr [.str e.1, ofBn b e.2]) k.xrCap)]

/-- `(String, BigNumber)` -/
def readStrBn : Reader (String × Int)
  | .arr [x, y] => do
    let s ← readStr x
    let a ← readBn b y
    pure (s, a)
  | _ => .err "invalid length"

/-- mod.rs:382-388 -/
def KeyProof.fromJson : Reader KeyProof := fun j => do
  let fs ← fields j
  let c ← req fs "c" (readBn b)
  let xz ← req fs "xz_cap" (readBn b)
  let xr ← req fs "xr_cap" (readVec (readStrBn b))
  pure { c := c, xzCap := xz, xrCap := xr }

/-- mod.rs:404-418 `CredentialRevocationPublicKey` -/
def Rev.PubKey.toJson (k : Rev.PubKey G1 G2) : Json :=
  .obj [("g", t1.write k.g), ("g_dash", t2.write k.gDash), ("h", t1.write k.h), ("h0", t1.write k.h0),
    ("h1", t1.write k.h1), ("h2", t1.write k.h2), ("htilde", t1.write k.htilde), ("h_cap", t2.write k.hCap),
    ("u", t2.write k.u), ("pk", t1.write k.pk), ("y", t2.write k.y)]

/-- mod.rs:404-418 -/
def Rev.PubKey.fromJson : Reader (Rev.PubKey G1 G2) := fun j => do
  let fs ← fields j
  let g ← req fs "g" t1.read
  let gDash ← req fs "g_dash" t2.read
  let h ← req fs "h" t1.read
  let h0 ← req fs "h0" t1.read
  let h1 ← req fs "h1" t1.read
  let h2 ← req fs "h2" t1.read
  let htilde ← req fs "htilde" t1.read
  let hCap ← req fs "h_cap" t2.read
  let u ← req fs "u" t2.read
  let pk ← req fs "pk" t1.read
  let y ← req fs "y" t2.read
  pure { g := g, gDash := gDash, h := h, h0 := h0, h1 := h1, h2 := h2, htilde := htilde, hCap := hCap, u := u,
         pk := pk, y := y }

/-- mod.rs:421-426 `CredentialRevocationPrivateKey` -/
def Rev.PrivKey.toJson (k : Rev.PrivKey F) : Json := .obj [("x", tF.write k.x), ("sk", tF.write k.sk)]

/-- mod.rs:421-426 -/
def Rev.PrivKey.fromJson : Reader (Rev.PrivKey F) := fun j => do
  let fs ← fields j
  let x ← req fs "x" tF.read
  let sk ← req fs "sk" tF.read
  pure { x := x, sk := sk }

/-- mod.rs:272-277 `CredentialPublicKey` -/
def CredPubKey.toJson (k : CredPubKey G1 G2) : Json :=
  .obj [("p_key", k.pKey.toJson b), ("r_key", ofOpt (Rev.PubKey.toJson t1 t2) k.rKey)]

/-- mod.rs:272-277 -/
def CredPubKey.fromJson : Reader (CredPubKey G1 G2) := fun j => do
  let fs ← fields j
  let p ← req fs "p_key" (PrimaryPubKey.fromJson b)
  let r ← dflt fs "r_key" none (readOpt (Rev.PubKey.fromJson t1 t2))
  pure { pKey := p, rKey := r }

/-- mod.rs:308-313 `CredentialPrivateKey` -/
structure CredPrivKey (F : Type) where
  pKey : PrimaryPrivKey
  rKey : Option (Rev.PrivKey F)

/-- mod.rs:308-313 -/
def CredPrivKey.toJson (k : CredPrivKey F) : Json :=
  .obj [("p_key", k.pKey.toJson b), ("r_key", ofOpt (Rev.PrivKey.toJson tF) k.rKey)]

/-- mod.rs:308-313 -/
def CredPrivKey.fromJson : Reader (CredPrivKey F) := fun j => do
  let fs ← fields j
  let p ← req fs "p_key" (PrimaryPrivKey.fromJson b)
  let r ← dflt fs "r_key" none (readOpt (Rev.PrivKey.fromJson tF))
  pure { pKey := p, rKey := r }

/-! ## Issuance -/

/-- mod.rs:797-804 `BlindedCredentialSecrets` -/
def Blinded.toJson (x : Blinded G1) : Json :=
  .obj [("u", ofBn b x.u), ("ur", ofOpt t1.write x.ur), ("hidden_attributes", ofVec .str x.hidden),
    ("committed_attributes", ofMap (ofBn b) x.committed)]

/-- mod.rs:797-804 -/
def Blinded.fromJson : Reader (Blinded G1) := fun j => do
  let fs ← fields j
  let u ← req fs "u" (readBn b)
  let ur ← dflt fs "ur" none (readOpt t1.read)
  let hidden ← req fs "hidden_attributes" readStrSet
  let committed ← req fs "committed_attributes" (readBTreeMap (readBn b))
  pure { u := u, ur := ur, hidden := hidden, committed := committed }

/-- mod.rs:818-823 `CredentialSecretsBlindingFactors` -/
def BlindingFactors.toJson (x : BlindingFactors F) : Json :=
  .obj [("v_prime", ofBn b x.vPrime), ("vr_prime", ofOpt tF.write x.vrPrime)]

/-- mod.rs:818-823 -/
def BlindingFactors.fromJson : Reader (BlindingFactors F) := fun j => do
  let fs ← fields j
  let v ← req fs "v_prime" (readBn b)
  let vr ← dflt fs "vr_prime" none (readOpt tF.read)
  pure { vPrime := v, vrPrime := vr }

/-- mod.rs:848-855 `BlindedCredentialSecretsCorrectnessProof` -/
def BlindedProof.toJson (x : BlindedProof) : Json :=
  .obj [("c", ofBn b x.c), ("v_dash_cap", ofBn b x.vDashCap), ("m_caps", ofMap (ofBn b) x.mCaps),
    ("r_caps", ofMap (ofBn b) x.rCaps)]

/-- mod.rs:848-855 -/
def BlindedProof.fromJson : Reader BlindedProof := fun j => do
  let fs ← fields j
  let c ← req fs "c" (readBn b)
  let v ← req fs "v_dash_cap" (readBn b)
  let m ← req fs "m_caps" (readBTreeMap (readBn b))
  let r ← req fs "r_caps" (readBTreeMap (readBn b))
  pure { c := c, vDashCap := v, mCaps := m, rCaps := r }

/-- mod.rs:623-630 `PrimaryCredentialSignature` -/
def PrimarySig.toJson (x : PrimarySig) : Json :=
  .obj [("m_2", ofBn b x.m2), ("a", ofBn b x.a), ("e", ofBn b x.e), ("v", ofBn b x.v)]

/-- mod.rs:623-630 -/
def PrimarySig.fromJson : Reader PrimarySig := fun j => do
  let fs ← fields j
  let m2 ← req fs "m_2" (readBn b)
  let a ← req fs "a" (readBn b)
  let e ← req fs "e" (readBn b)
  let v ← req fs "v" (readBn b)
  pure { m2 := m2, a := a, e := e, v := v }

/-- mod.rs:643-653 `NonRevocationCredentialSignature` with mod.rs:767-773 `WitnessSignature` -/
def Rev.NonRevSig.toJson (x : Rev.NonRevSig F G1 G2) : Json :=
  .obj [("sigma", t1.write x.sigma), ("c", tF.write x.c), ("vr_prime_prime", tF.write x.vr),
    ("witness_signature", .obj [("sigma_i", t2.write x.sigmaI), ("u_i", t2.write x.uI), ("g_i", t1.write x.wgI)]),
    ("g_i", t1.write x.gI), ("i", .num x.i), ("m2", tF.write x.m2)]

/-- mod.rs:767-773 `WitnessSignature` -/
def readWitnessSig : Reader (G2 × G2 × G1) := fun j => do
  let fs ← fields j
  let s ← req fs "sigma_i" t2.read
  let u ← req fs "u_i" t2.read
  let g ← req fs "g_i" t1.read
  pure (s, u, g)

/-- mod.rs:643-653 -/
def Rev.NonRevSig.fromJson : Reader (Rev.NonRevSig F G1 G2) := fun j => do
  let fs ← fields j
  let sigma ← req fs "sigma" t1.read
  let c ← req fs "c" tF.read
  let vr ← req fs "vr_prime_prime" tF.read
  let w ← req fs "witness_signature" (readWitnessSig t1 t2)
  let gI ← req fs "g_i" t1.read
  let i ← req fs "i" readU32
  let m2 ← req fs "m2" tF.read
  pure { sigma := sigma, c := c, vr := vr, sigmaI := w.1, uI := w.2.1, wgI := w.2.2, gI := gI, i := i, m2 := m2 }

/-- mod.rs:601-606 `CredentialSignature` -/
def CredSig.toJson (x : CredSig F G1 G2) : Json :=
  .obj [("p_credential", x.p.toJson b), ("r_credential", ofOpt (Rev.NonRevSig.toJson tF t1 t2) x.r)]

/-- mod.rs:601-606 -/
def CredSig.fromJson : Reader (CredSig F G1 G2) := fun j => do
  let fs ← fields j
  let p ← req fs "p_credential" (PrimarySig.fromJson b)
  let r ← dflt fs "r_credential" none (readOpt (Rev.NonRevSig.fromJson tF t1 t2))
  pure { p := p, r := r }

/-- mod.rs:655-660 `SignatureCorrectnessProof` -/
def SigProof.toJson (x : SigProof) : Json := .obj [("se", ofBn b x.se), ("c", ofBn b x.c)]

/-- mod.rs:655-660 -/
def SigProof.fromJson : Reader SigProof := fun j => do
  let fs ← fields j
  let se ← req fs "se" (readBn b)
  let c ← req fs "c" (readBn b)
  pure { se := se, c := c }

/-- mod.rs:780-784 `MasterSecret`, a struct with the field `ms` -/
def masterSecretToJson (ms : Int) : Json := .obj [("ms", ofBn b ms)]

/-- mod.rs:780-784 -/
def masterSecretFromJson : Reader Int := fun j => do
  let fs ← fields j
  req fs "ms" (readBn b)

/-- mod.rs:98-109 `CredentialValue`: an enum, the tag is the name of the only field -/
def CredentialValue.toJson : CredentialValue → Json
  | .known v => .obj [("Known", .obj [("value", ofBn b v)])]
  | .hidden v => .obj [("Hidden", .obj [("value", ofBn b v)])]
  | .commitment v bf => .obj [("Commitment", .obj [("value", ofBn b v), ("blinding_factor", ofBn b bf)])]

/-- mod.rs:98-109 -/
def CredentialValue.fromJson : Reader CredentialValue
  | .obj [(tag, j)] => do
    if tag = "Known" then
      let fs ← fields j
      let v ← req fs "value" (readBn b)
      pure (.known v)
    else if tag = "Hidden" then
      let fs ← fields j
      let v ← req fs "value" (readBn b)
      pure (.hidden v)
    else if tag = "Commitment" then
      let fs ← fields j
      let v ← req fs "value" (readBn b)
      let bf ← req fs "blinding_factor" (readBn b)
      pure (.commitment v bf)
    else .err "unknown variant"
  | _ => .err "invalid type"

/-- mod.rs:177-180 `CredentialValuesBuilder`, `Serialize`; mod.rs:161-165 `CredentialValues` has the same fields -/
def valuesToJson (m : Map CredentialValue) : Json := .obj [("attrs_values", ofMap (CredentialValue.toJson b) m)]

/-- mod.rs:161-165 `CredentialValues`, `Deserialize` -/
def valuesFromJson : Reader (Map CredentialValue) := fun j => do
  let fs ← fields j
  req fs "attrs_values" (readBTreeMap (CredentialValue.fromJson b))

/-- mod.rs:35-39, 65-69 `CredentialSchema`, `NonCredentialSchema` -/
def schemaToJson (attrs : List String) : Json := .obj [("attrs", ofVec .str attrs)]

/-- mod.rs:35-39, 65-69 -/
def schemaFromJson : Reader (List String) := fun j => do
  let fs ← fields j
  req fs "attrs" readStrSet

/-! ## Revocation -/

/-- mod.rs:433-437 `RevocationRegistry`, field `accum`; likewise mod.rs:671-675 `Witness` (`omega`), mod.rs:509-513
`RevocationKeyPublic` (`z`), mod.rs:516-520 `RevocationKeyPrivate` (`gamma`) -/
def oneToJson {G : Type} (name : String) (t : Txt G) (x : G) : Json := .obj [(name, t.write x)]

/-- mod.rs:433-437 and the others -/
def oneFromJson {G : Type} (name : String) (t : Txt G) : Reader G := fun j => do
  let fs ← fields j
  req fs name t.read

/-- mod.rs:449-462 `RevocationRegistryDelta`: field names in camel case; an absent previous accumulator and empty sets are
left out.  `ord` is the order in which a `HashSet` is iterated. -/
def Rev.Delta.toJson (ord : Finset Nat → List Nat) (x : Rev.Delta G2) : Json :=
  .obj ((match x.prevAccum with
      | none => []
      | some p => [("prevAccum", t2.write p)]) ++
    [("accum", t2.write x.accum)] ++
    (if x.issued = ∅ then [] else [("issued", ofVec (fun n : Nat => .num n) (ord x.issued))]) ++
    (if x.revoked = ∅ then [] else [("revoked", ofVec (fun n : Nat => .num n) (ord x.revoked))]))

/-- mod.rs:449-462 -/
def Rev.Delta.fromJson : Reader (Rev.Delta G2) := fun j => do
  let fs ← fields j
  let p ← dflt fs "prevAccum" none (readOpt t2.read)
  let a ← req fs "accum" t2.read
  let i ← dflt fs "issued" ∅ readNatSet
  let r ← dflt fs "revoked" ∅ readNatSet
  pure { prevAccum := p, accum := a, issued := i, revoked := r }

/-- mod.rs:535-542 `RevocationTailsGenerator` -/
def Rev.TailsGen.toJson (x : Rev.TailsGen F G2) : Json :=
  .obj [("size", .num x.size), ("current_index", .num x.currentIndex), ("g_dash", t2.write x.gDash),
    ("gamma", tF.write x.gamma)]

/-- mod.rs:535-542 -/
def Rev.TailsGen.fromJson : Reader (Rev.TailsGen F G2) := fun j => do
  let fs ← fields j
  let size ← req fs "size" readU32
  let i ← req fs "current_index" readU32
  let gDash ← req fs "g_dash" t2.read
  let gamma ← req fs "gamma" tF.read
  pure { size := size, currentIndex := i, gDash := gDash, gamma := gamma }

/-- mod.rs:554-556 `count` with the overflow of `u32` -/
def Rev.TailsGen.countU32 (m : Overflow) (x : Rev.TailsGen F G2) : Res String Nat :=
  Rev.u32 m ((x.size : Int) - x.currentIndex)

/-! ## Proofs -/

/-- mod.rs:969-976 `PredicateType`: unit variants are strings -/
def PredicateType.toJson : PredicateType → Json
  | .GE => .str "GE"
  | .LE => .str "LE"
  | .GT => .str "GT"
  | .LT => .str "LT"

/-- mod.rs:969-976 -/
def PredicateType.fromJson : Reader PredicateType
  | .str "GE" => .ok .GE
  | .str "LE" => .ok .LE
  | .str "GT" => .ok .GT
  | .str "LT" => .ok .LT
  | _ => .err "unknown variant"

/-- mod.rs:933-939 `Predicate` -/
def Predicate.toJson (p : Predicate) : Json :=
  .obj [("attr_name", .str p.attrName), ("p_type", p.pType.toJson), ("value", .num p.value)]

/-- mod.rs:933-939 -/
def Predicate.fromJson : Reader Predicate := fun j => do
  let fs ← fields j
  let a ← req fs "attr_name" readStr
  let t ← req fs "p_type" PredicateType.fromJson
  let v ← req fs "value" readI32
  pure { attrName := a, pType := t, value := v }

/-- mod.rs:1021-1030 `PrimaryEqualProof`, derived `Serialize` -/
def EqProof.toJson (x : EqProof) : Json :=
  .obj [("revealed_attrs", ofMap (ofBn b) x.revealed), ("a_prime", ofBn b x.aPrime), ("e", ofBn b x.e),
    ("v", ofBn b x.v), ("m", ofMap (ofBn b) x.m), ("m2", ofBn b x.m2)]

/-- mod.rs:1032-1060 `Deserialize for PrimaryEqualProof`: a field `m1` of the older format goes into the map -/
def EqProof.fromJson : Reader EqProof := fun j => do
  let fs ← fields j
  let revealed ← req fs "revealed_attrs" (readBTreeMap (readBn b))
  let a ← req fs "a_prime" (readBn b)
  let e ← req fs "e" (readBn b)
  let v ← req fs "v" (readBn b)
  let m ← req fs "m" (readHashMap (readBn b))
  let m1 ← dflt fs "m1" 0 (readBn b)
  let m2 ← req fs "m2" (readBn b)
  let m := if m1 ≠ 0 then mapSet m "master_secret" m1 else m
  pure { revealed := revealed, aPrime := a, e := e, v := v, m := m, m2 := m2 }

/-- mod.rs:1062-1071 `PrimaryPredicateInequalityProof` -/
def NeProof.toJson (x : NeProof) : Json :=
  .obj [("u", ofMap (ofBn b) x.u), ("r", ofMap (ofBn b) x.r), ("mj", ofBn b x.mj), ("alpha", ofBn b x.alpha),
    ("t", ofMap (ofBn b) x.t), ("predicate", x.predicate.toJson)]

/-- mod.rs:1062-1071 -/
def NeProof.fromJson : Reader NeProof := fun j => do
  let fs ← fields j
  let u ← req fs "u" (readHashMap (readBn b))
  let r ← req fs "r" (readHashMap (readBn b))
  let mj ← req fs "mj" (readBn b)
  let alpha ← req fs "alpha" (readBn b)
  let t ← req fs "t" (readHashMap (readBn b))
  let p ← req fs "predicate" Predicate.fromJson
  pure { u := u, r := r, mj := mj, alpha := alpha, t := t, predicate := p }

/-- mod.rs:1013-1019 `PrimaryProof`: the second field is called `ge_proofs` -/
def PrimaryProof.toJson (x : PrimaryProof) : Json :=
  .obj [("eq_proof", x.eq.toJson b), ("ge_proofs", ofVec (NeProof.toJson b) x.ne)]

/-- mod.rs:1013-1019 -/
def PrimaryProof.fromJson : Reader PrimaryProof := fun j => do
  let fs ← fields j
  let eq ← req fs "eq_proof" (EqProof.fromJson b)
  let ne ← req fs "ge_proofs" (readVec (NeProof.fromJson b))
  pure { eq := eq, ne := ne }

/-- mod.rs:1180-1197 `NonRevocProofXList` -/
def Rev.XList.toJson (x : Rev.XList F) : Json :=
  .obj [("rho", tF.write x.rho), ("r", tF.write x.r), ("r_prime", tF.write x.r'), ("r_prime_prime", tF.write x.r''),
    ("r_prime_prime_prime", tF.write x.r'''), ("o", tF.write x.o), ("o_prime", tF.write x.o'), ("m", tF.write x.m),
    ("m_prime", tF.write x.m'), ("t", tF.write x.t), ("t_prime", tF.write x.t'), ("m2", tF.write x.m2),
    ("s", tF.write x.s), ("c", tF.write x.c)]

/-- mod.rs:1180-1197 -/
def Rev.XList.fromJson : Reader (Rev.XList F) := fun j => do
  let fs ← fields j
  let rho ← req fs "rho" tF.read
  let r ← req fs "r" tF.read
  let r' ← req fs "r_prime" tF.read
  let r'' ← req fs "r_prime_prime" tF.read
  let r''' ← req fs "r_prime_prime_prime" tF.read
  let o ← req fs "o" tF.read
  let o' ← req fs "o_prime" tF.read
  let m ← req fs "m" tF.read
  let m' ← req fs "m_prime" tF.read
  let t ← req fs "t" tF.read
  let t' ← req fs "t_prime" tF.read
  let m2 ← req fs "m2" tF.read
  let s ← req fs "s" tF.read
  let c ← req fs "c" tF.read
  pure ⟨rho, r, r', r'', r''', o, o', m, m', t, t', m2, s, c⟩

/-- mod.rs:1239-1249 `NonRevocProofCList` -/
def Rev.CList.toJson (x : Rev.CList G1 G2) : Json :=
  .obj [("e", t1.write x.e), ("d", t1.write x.d), ("a", t1.write x.a), ("g", t1.write x.g), ("w", t2.write x.w),
    ("s", t2.write x.s), ("u", t2.write x.u)]

/-- mod.rs:1239-1249 -/
def Rev.CList.fromJson : Reader (Rev.CList G1 G2) := fun j => do
  let fs ← fields j
  let e ← req fs "e" t1.read
  let d ← req fs "d" t1.read
  let a ← req fs "a" t1.read
  let g ← req fs "g" t1.read
  let w ← req fs "w" t2.read
  let s ← req fs "s" t2.read
  let u ← req fs "u" t2.read
  pure ⟨e, d, a, g, w, s, u⟩

/-- mod.rs:1073-1078 `NonRevocProof` -/
def nonRevocToJson (x : Rev.XList F × Rev.CList G1 G2) : Json :=
  .obj [("x_list", x.1.toJson tF), ("c_list", x.2.toJson t1 t2)]

/-- mod.rs:1073-1078 -/
def nonRevocFromJson : Reader (Rev.XList F × Rev.CList G1 G2) := fun j => do
  let fs ← fields j
  let x ← req fs "x_list" (Rev.XList.fromJson tF)
  let c ← req fs "c_list" (Rev.CList.fromJson t1 t2)
  pure (x, c)

/-- mod.rs:989-994 `SubProof` -/
def SubProof.toJson (x : SubProof F G1 G2) : Json :=
  .obj [("primary_proof", x.primary.toJson b), ("non_revoc_proof", ofOpt (nonRevocToJson tF t1 t2) x.nonRevoc)]

/-- mod.rs:989-994 -/
def SubProof.fromJson : Reader (SubProof F G1 G2) := fun j => do
  let fs ← fields j
  let p ← req fs "primary_proof" (PrimaryProof.fromJson b)
  let n ← dflt fs "non_revoc_proof" none (readOpt (nonRevocFromJson tF t1 t2))
  pure { primary := p, nonRevoc := n }

/-- `Vec<u8>`: an array of numbers -/
def bytesToJson (l : Bytes) : Json := ofVec (fun x : UInt8 => .num x.toNat) l

/-- `Vec<u8>` -/
def readBytes : Reader Bytes := fun j => do
  let l ← readVec (readNat 256) j
  pure (l.map UInt8.ofNat)

/-- mod.rs:982-987 `Proof` with mod.rs:1006-1011 `AggregatedProof` -/
def Proof.toJson (x : Proof F G1 G2) : Json :=
  .obj [("proofs", ofVec (SubProof.toJson tF t1 t2 b) x.proofs),
    ("aggregated_proof", .obj [("c_hash", ofBn b x.cHash), ("c_list", ofVec bytesToJson x.cList)])]

/-- mod.rs:1006-1011 `AggregatedProof` -/
def readAggregated : Reader (Int × List Bytes) := fun j => do
  let fs ← fields j
  let c ← req fs "c_hash" (readBn b)
  let l ← req fs "c_list" (readVec readBytes)
  pure (c, l)

/-- mod.rs:982-987 -/
def Proof.fromJson : Reader (Proof F G1 G2) := fun j => do
  let fs ← fields j
  let p ← req fs "proofs" (readVec (SubProof.fromJson tF t1 t2 b))
  let a ← req fs "aggregated_proof" (readAggregated b)
  pure { proofs := p, cHash := a.1, cList := a.2 }

/-- mod.rs:997-1003 `SubProof::revealed_attrs`: the revealed values as decimal texts -/
def SubProof.revealedAttrs (x : SubProof F G1 G2) : Map String :=
  x.primary.eq.revealed.map (fun e => (e.1, String.ofList (match b with
    | .portable => toDec e.2
    | .native => osslToDec e.2)))

end
end Verif.CL
