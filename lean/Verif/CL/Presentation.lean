import Verif.CL.Primary
import Verif.CL.NonRevocProof
import Mathlib.Data.Finset.Basic
/-!
# Model of proof presentation in the CL scheme
(libursa/src/cl/prover.rs `ProofBuilder`, libursa/src/cl/verifier.rs `ProofVerifier`, libursa/src/cl/helpers.rs)

Random values are arguments.  A set of attribute names is a `Finset String`; the order in which a `HashSet` or `BTreeSet`
is iterated is an arbitrary `SetOrder`.  SHA-256, the byte encodings of curve points and the conversions between big
numbers and elements of the group order are arbitrary functions.
-/
namespace Verif.CL

open Verif BN

/-- an iteration order for sets of names -/
structure SetOrder where
  enum : Finset String → List String
  nodup : ∀ s, (enum s).Nodup
  mem : ∀ s k, k ∈ enum s ↔ k ∈ s

/-- constants.rs:27-29 `LARGE_E_START_VALUE` = 2^596 (a stand-alone definition so that it is never unfolded by accident) -/
def LARGE_E_START_VALUE : Int := 2 ^ 596

/-- `HashMap::insert` -/
def Map.insert {V : Type} (m : Map V) (k : String) (v : V) : Map V := (k, v) :: m.filter (fun e => e.1 != k)

/-- mod.rs:872-875 `SubProofRequest`; the `BTreeSet` of predicates is the list of its elements in order -/
structure SubProofRequest where
  revealed : Finset String
  predicates : List Predicate

/-- mod.rs:1023-1030 `PrimaryEqualProof` -/
structure EqProof where
  revealed : Map Int
  aPrime : Int
  e : Int
  v : Int
  m : Map Int
  m2 : Int

/-- mod.rs:1064-1071 `PrimaryPredicateInequalityProof` -/
structure NeProof where
  u : Map Int
  r : Map Int
  mj : Int
  alpha : Int
  t : Map Int
  predicate : Predicate

/-- mod.rs:1015-1019 `PrimaryProof` -/
structure PrimaryProof where
  eq : EqProof
  ne : List NeProof

/-- mod.rs:991-994 `SubProof` -/
structure SubProof (F G1 G2 : Type) where
  primary : PrimaryProof
  nonRevoc : Option (Rev.XList F × Rev.CList G1 G2)

/-- mod.rs:984-987 `Proof` with mod.rs:1008-1011 `AggregatedProof` -/
structure Proof (F G1 G2 : Type) where
  proofs : List (SubProof F G1 G2)
  cHash : Int
  cList : List Bytes

/-! ## Shared computations -/

/-- helpers.rs:315-364 `calc_teq`; `attrs` is the set of unrevealed attributes in iteration order -/
def calcTeq (pk : PrimaryPubKey) (aPrime e v : Int) (m : Map Int) (m2 : Int) (attrs : List String) : Res String Int := do
  let r0 ← modExp aPrime e pk.n
  let r1 ← attrs.foldlM (fun acc k => do
      let r ← Res.ofOption "Value by key not found in pk.r" (pk.r.lookup k)
      let mk ← Res.ofOption "Value by key not found in m_tilde" (m.lookup k)
      let x ← modExp r mk pk.n
      modMul x acc pk.n) r0
  let sv ← modExp pk.s v pk.n
  let r2 ← modMul sv r1 pk.n
  let cm ← modExp pk.rctxt m2 pk.n
  modMul cm r2 pk.n

/-- constants.rs `ITERATION` = 4: the keys "0" … "3" of the maps of an inequality proof -/
def iterKeys : List String := ["0", "1", "2", "3"]

/-- helpers.rs:366-470 `calc_tne`.  The running product over the `t` values is not reduced (`mul`, not `mod_mul`). -/
def calcTne (pk : PrimaryPubKey) (u r : Map Int) (mj alpha : Int) (t : Map Int) (isLess : Bool) :
    Res String (List Int) := do
  let taus ← iterKeys.mapM (fun k => do
    let cu ← Res.ofOption "Value by key not found in u" (u.lookup k)
    let cr ← Res.ofOption "Value by key not found in r" (r.lookup k)
    pedersen pk.z cu pk.s cr pk.n)
  let delta ← Res.ofOption "Value by key not found in r" (r.lookup "DELTA")
  let dp := if isLess then setNegative delta true else delta
  let tauD ← pedersen pk.z mj pk.s dp pk.n
  let q ← iterKeys.foldlM (fun q k => do
    let ct ← Res.ofOption "Value by key not found in t" (t.lookup k)
    let cu ← Res.ofOption "Value by key not found in u" (u.lookup k)
    let x ← modExp ct cu pk.n
    pure (x * q)) 1
  let sa ← modExp pk.s alpha pk.n
  let q' ← modMul sa q pk.n
  pure (taus ++ [tauD, q'])

/-! ## The prover -/

/-- random numbers of one equality proof (prover.rs:1341-1345 and helpers.rs:295-312) -/
structure EqRand where
  m2T : Int
  r : Int
  eT : Int
  vT : Int
  mT : String → Int

/-- random numbers of one inequality proof (prover.rs:1446-1495), indexed by "0" … "3" -/
structure NeRand where
  r : String → Int
  rDelta : Int
  uT : String → Int
  rT : String → Int
  rTDelta : Int
  alphaT : Int

/-- mod.rs:1135-1145 `PrimaryEqualInitProof` -/
structure EqInit where
  aPrime : Int
  t : Int
  eT : Int
  ePrime : Int
  vT : Int
  vPrime : Int
  mT : Map Int
  m2T : Int
  m2 : Int

/-- mod.rs:1158-1168 `PrimaryPredicateInequalityInitProof` -/
structure NeInit where
  cList : List Int
  tauList : List Int
  u : Map Int
  uT : Map Int
  r : Map Int
  rT : Map Int
  alphaT : Int
  predicate : Predicate
  t : Map Int

/-- mod.rs:1091-1094 `PrimaryInitProof` -/
structure PrimaryInit where
  eq : EqInit
  ne : List NeInit

/-- the unrevealed attributes (prover.rs:1347-1354, 1565-1572, verifier.rs:457-464) -/
def unrevealedAttrs (schema nonSchema : Finset String) (req : SubProofRequest) : Finset String :=
  (nonSchema ∪ schema) \ req.revealed

/-- helpers.rs:295-312 `get_mtilde` -/
def getMtilde (attrs : List String) (common : Map Int) (rnd : String → Int) : Map Int :=
  attrs.foldl (fun mt k => if mt.hasKey k then mt else mt.insert k (rnd k)) common

/-- prover.rs:1313-1394 `_init_eq_proof` -/
def initEqProof (ord : SetOrder) (common : Map Int) (pk : PrimaryPubKey) (sig : PrimarySig) (schema nonSchema : Finset String)
    (req : SubProofRequest) (m2t : Option Int) (rnd : EqRand) : Res String EqInit := do
  let m2T := m2t.getD rnd.m2T
  let attrs := ord.enum (unrevealedAttrs schema nonSchema req)
  let mT := getMtilde attrs common rnd.mT
  let sr ← modExp pk.s rnd.r pk.n
  let aPrime ← modMul sr sig.a pk.n
  let ePrime := sig.e - LARGE_E_START_VALUE
  let vPrime := sig.v - sig.e * rnd.r
  let t ← calcTeq pk aPrime rnd.eT rnd.vT mT m2T attrs
  pure { aPrime := aPrime, t := t, eT := rnd.eT, ePrime := ePrime, vT := rnd.vT, vPrime := vPrime, mT := mT, m2T := m2T, m2 := sig.m2 }

/-- the four squares as a map with keys "0" … "3" (helpers.rs:527-537) -/
def squaresMap (q : Nat × Nat × Nat × Nat) : Map Int :=
  [("0", (q.1 : Int)), ("1", (q.2.1 : Int)), ("2", (q.2.2.1 : Int)), ("3", (q.2.2.2 : Int))]

/-- prover.rs:1396-1531 `_init_ne_proof`.  `to_dec()?.parse::<i32>()` succeeds exactly on values in the range of `i32`. -/
def initNeProof (mode : Overflow) (pk : PrimaryPubKey) (mT : Map Int) (vals : Map CredentialValue) (p : Predicate)
    (rnd : NeRand) : Res String NeInit := do
  let cv ← Res.ofOption "Value by key not found in cred_values" (vals.lookup p.attrName)
  if ¬ InI32 cv.value then .err "Value by key has invalid format"
  else do
    let delta ← p.getDelta mode cv.value
    if delta < 0 then .err "Predicate is not satisfied"
    else do
      let q ← fourSquares delta
      let u := squaresMap q
      let ts ← iterKeys.mapM (fun k => do
        let cu ← Res.ofOption "Value by key not found in u1" (u.lookup k)
        let t ← pedersen pk.z cu pk.s (rnd.r k) pk.n
        pure (k, t))
      let tDelta ← pedersen pk.z delta pk.s rnd.rDelta pk.n
      let r := iterKeys.map (fun k => (k, rnd.r k)) ++ [("DELTA", rnd.rDelta)]
      let t := ts ++ [("DELTA", tDelta)]
      let uT := iterKeys.map (fun k => (k, rnd.uT k))
      let rT := iterKeys.map (fun k => (k, rnd.rT k)) ++ [("DELTA", rnd.rTDelta)]
      let mj ← Res.ofOption "Value by key not found in eq_proof.mtilde" (mT.lookup p.attrName)
      let tau ← calcTne pk uT rT mj rnd.alphaT t p.isLess
      pure ⟨ts.map (·.2) ++ [tDelta], tau, u, uT, r, rT, rnd.alphaT, p, t⟩

/-- prover.rs:1214-1275 `_init_primary_proof` -/
def initPrimaryProof (mode : Overflow) (ord : SetOrder) (common : Map Int) (pk : PrimaryPubKey) (sig : PrimarySig)
    (vals : Map CredentialValue) (schema nonSchema : Finset String) (req : SubProofRequest) (m2t : Option Int) (rnd : EqRand)
    (nrnd : Predicate → NeRand) : Res String PrimaryInit := do
  let eq ← initEqProof ord common pk sig schema nonSchema req m2t rnd
  let ne ← req.predicates.mapM (fun p => initNeProof mode pk eq.mT vals p (nrnd p))
  pure ⟨eq, ne⟩

/-- mod.rs:1097-1103 `PrimaryInitProof::as_c_list` -/
def PrimaryInit.asCList (i : PrimaryInit) : List Bytes :=
  toBytes i.eq.aPrime :: (i.ne.map (fun x => x.cList.map toBytes)).flatten

/-- mod.rs:1105-1111 `PrimaryInitProof::as_tau_list` -/
def PrimaryInit.asTauList (i : PrimaryInit) : List Bytes :=
  toBytes i.eq.t :: (i.ne.map (fun x => x.tauList.map toBytes)).flatten

/-- prover.rs:1533-1633 `_finalize_eq_proof`; `ordF` is the order of `BTreeSet` -/
def finalizeEqProof (ordF : SetOrder) (i : EqInit) (c : Int) (schema nonSchema : Finset String) (vals : Map CredentialValue)
    (req : SubProofRequest) : Res String EqProof := do
  let m ← (ordF.enum (unrevealedAttrs schema nonSchema req)).mapM (fun k => do
    let mt ← Res.ofOption "Value by key not found in init_proof.mtilde" (i.mT.lookup k)
    let cv ← Res.ofOption "Value by key not found in attributes_values" (vals.lookup k)
    pure (k, c * cv.value + mt))
  let rev ← (ordF.enum req.revealed).mapM (fun k => do
    let cv ← Res.ofOption "Encoded value not found" (vals.lookup k)
    pure (k, cv.value))
  pure { revealed := rev, aPrime := i.aPrime, e := c * i.ePrime + i.eT, v := c * i.vPrime + i.vT, m := m, m2 := c * i.m2 + i.m2T }

/-- prover.rs:1635-1695 `_finalize_ne_proof`.  Map indexing panics on a missing key. -/
def finalizeNeProof (c : Int) (i : NeInit) (eq : EqProof) : Res String NeProof := do
  let rd ← Res.unwrap (i.r.lookup "DELTA")
  let rtd ← Res.unwrap (i.rT.lookup "DELTA")
  let rows ← iterKeys.mapM (fun k => do
    let ut ← Res.unwrap (i.uT.lookup k)
    let u ← Res.unwrap (i.u.lookup k)
    let rt ← Res.unwrap (i.rT.lookup k)
    let r ← Res.unwrap (i.r.lookup k)
    pure (k, c * u + ut, c * r + rt, u * r))
  let ur := rows.foldl (fun acc x => x.2.2.2 + acc) 0
  let mj ← Res.unwrap (eq.m.lookup i.predicate.attrName)
  pure { u := rows.map (fun x => (x.1, x.2.1)), r := rows.map (fun x => (x.1, x.2.2.1)) ++ [("DELTA", c * rd + rtd)], mj := mj, alpha := (rd - ur) * c + i.alphaT, t := i.t, predicate := i.predicate }

/-- prover.rs:1697-1741 `_finalize_primary_proof` -/
def finalizePrimaryProof (ordF : SetOrder) (i : PrimaryInit) (c : Int) (schema nonSchema : Finset String)
    (vals : Map CredentialValue) (req : SubProofRequest) : Res String PrimaryProof := do
  let eq ← finalizeEqProof ordF i.eq c schema nonSchema vals req
  let ne ← i.ne.mapM (fun x => finalizeNeProof c x eq)
  pure ⟨eq, ne⟩

/-- byte encodings of the curve groups and conversions between big numbers and group-order elements
(libursa/src/cl/helpers.rs:539-545 `bignum_to_group_element`, `group_element_to_bignum`).  `toF` is total here; the Rust
`GroupOrderElement::from_bytes` returns an error for numbers of more than 32 bytes, so that `verify` gives an error for such
a challenge, where the model's `verify` answers `false` (a hash has at most 32 bytes): neither accepts. -/
structure Conv (F G1 G2 GT : Type) where
  g1 : G1 → Bytes
  g2 : G2 → Bytes
  gt : GT → Bytes
  toF : Int → F
  ofF : F → Int

/-- mod.rs:1252-1263 `NonRevocProofCList::as_list` -/
def cListBytes {F G1 G2 GT : Type} (cv : Conv F G1 G2 GT) (c : Rev.CList G1 G2) : List Bytes :=
  [cv.g1 c.e, cv.g1 c.d, cv.g1 c.a, cv.g1 c.g, cv.g2 c.w, cv.g2 c.s, cv.g2 c.u]

/-- mod.rs:1277-1289 `NonRevocProofTauList::as_slice` -/
def tauListBytes {F G1 G2 GT : Type} (cv : Conv F G1 G2 GT) (t : Rev.TauList G1 GT) : List Bytes :=
  [cv.g1 t.t1, cv.g1 t.t2, cv.gt t.t3, cv.gt t.t4, cv.g1 t.t5, cv.g1 t.t6, cv.gt t.t7, cv.gt t.t8]

/-- mod.rs:1081-1088 `InitProof` -/
structure InitProof (F G1 G2 GT : Type) where
  primary : PrimaryInit
  nonRevoc : Option (Rev.NonRevocInit F G1 G2 GT)
  vals : Map CredentialValue
  req : SubProofRequest
  schema : Finset String
  nonSchema : Finset String

/-- prover.rs:843-848 `ProofBuilder` -/
structure Builder (F G1 G2 GT : Type) where
  common : Map Int
  inits : List (InitProof F G1 G2 GT)
  cList : List Bytes
  tauList : List Bytes

/-- prover.rs:289-296 `new_proof_builder` -/
def Builder.new {F G1 G2 GT : Type} : Builder F G1 G2 GT := ⟨[], [], [], []⟩

/-- prover.rs:852-856 `add_common_attribute`; `rnd` is random -/
def Builder.addCommonAttribute {F G1 G2 GT : Type} (b : Builder F G1 G2 GT) (name : String) (rnd : Int) :
    Builder F G1 G2 GT := { b with common := b.common.insert name rnd }

/-- prover.rs:1145-1212 `_check_add_sub_proof_request_params_consistency` of the builder -/
def checkBuilderParams (vals : Map CredentialValue) (req : SubProofRequest) (schema nonSchema : Finset String) :
    Res String Unit :=
  let credAttrs := (vals.map (·.1)).toFinset
  let predAttrs := (req.predicates.map (·.attrName)).toFinset
  if nonSchema ∪ schema ≠ credAttrs then .err "Credential doesn't correspond to credential schema"
  else if req.revealed \ credAttrs ≠ ∅ then .err "Credential doesn't contain requested attribute"
  else if predAttrs \ credAttrs ≠ ∅ then .err "Credential doesn't contain attribute requested in predicate"
  else if predAttrs ∩ req.revealed ≠ ∅ then .err "attribute as a revealed value and as a predicate at the same time"
  else .ok ()

section
variable {F G1 G2 GT : Type} [Field F] [AddCommGroup G1] [Module F G1] [AddCommGroup G2] [Module F G2]
  [AddCommGroup GT] [Module F GT]

/-- random elements of one non-revocation proof -/
structure NonRevRand (F : Type) where
  rho : F
  r : F
  r' : F
  r'' : F
  r''' : F
  o : F
  o' : F
  tau : Rev.XList F

/-- prover.rs:950-969: the non-revocation part is made only if credential, registry, key and witness are all given -/
def initNonRevoc (e : G1 →ₗ[F] G2 →ₗ[F] GT) (sig : CredSig F G1 G2) (reg : Option G2) (rKey : Option (Rev.PubKey G1 G2))
    (witness : Option G2) (x : NonRevRand F) : Option (Rev.NonRevocInit F G1 G2 GT) :=
  match sig.r, reg, rKey, witness with
  | some rc, some acc, some rk, some w =>
    some (Rev.initNonRevocProof e rc acc rk w x.rho x.r x.r' x.r'' x.r''' x.o x.o' x.tau)
  | _, _, _, _ => none

/-- prover.rs:933-1020 `add_sub_proof_request`, the result of the call: the builder if it succeeds, otherwise the error
(`Builder.addCall` below has the state the builder is left in by a call that fails). -/
def Builder.addSubProofRequest (e : G1 →ₗ[F] G2 →ₗ[F] GT) (cv : Conv F G1 G2 GT) (mode : Overflow) (ord : SetOrder)
    (b : Builder F G1 G2 GT) (req : SubProofRequest) (schema nonSchema : Finset String) (sig : CredSig F G1 G2)
    (vals : Map CredentialValue) (pk : CredPubKey G1 G2) (reg : Option G2) (witness : Option G2) (x : NonRevRand F) (rnd : EqRand)
    (nrnd : Predicate → NeRand) : Res String (Builder F G1 G2 GT) := do
  checkBuilderParams vals req schema nonSchema
  let nr := initNonRevoc e sig reg pk.rKey witness x
  let m2t := nr.map (fun i => cv.ofF i.tauParams.m2)
  let pi ← initPrimaryProof mode ord b.common pk.pKey sig.p vals schema nonSchema req m2t rnd nrnd
  let nc := (nr.map (fun i => cListBytes cv i.cList)).getD []
  let nt := (nr.map (fun i => tauListBytes cv i.tauList)).getD []
  pure { common := b.common, inits := b.inits ++ [⟨pi, nr, vals, req, schema, nonSchema⟩], cList := b.cList ++ nc ++ pi.asCList, tauList := b.tauList ++ nt ++ pi.asTauList }

/-- prover.rs:933-1020 `add_sub_proof_request` as a call on a mutable builder: the builder after the call, and the result.
`c_list` and `tau_list` have already been extended by the non-revocation part (prover.rs:981-982) when the primary part fails. -/
def Builder.addCall (e : G1 →ₗ[F] G2 →ₗ[F] GT) (cv : Conv F G1 G2 GT) (mode : Overflow) (ord : SetOrder)
    (b : Builder F G1 G2 GT) (req : SubProofRequest) (schema nonSchema : Finset String) (sig : CredSig F G1 G2)
    (vals : Map CredentialValue) (pk : CredPubKey G1 G2) (reg : Option G2) (witness : Option G2) (x : NonRevRand F) (rnd : EqRand)
    (nrnd : Predicate → NeRand) : Builder F G1 G2 GT × Res String Unit :=
  match checkBuilderParams vals req schema nonSchema with
  | .err m => (b, .err m)
  | .panic => (b, .panic)
  | .ok () =>
    let nr := initNonRevoc e sig reg pk.rKey witness x
    let m2t := nr.map (fun i => cv.ofF i.tauParams.m2)
    let b1 : Builder F G1 G2 GT :=
      { b with
        cList := b.cList ++ (nr.map (fun i => cListBytes cv i.cList)).getD []
        tauList := b.tauList ++ (nr.map (fun i => tauListBytes cv i.tauList)).getD [] }
    match initPrimaryProof mode ord b.common pk.pKey sig.p vals schema nonSchema req m2t rnd nrnd with
    | .err m => (b1, .err m)
    | .panic => (b1, .panic)
    | .ok pi =>
      ({ b1 with
          inits := b1.inits ++ [⟨pi, nr, vals, req, schema, nonSchema⟩]
          cList := b1.cList ++ pi.asCList
          tauList := b1.tauList ++ pi.asTauList }, .ok ())

/-- prover.rs:1106-1112: the optional non-revocation part of one sub proof of `finalize` -/
def finalizeNonRevocOpt (cv : Conv F G1 G2 GT) (c : Int) :
    Option (Rev.NonRevocInit F G1 G2 GT) → Res String (Option (Rev.XList F × Rev.CList G1 G2))
  | some n => do let p ← Rev.finalizeNonRevocProof n (cv.toF c); pure (some p)
  | none => pure none

/-- prover.rs:1105-1129: one sub proof of `finalize` -/
def finalizeSubProof (cv : Conv F G1 G2 GT) (ordF : SetOrder) (c : Int) (i : InitProof F G1 G2 GT) :
    Res String (SubProof F G1 G2) := do
  let nr ← finalizeNonRevocOpt cv c i.nonRevoc
  let p ← finalizePrimaryProof ordF i.primary c i.schema i.nonSchema i.vals i.req
  pure ⟨p, nr⟩

/-- prover.rs:1092-1143 `finalize` -/
def Builder.finalize (cv : Conv F G1 G2 GT) (sha : Bytes → Bytes) (ordF : SetOrder) (b : Builder F G1 G2 GT) (nonce : Int) :
    Res String (Proof F G1 G2) := do
  let c := getHashAsInt sha (b.tauList ++ b.cList ++ [toBytes nonce])
  let proofs ← b.inits.mapM (finalizeSubProof cv ordF c)
  pure ⟨proofs, c, b.cList⟩

/-! ## The verifier -/

/-- mod.rs:1296-1303 `VerifiableCredential` -/
structure VCred (G1 G2 GT : Type) where
  pk : CredPubKey G1 G2
  req : SubProofRequest
  schema : Finset String
  nonSchema : Finset String
  revKeyPub : Option GT
  reg : Option G2

/-- verifier.rs:55-58 `ProofVerifier` -/
structure PVerifier (G1 G2 GT : Type) where
  creds : List (VCred G1 G2 GT)
  common : Map (Option Int)

/-- verifier.rs:46-52 `new_proof_verifier` -/
def PVerifier.new {G1 G2 GT : Type} : PVerifier G1 G2 GT := ⟨[], []⟩

/-- verifier.rs:64-67 `add_common_attribute` -/
def PVerifier.addCommonAttribute {G1 G2 GT : Type} (v : PVerifier G1 G2 GT) (name : String) : PVerifier G1 G2 GT :=
  { v with common := v.common.insert name none }

/-- verifier.rs:322-356 `_check_add_sub_proof_request_params_consistency` of the verifier -/
def checkVerifierParams (req : SubProofRequest) (schema : Finset String) : Res String Unit :=
  if req.revealed \ schema ≠ ∅ then .err "Credential doesn't contain requested attribute"
  else if (req.predicates.map (·.attrName)).toFinset \ schema ≠ ∅ then
    .err "Credential doesn't contain attribute requested in predicate"
  else .ok ()

/-- verifier.rs:109-133 `add_sub_proof_request` -/
def PVerifier.addSubProofRequest {G1 G2 GT : Type} (v : PVerifier G1 G2 GT) (req : SubProofRequest) (schema nonSchema : Finset String)
    (pk : CredPubKey G1 G2) (revKeyPub : Option GT) (reg : Option G2) : Res String (PVerifier G1 G2 GT) := do
  checkVerifierParams req schema
  pure { v with creds := v.creds ++ [⟨pk, req, schema, nonSchema, revKeyPub, reg⟩] }

/-- verifier.rs:376-404: shape check of one sub proof -/
def checkShape (p : PrimaryProof) (req : SubProofRequest) : Res String Unit :=
  if (p.eq.revealed.map (·.1)).toFinset ≠ req.revealed then
    .err "Proof revealed attributes not correspond to requested attributes"
  else if (p.ne.map (·.predicate)).toFinset ≠ req.predicates.toFinset then
    .err "Proof predicates not correspond to requested predicates"
  else .ok ()

/-- verifier.rs:358-410 `_check_verify_params_consistency` -/
def checkVerifyParams (creds : List (VCred G1 G2 GT)) (proof : Proof F G1 G2) : Res String Unit :=
  if proof.proofs.length ≠ creds.length then .err "Invalid proof length"
  else do
    let _ ← (proof.proofs.zip creds).mapM (fun x => checkShape x.1.primary x.2.req)
    pure ()

/-- verifier.rs:446-506 `_verify_equality` -/
def verifyEquality (ordV : SetOrder) (pk : PrimaryPubKey) (p : EqProof) (c : Int) (schema nonSchema : Finset String)
    (req : SubProofRequest) : Res String Int := do
  let t1 ← calcTeq pk p.aPrime p.e p.v p.m p.m2 (ordV.enum (unrevealedAttrs schema nonSchema req))
  let rar0 ← modExp p.aPrime LARGE_E_START_VALUE pk.n
  let rar ← p.revealed.foldlM (fun rar e => do
    let r ← Res.ofOption "Value by key not found in pk.r" (pk.r.lookup e.1)
    let x ← modExp r e.2 pk.n
    modMul x rar pk.n) rar0
  let d ← modDiv pk.z rar pk.n
  let di ← inverse d pk.n
  let t2 ← modExp di c pk.n
  modMul t1 t2 pk.n

/-- verifier.rs:528-541, 556-578: multiply a recomputed value by the inverse of a power of a commitment -/
def tauFix (n c t tau : Int) : Res String Int := do
  let x ← modExp t c n
  let y ← inverse x n
  modMul y tau n

/-- verifier.rs:543-547: the inverse of the commitment is used for `<=` and `<` -/
def signedDeltaCommitment (isLess : Bool) (delta n : Int) : Res String Int :=
  if isLess then inverse delta n else pure delta

/-- verifier.rs:508-581 `_verify_ne_predicate`; `calc_tne` always returns six values, so indexing does not panic -/
def verifyNePredicate (mode : Overflow) (pk : PrimaryPubKey) (p : NeProof) (c : Int) : Res String (List Int) := do
  let tau ← calcTne pk p.u p.r p.mj p.alpha p.t p.predicate.isLess
  let fixed ← (iterKeys.zip tau).mapM (fun x => do
    let ct ← Res.ofOption "Value by key not found in proof.t" (p.t.lookup x.1)
    tauFix pk.n c ct x.2)
  let delta ← Res.ofOption "Value by key not found in proof.t" (p.t.lookup "DELTA")
  let dp ← signedDeltaCommitment p.predicate.isLess delta pk.n
  let dpr ← p.predicate.getDeltaPrime mode
  let zd ← modExp pk.z dpr pk.n
  let tau4 ← Res.unwrap tau[4]?
  let f4 ← tauFix pk.n c (zd * dp) tau4
  let tau5 ← Res.unwrap tau[5]?
  let f5 ← tauFix pk.n c delta tau5
  pure (fixed ++ [f4, f5])

/-- verifier.rs:412-444 `_verify_primary_proof` -/
def verifyPrimaryProof (mode : Overflow) (ordV : SetOrder) (pk : PrimaryPubKey) (c : Int) (p : PrimaryProof)
    (schema nonSchema : Finset String) (req : SubProofRequest) : Res String (List Int) := do
  let t ← verifyEquality ordV pk p.eq c schema nonSchema req
  let ne ← p.ne.mapM (fun x => verifyNePredicate mode pk x c)
  pure (t :: ne.flatten)

/-- verifier.rs:259-298: the loop over the common attributes for one sub proof.  The map is updated in place, so the first
component is what it is left with. -/
def checkCommon (m : Map Int) : Map (Option Int) → Map (Option Int) × Res String Unit
  | [] => ([], .ok ())
  | (k, stored) :: rest =>
    match m.lookup k with
    | none => ((k, stored) :: rest, .err "Blinded value for common attribute not found in proof.m")
    | some x =>
      match stored with
      | some v =>
        if v ≠ x then ((k, some v) :: rest, .err "Blinded value for common attribute different across sub proofs")
        else let (rest', r) := checkCommon m rest; ((k, some v) :: rest', r)
      | none => let (rest', r) := checkCommon m rest; ((k, some x) :: rest', r)

/-- verifier.rs:231-256: the non-revocation part contributes only if proof part, revocation key, registry and registry key
are all present -/
def verifyNonRevoc (e : G1 →ₗ[F] G2 →ₗ[F] GT) (cv : Conv F G1 G2 GT) (c : Int) (p : SubProof F G1 G2) (cred : VCred G1 G2 GT) :
    List Bytes :=
  match p.nonRevoc, cred.pk.rKey, cred.reg, cred.revKeyPub with
  | some nr, some rk, some acc, some z => tauListBytes cv (Rev.verifyNonRevocProof e rk acc z (cv.toF c) nr)
  | _, _, _, _ => []

/-- verifier.rs:228-308: the loop over the sub proofs, returning the state of the common attributes and the bytes to hash -/
def verifyLoop (e : G1 →ₗ[F] G2 →ₗ[F] GT) (cv : Conv F G1 G2 GT) (mode : Overflow) (ordV : SetOrder) (c : Int) :
    List (SubProof F G1 G2 × VCred G1 G2 GT) → Map (Option Int) → Map (Option Int) × Res String (List Bytes)
  | [], common => (common, .ok [])
  | (p, cred) :: rest, common =>
    let nt := verifyNonRevoc e cv c p cred
    match checkCommon p.primary.eq.m common with
    | (common', .err m) => (common', .err m)
    | (common', .panic) => (common', .panic)
    | (common', .ok ()) =>
      match verifyPrimaryProof mode ordV cred.pk.pKey c p.primary cred.schema cred.nonSchema cred.req with
      | .err m => (common', .err m)
      | .panic => (common', .panic)
      | .ok pt =>
        match verifyLoop e cv mode ordV c rest common' with
        | (common'', .ok t) => (common'', .ok (nt ++ pt.map toBytes ++ t))
        | (common'', .err m) => (common'', .err m)
        | (common'', .panic) => (common'', .panic)

/-- verifier.rs:218-320 `verify`: the verifier object after the call and the result -/
def PVerifier.verify (e : G1 →ₗ[F] G2 →ₗ[F] GT) (cv : Conv F G1 G2 GT) (mode : Overflow) (sha : Bytes → Bytes) (ordV : SetOrder)
    (v : PVerifier G1 G2 GT) (proof : Proof F G1 G2) (nonce : Int) : PVerifier G1 G2 GT × Res String Bool :=
  match checkVerifyParams v.creds proof with
  | .err m => (v, .err m)
  | .panic => (v, .panic)
  | .ok () =>
    match verifyLoop e cv mode ordV proof.cHash (proof.proofs.zip v.creds) v.common with
    | (common, .err m) => ({ v with common := common }, .err m)
    | (common, .panic) => ({ v with common := common }, .panic)
    | (common, .ok tau) =>
      ({ v with common := common }, .ok (decide (getHashAsInt sha (tau ++ proof.cList ++ [toBytes nonce]) = proof.cHash)))

end
end Verif.CL
