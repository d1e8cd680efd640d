import Verif.CL.Revocation
/-!
# Model of key generation and issuance of primary credentials of the CL scheme
(libursa/src/cl/issuer.rs, libursa/src/cl/prover.rs, libursa/src/cl/mod.rs)

Random values are arguments.  A `HashMap`/`BTreeMap` keyed by attribute name is the list of its entries in iteration
order (any order is allowed for `HashMap`; theorems only assume that keys do not repeat).  SHA-256 is an arbitrary
function `sha`.
-/
namespace Verif.CL

open Verif BN

/-- a map keyed by attribute name: entries in iteration order -/
abbrev Map (V : Type) := List (String × V)

/-- `HashMap::contains_key` / `BTreeMap::contains_key` -/
def Map.hasKey {V : Type} (m : Map V) (k : String) : Bool := m.any (fun e => e.1 == k)

/-- libursa/src/cl/hash.rs:4-12 `get_hash_as_int`; `hash_array` (libursa/src/bn/rust.rs:491-499) feeds the byte strings
one after the other to SHA-256 -/
def getHashAsInt (sha : Bytes → Bytes) (nums : List Bytes) : Int := fromBytes (sha nums.flatten)

/-- libursa/src/utils/commitment.rs:16-30 `get_pedersen_commitment` -/
def pedersen (g1 m g2 r n : Int) : Res String Int := do
  let a ← modExp g1 m n
  let b ← modExp g2 r n
  modMul a b n

/-- mod.rs:98-109 `CredentialValue` -/
inductive CredentialValue where
  | known (value : Int)
  | hidden (value : Int)
  | commitment (value blinding : Int)
  deriving DecidableEq, Repr

namespace CredentialValue

/-- mod.rs:130-135 `is_known` -/
def isKnown : CredentialValue → Bool
  | known _ => true
  | _ => false

/-- mod.rs:137-142 `is_hidden` -/
def isHidden : CredentialValue → Bool
  | hidden _ => true
  | _ => false

/-- mod.rs:144-149 `is_commitment` -/
def isCommitment : CredentialValue → Bool
  | commitment _ _ => true
  | _ => false

/-- mod.rs:151-157 `value` -/
def value : CredentialValue → Int
  | known v => v
  | hidden v => v
  | commitment v _ => v

@[simp] theorem isKnown_known (v : Int) : (known v).isKnown = true := rfl
@[simp] theorem isKnown_hidden (v : Int) : (hidden v).isKnown = false := rfl
@[simp] theorem isKnown_commitment (v b : Int) : (commitment v b).isKnown = false := rfl
@[simp] theorem isHidden_known (v : Int) : (known v).isHidden = false := rfl
@[simp] theorem isHidden_hidden (v : Int) : (hidden v).isHidden = true := rfl
@[simp] theorem isHidden_commitment (v b : Int) : (commitment v b).isHidden = false := rfl
@[simp] theorem isCommitment_known (v : Int) : (known v).isCommitment = false := rfl
@[simp] theorem isCommitment_hidden (v : Int) : (hidden v).isCommitment = false := rfl
@[simp] theorem isCommitment_commitment (v b : Int) : (commitment v b).isCommitment = true := rfl
@[simp] theorem value_known (v : Int) : (known v).value = v := rfl
@[simp] theorem value_hidden (v : Int) : (hidden v).value = v := rfl
@[simp] theorem value_commitment (v b : Int) : (commitment v b).value = v := rfl

end CredentialValue

/-- mod.rs:318-324 `CredentialPrimaryPublicKey` -/
structure PrimaryPubKey where
  n : Int
  s : Int
  rctxt : Int
  r : Map Int
  z : Int

/-- mod.rs:369-372 `CredentialPrimaryPrivateKey` -/
structure PrimaryPrivKey where
  p : Int
  q : Int

/-- mod.rs:376-379 `CredentialPrimaryPublicKeyMetadata` -/
structure PubKeyMetadata where
  xz : Int
  xr : Map Int

/-- mod.rs:384-388 `CredentialKeyCorrectnessProof` -/
structure KeyProof where
  c : Int
  xzCap : Int
  xrCap : List (String × Int)

/-! ## Keys -/

/-- issuer.rs:774-832 `_new_credential_primary_keys`.  `pSafe`, `qSafe` are the generated safe primes, `qr` the random
number squared by `random_qr` (helpers.rs:241-258 and bn/rust.rs:480-483), `xz`, `xr`, `xctx` the random exponents.  `schemaEmpty` says whether
the credential schema has no attribute; `keys` lists the union of the schema and the non-schema attributes in the order
of the hash maps (the maps `xr` and `r` are given the same order; nothing depends on the order of `xr`). -/
def newPrimaryKeys (schemaEmpty : Bool) (keys : List String) (pSafe qSafe qr xz : Int) (xr : String → Int) (xctx : Int) :
    Res String (PrimaryPubKey × PrimaryPrivKey × PubKeyMetadata) :=
  if schemaEmpty then .err "List of attributes is empty"
  else do
    let p := rshift1 pSafe
    let q := rshift1 qSafe
    let n := pSafe * qSafe
    let s ← modulus (qr * qr) n
    let r ← keys.mapM (fun k => do let v ← modExp s (xr k) n; pure (k, v))
    let z ← modExp s xz n
    let rctxt ← modExp s xctx n
    pure ({ n := n, s := s, rctxt := rctxt, r := r, z := z }, { p := p, q := q },
      { xz := xz, xr := keys.map (fun k => (k, xr k)) })

/-- issuer.rs:921-931 and prover.rs:376-384: the bytes hashed in the key correctness proof -/
def keyProofBytes (z : Int) (rs : List Int) (zt : Int) (rts : List Int) : Bytes :=
  toBytes z ++ (rs.map toBytes).flatten ++ toBytes zt ++ (rts.map toBytes).flatten

/-- issuer.rs:877-947 `_new_credential_key_correctness_proof`; `xzT`, `xrT` are the random exponents -/
def newKeyProof (sha : Bytes → Bytes) (pk : PrimaryPubKey) (md : PubKeyMetadata) (xzT : Int) (xrT : String → Int) :
    Res String KeyProof := do
  let zT ← modExp pk.s xzT pk.n
  let rT ← pk.r.mapM (fun e => modExp pk.s (xrT e.1) pk.n)
  let c := getHashAsInt sha [keyProofBytes pk.z (pk.r.map (·.2)) zT rT]
  let xrCap ← pk.r.mapM (fun e => do let x ← Res.unwrap (md.xr.lookup e.1); pure (e.1, c * x + xrT e.1))
  pure { c := c, xzCap := c * md.xz + xzT, xrCap := xrCap }

/-- prover.rs:315-346: the name checks of `_check_credential_key_correctness_proof` -/
def checkKeyNames (pk : PrimaryPubKey) (pr : KeyProof) : Res String Unit :=
  if pk.r.any (fun e => !(pr.xrCap.any (fun x => x.1 == e.1)) && e.1 != "master_secret") then
    .err "Value by key not found in key_correctness_proof.xr_cap"
  else if pr.xrCap.any (fun x => !(Map.hasKey pk.r x.1)) then
    .err "Public key doesn't contains item for key in key_correctness_proof.xr_cap"
  else .ok ()

/-- prover.rs:348-376: the commitments recomputed from a key correctness proof -/
def keyProofCaps (pk : PrimaryPubKey) (pr : KeyProof) : Res String (Int × List (Int × Int)) := do
  let zInv ← inverse pk.z pk.n
  let zCap ← pedersen zInv pr.c pk.s pr.xzCap pk.n
  let rs ← pr.xrCap.mapM (fun x => do
    let rv ← Res.unwrap (pk.r.lookup x.1)
    let ri ← inverse rv pk.n
    let v ← pedersen ri pr.c pk.s x.2 pk.n
    pure (rv, v))
  pure (zCap, rs)

/-- prover.rs:306-398 `_check_credential_key_correctness_proof` -/
def checkKeyProof (sha : Bytes → Bytes) (pk : PrimaryPubKey) (pr : KeyProof) : Res String Unit := do
  checkKeyNames pk pr
  let (zCap, rs) ← keyProofCaps pk pr
  let c := getHashAsInt sha [keyProofBytes pk.z (rs.map (·.1)) zCap (rs.map (·.2))]
  if pr.c = c then pure () else .err "Invalid Credential key correctness proof"

/-! ## Blinding of the holder's secrets -/

/-- mod.rs:799-804 `BlindedCredentialSecrets` -/
structure Blinded (G1 : Type) where
  u : Int
  ur : Option G1
  hidden : List String
  committed : Map Int

/-- mod.rs:835-840 `PrimaryBlindedCredentialSecretsFactors` -/
structure BlindedFactors where
  u : Int
  vPrime : Int
  hidden : List String
  committed : Map Int

/-- mod.rs:850-855 `BlindedCredentialSecretsCorrectnessProof` -/
structure BlindedProof where
  c : Int
  vDashCap : Int
  mCaps : Map Int
  rCaps : Map Int

/-- names of the hidden attributes (prover.rs:413-418) -/
def hiddenNames (vals : Map CredentialValue) : List String :=
  (vals.filter (fun e => e.2.isHidden)).map (·.1)

/-- prover.rs:400-473 `_generate_blinded_primary_credential_secrets_factors`; `vPrime` is random.  The fold looks the key up
before it looks at the accumulator. -/
def blindedFactors (pk : PrimaryPubKey) (vals : Map CredentialValue) (vPrime : Int) : Res String BlindedFactors := do
  let hidden := hiddenNames vals
  let u ← hidden.foldl (fun acc k => do
      let r ← Res.ofOption "Value by key not found in pk.r" (pk.r.lookup k)
      let v ← Res.unwrap (vals.lookup k)
      let a ← acc
      let x ← modExp r v.value pk.n
      modMul a x pk.n)
    (modExp pk.s vPrime pk.n)
  let committed ← (vals.filter (fun e => e.2.isCommitment)).mapM (fun e =>
    match e.2 with
    | .commitment value blinding => do
      let c ← pedersen pk.s blinding pk.z value pk.n
      pure (e.1, c)
    | _ => .panic)
  pure { u := u, vPrime := vPrime, hidden := hidden, committed := committed }

/-- prover.rs:525-571: one step of the loop over hidden and committed attributes; the state is the running `u_tilde` and
the bytes to be hashed -/
def blindedProofStep (pk : PrimaryPubKey) (b : BlindedFactors) (mT rT : String → Int) (st : Int × Bytes)
    (e : String × CredentialValue) : Res String (Int × Bytes) := do
  let r ← Res.ofOption "Value by key not found in pk.r" (pk.r.lookup e.1)
  match e.2 with
  | .hidden _ => do
    let x ← modExp r (mT e.1) pk.n
    let u ← modMul st.1 x pk.n
    pure (u, st.2)
  | .commitment _ _ => do
    let ct ← pedersen pk.z (mT e.1) pk.s (rT e.1) pk.n
    let ca ← Res.ofOption "Value by key not found in committed_attributes" (b.committed.lookup e.1)
    pure (st.1, st.2 ++ toBytes ct ++ toBytes ca)
  | .known _ => pure st

/-- prover.rs:592-612: the response for the blinding factor of a committed attribute -/
def rCapOf (rT : String → Int) (c : Int) (e : String × CredentialValue) : Option (String × Int) :=
  match e.2 with
  | .commitment _ blinding => some (e.1, rT e.1 + c * blinding)
  | _ => none

/-- prover.rs:494-622 `_new_blinded_credential_secrets_correctness_proof`; `vT`, `mT`, `rT` are random -/
def newBlindedProof (sha : Bytes → Bytes) (pk : PrimaryPubKey) (b : BlindedFactors) (nonce : Int)
    (vals : Map CredentialValue) (vT : Int) (mT rT : String → Int) : Res String BlindedProof := do
  let secret := vals.filter (fun e => e.2.isHidden || e.2.isCommitment)
  let u0 ← modExp pk.s vT pk.n
  let (uT, values) ← secret.foldlM (blindedProofStep pk b mT rT) (u0, [])
  let c := getHashAsInt sha [values ++ toBytes b.u ++ toBytes uT ++ toBytes nonce]
  pure
    { c := c
      vDashCap := c * b.vPrime + vT
      mCaps := secret.map (fun e => (e.1, mT e.1 + c * e.2.value))
      rCaps := secret.filterMap (rCapOf rT c) }

/-- mod.rs:820-823 `CredentialSecretsBlindingFactors` -/
structure BlindingFactors (F : Type) where
  vPrime : Int
  vrPrime : Option F

section
variable {F G1 G2 GT : Type} [Field F] [AddCommGroup G1] [Module F G1] [AddCommGroup G2] [Module F G2]
  [AddCommGroup GT] [Module F GT]

/-- mod.rs:274-277 `CredentialPublicKey` -/
structure CredPubKey (G1 G2 : Type) where
  pKey : PrimaryPubKey
  rKey : Option (Rev.PubKey G1 G2)

/-- prover.rs:69-144 `blind_credential_secrets` -/
def blindCredentialSecrets (sha : Bytes → Bytes) (pk : CredPubKey G1 G2) (kp : KeyProof) (vals : Map CredentialValue)
    (nonce : Int) (vPrime vT : Int) (mT rT : String → Int) (vrPrime : F) :
    Res String (Blinded G1 × BlindingFactors F × BlindedProof) := do
  checkKeyProof sha pk.pKey kp
  let b ← blindedFactors pk.pKey vals vPrime
  let pr ← newBlindedProof sha pk.pKey b nonce vals vT mT rT
  pure ({ u := b.u, ur := pk.rKey.map (fun rk => Rev.blindedRevocationSecret rk vrPrime), hidden := b.hidden,
          committed := b.committed },
        { vPrime := b.vPrime, vrPrime := pk.rKey.map (fun _ => vrPrime) }, pr)

/-! ## The issuer's side -/

/-- issuer.rs:1022-1053: the recomputed commitment to the hidden attributes.  In the closure the key is looked up first
(an error), then `m_caps[attr]` (a panic), and only then is the accumulator inspected; a panic is final. -/
def blindedCap (pk : PrimaryPubKey) (b : Blinded G1) (pr : BlindedProof) : Res String Int := do
  let ui ← inverse b.u pk.n
  let uc ← modExp ui pr.c pk.n
  let sv ← modExp pk.s pr.vDashCap pk.n
  b.hidden.foldl (fun acc k =>
      match acc with
      | .panic => .panic
      | _ => do
        let r ← Res.ofOption "Value by key not found in cred_pr_pub_key.r" (pk.r.lookup k)
        let m ← Res.unwrap (pr.mCaps.lookup k)
        let a ← acc
        let x ← modExp r m pk.n
        modMul a x pk.n)
    (modMul uc sv pk.n)

/-- issuer.rs:1055-1080: recomputed commitment for one committed attribute -/
def committedCap (pk : PrimaryPubKey) (pr : BlindedProof) (e : String × Int) : Res String Int := do
  let m ← Res.unwrap (pr.mCaps.lookup e.1)
  let i ← inverse e.2 pk.n
  let ic ← modExp i pr.c pk.n
  let r ← Res.unwrap (pr.rCaps.lookup e.1)
  let p ← pedersen pk.z m pk.s r pk.n
  modMul ic p pk.n

/-- issuer.rs:1011-1102 `_check_blinded_credential_secrets_correctness_proof` -/
def checkBlindedProof (sha : Bytes → Bytes) (b : Blinded G1) (pr : BlindedProof) (nonce : Int) (pk : PrimaryPubKey) :
    Res String Unit := do
  let uCap ← blindedCap pk b pr
  let caps ← b.committed.mapM (fun e => do
    let c ← committedCap pk pr e
    pure (toBytes c ++ toBytes e.2))
  let c := getHashAsInt sha [caps.flatten ++ toBytes b.u ++ toBytes uCap ++ toBytes nonce]
  if pr.c = c then pure () else .err "Invalid BlindedCredentialSecrets correctness proof"

/-- `u32 as i32` (issuer.rs:1115) -/
def u32AsI32 (i : Nat) : Int := if i < 2 ^ 31 then (i : Int) else (i : Int) - 2 ^ 32

/-- UTF-8 bytes of a string -/
def utf8 (s : String) : Bytes := s.toUTF8.data.toList

/-- issuer.rs:1104-1131 `_gen_credential_context` -/
def genCredentialContext (sha : Bytes → Bytes) (proverId : String) (revIdx : Option Nat) : Int :=
  let idx : Int := (revIdx.map u32AsI32).getD (-1)
  getHashAsInt sha [toBytes (encodeAttribute sha (utf8 proverId) true) ++ toBytes (encodeAttribute sha (utf8 (toString idx)) true)]

/-- mod.rs:625-630 `PrimaryCredentialSignature` -/
structure PrimarySig where
  m2 : Int
  a : Int
  e : Int
  v : Int

/-- mod.rs:657-660 `SignatureCorrectnessProof` -/
structure SigProof where
  se : Int
  c : Int

/-- issuer.rs:1172-1248 `_sign_primary_credential`: `(a, q)` -/
def signPrimary (pk : PrimaryPubKey) (sk : PrimaryPrivKey) (ctx : Int) (vals : Map CredentialValue) (v : Int)
    (b : Blinded G1) (e : Int) : Res String (Int × Int) := do
  let rx ← modExp pk.s v pk.n
  let rx ← if b.u ≠ 0 then modMul rx b.u pk.n else pure rx
  let cx ← modExp pk.rctxt ctx pk.n
  let rx ← modMul rx cx pk.n
  let rx ← (vals.filter (fun e => e.2.isKnown)).foldlM (fun rx e => do
      let r ← Res.ofOption "Value by key not found in pk.r" (pk.r.lookup e.1)
      let x ← modExp r e.2.value pk.n
      modMul x rx pk.n) rx
  let q ← modDiv pk.z rx pk.n
  let n := sk.p * sk.q
  let eInv ← inverse e n
  let a ← modExp q eInv pk.n
  pure (a, q)

/-- issuer.rs:1133-1170 `_new_primary_credential`; `va` is the random number of `generate_v_prime_prime`, `e` the random
prime -/
def newPrimaryCredential (pk : PrimaryPubKey) (sk : PrimaryPrivKey) (ctx : Int) (vals : Map CredentialValue) (va : Int)
    (b : Blinded G1) (e : Int) : Res String (PrimarySig × Int) := do
  let v := generateVPrimePrime va
  let (a, q) ← signPrimary pk sk ctx vals v b e
  pure ({ m2 := ctx, a := a, e := e, v := v }, q)

/-- issuer.rs:1250-1293 `_new_signature_correctness_proof`; `r` is the random exponent -/
def newSigProof (sha : Bytes → Bytes) (pk : PrimaryPubKey) (sk : PrimaryPrivKey) (sig : PrimarySig) (q nonce r : Int) :
    Res String SigProof := do
  let n := sk.p * sk.q
  let aCap ← modExp q r pk.n
  let c := getHashAsInt sha [toBytes q ++ toBytes sig.a ++ toBytes aCap ++ toBytes nonce]
  let ei ← inverse sig.e n
  let ce ← modMul c ei n
  let se ← modSub r ce n
  pure { se := se, c := c }

/-- mod.rs:603-606 `CredentialSignature` -/
structure CredSig (F G1 G2 : Type) where
  p : PrimarySig
  r : Option (Rev.NonRevSig F G1 G2)

/-- issuer.rs:246-313 `sign_credential`; `va`, `e`, `rnd` are random -/
def signCredential (sha : Bytes → Bytes) (proverId : String) (b : Blinded G1) (bp : BlindedProof)
    (nonce issuanceNonce : Int) (vals : Map CredentialValue) (pk : PrimaryPubKey) (sk : PrimaryPrivKey) (va e rnd : Int) :
    Res String (CredSig F G1 G2 × SigProof) := do
  checkBlindedProof sha b bp nonce pk
  let ctx := genCredentialContext sha proverId none
  let (sig, q) ← newPrimaryCredential pk sk ctx vals va b e
  let sp ← newSigProof sha pk sk sig q issuanceNonce rnd
  pure ({ p := sig, r := none }, sp)

/-- issuer.rs:383-460 `sign_credential_with_revoc`: new registry, optional delta.  `toF` is `bignum_to_group_element`
(helpers.rs:543-545), `vr`, `c` the random elements of the non-revocation credential.  `_new_non_revocation_credential`
returns an error when the holder's `ur` or one of the revocation keys is missing (issuer.rs:1321-1345). -/
def signCredentialWithRevoc (m : Overflow) (sha : Bytes → Bytes) (toF : Int → F) (proverId : String) (b : Blinded G1)
    (bp : BlindedProof) (nonce issuanceNonce : Int) (vals : Map CredentialValue) (pk : CredPubKey G1 G2)
    (sk : PrimaryPrivKey) (rsk : Option (Rev.PrivKey F)) (revIdx maxCredNum : Nat) (byDefault : Bool) (reg : G2) (gamma : F)
    (tails : List G2) (va e rnd : Int) (vr c : F) :
    Res String (CredSig F G1 G2 × SigProof × G2 × Option (Rev.Delta G2)) := do
  checkBlindedProof sha b bp nonce pk.pKey
  let ctx := genCredentialContext sha proverId (some revIdx)
  let (sig, q) ← newPrimaryCredential pk.pKey sk ctx vals va b e
  let ur ← Res.ofOption "No revocation part present in blinded master secret." b.ur
  let rpk ← Res.ofOption "No revocation part present in credential revocation public key." pk.rKey
  let rsk ← Res.ofOption "No revocation part present in credential revocation private key." rsk
  let (rc, reg', delta) ← Rev.newNonRevocationCredential m revIdx (toF ctx) ur rpk rsk maxCredNum byDefault reg gamma tails vr c
  let sp ← newSigProof sha pk.pKey sk sig q issuanceNonce rnd
  pure ({ p := sig, r := some rc }, sp, reg', delta)

/-! ## The holder's processing -/

/-- prover.rs:704-742: the value `q = Z / (S^v Rctxt^m2 prod R^m)` recomputed from the credential -/
def recomputeQ (pk : PrimaryPubKey) (sig : PrimarySig) (vals : Map CredentialValue) : Res String Int := do
  if vals.any (fun e => (e.2.isKnown || e.2.isHidden) && !(Map.hasKey pk.r e.1)) then
    .err "Value by key not found in public key"
  else do
    let rx ← (vals.filter (fun e => (e.2.isKnown || e.2.isHidden) && Map.hasKey pk.r e.1)).foldl (fun acc e => do
        let a ← acc
        let r ← Res.unwrap (pk.r.lookup e.1)
        let x ← modExp r e.2.value pk.n
        modMul a x pk.n)
      (pedersen pk.s sig.v pk.rctxt sig.m2 pk.n)
    modDiv pk.z rx pk.n

/-- prover.rs:668-777 `_check_signature_correctness_proof`; `isPrime` is the primality test of the big-number library -/
def checkSigProof (sha : Bytes → Bytes) (isPrime : Int → Bool) (sig : PrimarySig) (vals : Map CredentialValue)
    (sp : SigProof) (pk : PrimaryPubKey) (nonce : Int) : Res String Unit :=
  if !isPrime sig.e then .err "Invalid Signature correctness proof"
  else do
    let q ← recomputeQ pk sig vals
    let q' ← modExp sig.a sig.e pk.n
    if q ≠ q' then .err "Invalid Signature correctness proof q != q'"
    else do
      let aCap ← modExp sig.a (sp.c + sp.se * sig.e) pk.n
      let c := getHashAsInt sha [toBytes q ++ toBytes sig.a ++ toBytes aCap ++ toBytes nonce]
      if sp.c = c then pure () else .err "Invalid Signature correctness proof c != c'"

/-- prover.rs:206-276 `process_credential_signature`: the signature object is mutated in place, so the first component is
the object the caller is left with, the second the returned result. -/
def processCredentialSignature [DecidableEq GT] (e : G1 →ₗ[F] G2 →ₗ[F] GT) (sha : Bytes → Bytes) (isPrime : Int → Bool)
    (sig : CredSig F G1 G2) (vals : Map CredentialValue) (sp : SigProof) (bf : BlindingFactors F) (pk : CredPubKey G1 G2)
    (nonce : Int) (revKeyPub : Option GT) (reg : Option G2) (witness : Option G2) : CredSig F G1 G2 × Res String Unit :=
  let sig1 : CredSig F G1 G2 := { sig with p := { sig.p with v := bf.vPrime + sig.p.v } }
  match checkSigProof sha isPrime sig1.p vals sp pk.pKey nonce with
  | .err m => (sig1, .err m)
  | .panic => (sig1, .panic)
  | .ok () =>
    match sig1.r, bf.vrPrime, pk.rKey, revKeyPub, reg, witness with
    | some rc, some vr, some rk, some z, some acc, some w =>
      let (rc', res) := Rev.processNonRevocationCredential e rc vr rk z acc w
      ({ sig1 with r := some rc' }, res)
    | _, _, _, _, _, _ => (sig1, .ok ())

end
end Verif.CL
