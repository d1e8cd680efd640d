import Verif.Common
import Mathlib.Algebra.Module.LinearMap.Basic
import Mathlib.LinearAlgebra.BilinearMap
/-!
# Model of the two BLS signature implementations
(libursa/src/bls/mod.rs on BN254, libursa/src/signatures/bls.rs on BLS12-381)

`F` is the field of scalars, `K` the group of verification keys, `S` the group of signatures, `GT` the target group, all
written additively; `e : K × S → GT` is the pairing (for libursa/src/bls `K = G2`, `S = G1`; signatures/bls.rs is
instantiated both ways round).  Hashing to the curve is an arbitrary function on byte strings.  Point encodings are
arbitrary injections of fixed length with a total decoder: the AMCL `frombytes` routines check nothing but what they need
and answer with some point (the point at infinity for coordinates off the curve).
-/
namespace Verif.BLS

/-- libursa/src/pair/amcl.rs:153-169, 306-322: `to_bytes` / `from_bytes` of curve points; only the length is checked -/
structure PointCodec (G : Type) where
  size : Nat
  enc : G → Bytes
  dec : Bytes → G
  enc_length : ∀ p, (enc p).length = size
  dec_enc : ∀ p, dec (enc p) = p

/-- `PointG1::from_bytes`, `PointG2::from_bytes` (libursa/src/pair/amcl.rs:159-169, 312-322) -/
def PointCodec.parse {G : Type} (c : PointCodec G) (b : Bytes) : Res String G :=
  if b.length ≠ c.size then .err "Invalid len of bytes representation" else .ok (c.dec b)

section
variable {F K S GT : Type} [Field F] [AddCommGroup K] [Module F K] [AddCommGroup S] [Module F S]
  [AddCommGroup GT] [Module F GT] [DecidableEq GT]

/-! ## libursa/src/bls/mod.rs -/

/-- bls/mod.rs:131-134 `VerKey`; `Generator`, `Signature`, `MultiSignature`, `ProofOfPossession` have the same two fields
(bls/mod.rs:14-17, 195-198, 267-270, 312-315) -/
structure Encoded (G : Type) where
  point : G
  bytes : Bytes

/-- bls/mod.rs:183-189 `VerKey::from_bytes`, and the same function of the other types (60-65, 255-261, 300-306, 391-397) -/
def Encoded.fromBytes {G : Type} (c : PointCodec G) (b : Bytes) : Res String (Encoded G) := do
  let p ← c.parse b
  pure ⟨p, b⟩

/-- bls/mod.rs:147-154 `VerKey::new` -/
def verKeyNew (c : PointCodec K) (gen : K) (sk : F) : Encoded K := ⟨sk • gen, c.enc (sk • gen)⟩

/-- bls/mod.rs:563-568 `_gen_signature`, with 585-591 `_hash` (`hash` is the digest followed by `PointG1::from_hash`) -/
def genSignature (hash : Bytes → S) (message : Bytes) (sk : F) : S := sk • hash message

/-- bls/mod.rs:570-583 `_verify_signature` -/
def verifySignature (e : K →ₗ[F] S →ₗ[F] GT) (hash : Bytes → S) (sig : S) (message : Bytes) (vk gen : K) : Bool :=
  decide (e (-gen) sig + e vk (hash message) = 0)

/-- bls/mod.rs:418-425 `sign` -/
def sign (c : PointCodec S) (sha : Bytes → S) (message : Bytes) (sk : F) : Encoded S :=
  ⟨genSignature sha message sk, c.enc (genSignature sha message sk)⟩

/-- bls/mod.rs:449-462 `verify` -/
def verify (e : K →ₗ[F] S →ₗ[F] GT) (sha : Bytes → S) (sig : Encoded S) (message : Bytes) (vk : Encoded K) (gen : K) : Bool :=
  verifySignature e sha sig.point message vk.point gen

/-- bls/mod.rs:217-224 `ProofOfPossession::new`; `keccak` is the other hash -/
def popNew (c : PointCodec S) (keccak : Bytes → S) (vk : Encoded K) (sk : F) : Encoded S :=
  ⟨genSignature keccak vk.bytes sk, c.enc (genSignature keccak vk.bytes sk)⟩

/-- bls/mod.rs:484-496 `verify_proof_of_posession` -/
def verifyPop (e : K →ₗ[F] S →ₗ[F] GT) (keccak : Bytes → S) (pop : Encoded S) (vk : Encoded K) (gen : K) : Bool :=
  verifySignature e keccak pop.point vk.bytes vk.point gen

/-- bls/mod.rs:343-354 `MultiSignature::new` -/
def multiSigNew (c : PointCodec S) (sigs : List (Encoded S)) : Encoded S :=
  let p := sigs.foldl (fun acc s => acc + s.point) 0
  ⟨p, c.enc p⟩

/-- bls/mod.rs:537-561 `verify_multi_sig` -/
def verifyMultiSig (e : K →ₗ[F] S →ₗ[F] GT) (sha : Bytes → S) (ms : Encoded S) (message : Bytes) (vks : List (Encoded K))
    (gen : K) : Bool :=
  verifySignature e sha ms.point message (vks.foldl (fun acc vk => acc + vk.point) 0) gen

/-! ## libursa/src/signatures/bls.rs -/

namespace Agg

/-- signatures/bls.rs:31 `MESSAGE_CONTEXT`: "for signing messages" -/
def MESSAGE_CONTEXT : Bytes := "for signing messages".toUTF8.data.toList

/-- signatures/bls.rs:32 `PUBLICKEY_CONTEXT`: "for signing public keys for proof of possession" -/
def PUBLICKEY_CONTEXT : Bytes := "for signing public keys for proof of possession".toUTF8.data.toList

/-- signatures/bls.rs:54-59 `hash_to_point`; `hash` is `from_msg_hash` -/
def hashToPoint (hash : Bytes → S) (v ctx : Bytes) : S := hash (ctx ++ v)

/-- signatures/bls.rs:44-47 `hash_msg` -/
def hashMsg (hash : Bytes → S) (message : Bytes) (context : Option Bytes) : S :=
  hashToPoint hash message (context.getD MESSAGE_CONTEXT)

/-- signatures/bls.rs:49-52 `hash_key`; `enc` is `to_bytes` of the key group -/
def hashKey (hash : Bytes → S) (enc : K → Bytes) (pk : K) (context : Option Bytes) : S :=
  hashToPoint hash (enc pk) (context.getD PUBLICKEY_CONTEXT)

/-- signatures/bls.rs:162-164 `PublicKey::new` -/
def publicKey (sk : F) (g : K) : K := sk • g

/-- signatures/bls.rs:167-171 `PublicKey::combine`, 278-282 `Signature::combine` -/
def combine {G : Type} [AddCommGroup G] (self : G) (others : List G) : G := others.foldl (· + ·) self

/-- signatures/bls.rs:787-800 `ate_2_pairing_*_is_one (g, sig, pk, hash)` -/
def ate2 (e : K →ₗ[F] S →ₗ[F] GT) (p1 : K) (s1 : S) (p2 : K) (s2 : S) : Bool := decide (e (-p1) s1 + e p2 s2 = 0)

/-- `GT::ate_multi_pairing(..).is_one()` -/
def ateMulti (e : K →ₗ[F] S →ₗ[F] GT) (pairs : List (K × S)) : Bool := decide ((pairs.map (fun p => e p.1 p.2)).sum = 0)

/-- signatures/bls.rs:196-206 and 265-270: the coefficient of a key in a list of keys; `hF` is
`FieldElement::from_msg_hash` -/
def coeff (hF : Bytes → F) (enc : K → Bytes) (keys : List K) (k : K) : F := hF ((keys.map enc).flatten ++ enc k)

/-- signatures/bls.rs:190-209 `AggregatedPublicKey::from` -/
def aggregatedKey (hF : Bytes → F) (enc : K → Bytes) (keys : List K) : K :=
  keys.foldl (fun apk k => apk + coeff hF enc keys k • k) 0

/-- signatures/bls.rs:245-251 `Signature::new` -/
def sigNew (hash : Bytes → S) (message : Bytes) (context : Option Bytes) (sk : F) : S := sk • hashMsg hash message context

/-- signatures/bls.rs:253-272 `new_with_rk_mitigation`; slice indexing panics -/
def sigNewRk (hash : Bytes → S) (hF : Bytes → F) (enc : K → Bytes) (message : Bytes) (context : Option Bytes) (sk : F)
    (pkIndex : Nat) (pks : List K) : Res String S := do
  let pk ← Res.unwrap pks[pkIndex]?
  pure (coeff hF enc pks pk • sk • hashMsg hash message context)

/-- signatures/bls.rs:285-294 `Signature::verify`; 409-418 `AggregatedSignature::verify` has the same body -/
def sigVerify (e : K →ₗ[F] S →ₗ[F] GT) (hash : Bytes → S) (sig : S) (message : Bytes) (context : Option Bytes) (pk g : K) :
    Bool := ate2 e g sig pk (hashMsg hash message context)

/-- signatures/bls.rs:306-315: the loop of `verify_multi`; `none` is the early `return false` -/
def multiPairs [DecidableEq S] (hash : Bytes → S) (context : Option Bytes) :
    List (Bytes × K) → List S → List (K × S) → Option (List (K × S))
  | [], _, pairs => some pairs
  | (msg, pk) :: rest, seen, pairs =>
    let h := hashMsg hash msg context
    if h ∈ seen then none
    else multiPairs hash context rest (h :: seen) (pairs ++ [(pk, h)])

/-- signatures/bls.rs:300-320 `verify_multi` -/
def verifyMulti [DecidableEq S] (e : K →ₗ[F] S →ₗ[F] GT) (hash : Bytes → S) (sig : S) (inputs : List (Bytes × K))
    (context : Option Bytes) (g : K) : Bool :=
  match multiPairs hash context inputs [] [] with
  | none => false
  | some pairs => ateMulti e (pairs ++ [(-g, sig)])

/-- signatures/bls.rs:322-343 and 438-462 `batch_verify`.  Each input carries the random exponent drawn for it:
`(message, signature, key, exponent)`. -/
def batchVerify (e : K →ₗ[F] S →ₗ[F] GT) (hash : Bytes → S) (inputs : List (Bytes × S × K × F)) (context : Option Bytes)
    (g : K) : Bool :=
  let sig := inputs.foldl (fun acc i => acc + i.2.2.2 • i.2.1) 0
  let pairs := inputs.map (fun i => (i.2.2.2 • i.2.2.1, hashMsg hash i.1 context))
  ateMulti e (pairs ++ [(-g, sig)])

/-- signatures/bls.rs:366-368 `ProofOfPossession::new` -/
def popNew (hash : Bytes → S) (enc : K → Bytes) (pk : K) (context : Option Bytes) (sk : F) : S :=
  sk • hashKey hash enc pk context

/-- signatures/bls.rs:381-389 `ProofOfPossession::verify` -/
def popVerify (e : K →ₗ[F] S →ₗ[F] GT) (hash : Bytes → S) (enc : K → Bytes) (pop : S) (context : Option Bytes) (pk g : K) :
    Bool := ate2 e g pop pk (hashKey hash enc pk context)

/-- signatures/bls.rs:400-406 `AggregatedSignature::new` -/
def aggSigNew (sigs : List S) : S := sigs.foldl (fun sig s => sig + s) 0

/-- signatures/bls.rs:424-434 `verify_no_rk` -/
def verifyNoRk (e : K →ₗ[F] S →ₗ[F] GT) (hash : Bytes → S) (sig : S) (message : Bytes) (context : Option Bytes)
    (pks : List K) (g : K) : Bool :=
  ate2 e g sig (pks.foldl (fun a p => a + p) 0) (hashMsg hash message context)

/-! ### The byte-level `SignatureScheme` interface -/

/-- signatures/mod.rs: the option of key generation (libursa/src/keys.rs `KeyGenOption`) -/
inductive KeyGen where
  | useSeed (seed : Bytes)
  | fromSecretKey (key : Bytes)

/-- signatures/bls.rs:76-79: the input keying material: the seed followed by a zero byte -/
def ikm (seed : Bytes) : Bytes := seed ++ [0]

/-- signatures/bls.rs:68-113 `keypair`.  `hkdf` is HKDF-SHA256 with the fixed salt and info, reduced into the field;
`parseF` is `FieldElement::from_bytes`; `rnd` is the random key of `generate`. -/
def keypair (encK : K → Bytes) (encF : F → Bytes) (parseF : Bytes → Option F) (hkdf : Bytes → F) (g : K) (rnd : F) :
    Option KeyGen → Res String (Bytes × Bytes)
  | some (.useSeed seed) => .ok (encK (publicKey (hkdf (ikm seed)) g), encF (hkdf (ikm seed)))
  | some (.fromSecretKey key) => do
    let sk ← Res.ofOption "Failed to parse private key." (parseF key)
    pure (encK (publicKey sk g), encF sk)
  | none => .ok (encK (publicKey rnd g), encF rnd)

/-- signatures/bls.rs:115-124 `sign` -/
def schemeSign (encS : S → Bytes) (parseF : Bytes → Option F) (hash : Bytes → S) (message sk : Bytes) : Res String Bytes := do
  let k ← Res.ofOption "Failed to parse private key." (parseF sk)
  pure (encS (sigNew hash message none k))

/-- signatures/bls.rs:126-142 `verify`; the signature is parsed before the key -/
def schemeVerify (e : K →ₗ[F] S →ₗ[F] GT) (parseS : Bytes → Option S) (parseK : Bytes → Option K) (hash : Bytes → S) (g : K)
    (message signature pk : Bytes) : Res String Bool := do
  let s ← Res.ofOption "Failed to parse signature." (parseS signature)
  let k ← Res.ofOption "Failed to parse public key." (parseK pk)
  pure (sigVerify e hash s message none k g)

end Agg
end
end Verif.BLS
