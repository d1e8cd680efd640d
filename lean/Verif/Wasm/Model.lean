import Verif.Symm.Model
import Verif.Sig.Secp256k1
import Verif.CL.Json
import Verif.BLS.Model
/-!
# Texts of keys, and the JavaScript interface
(libursa/src/utils/macros.rs, libursa/src/keys.rs, libursa/src/wasm/{mod,macros,ed25519,secp256k1,x25519,encryption,bls}.rs,
and the JSON form of the objects of libursa/src/bls/mod.rs)

A text is the list of its characters.  A thrown `JsValue` is its text.  A Rust panic (which ends the WebAssembly instance)
is `Res.panic`.  libursa/src/wasm/cl.rs is not modelled: libursa/src/wasm/mod.rs:1-13 does not declare it, so it is not
compiled.
-/
namespace Verif.Wasm

open Verif Symm Sig CL CL.Json

/-! ## `PrivateKey`, `PublicKey`, `SessionKey`, `MacKey` -/

/-- libursa/src/utils/macros.rs:157-166 `Serialize` of the four types (libursa/src/keys.rs:8-18): the bytes in hexadecimal -/
def keyToJson (key : Bytes) : Json := .str (String.ofList (hexEncode key))

/-- libursa/src/utils/macros.rs:168-197 `Deserialize` -/
def keyFromJson : Reader Bytes
  | .str s => Res.ofOption "custom" (hexDecode s.toList)
  | _ => .err "invalid type"

/-- libursa/src/utils/macros.rs:115-124 `Display` and 126-135 `Debug`; `name` is the name of the type -/
def keyDisplay (name : String) (key : Bytes) : List Char := name.toList ++ " { ".toList ++ hexEncode key ++ " }".toList

/-- libursa/src/keys.rs:20-25 `KeyGenOption`, derived `Serialize` -/
def optionToJson : KeyGenOption → Json
  | .useSeed s => .obj [("UseSeed", bytesToJson s)]
  | .fromSecretKey k => .obj [("FromSecretKey", keyToJson k)]

/-- libursa/src/keys.rs:20-25 `KeyGenOption`, derived `Deserialize`: an object with one entry, named as the variant -/
def optionFromJson : Reader KeyGenOption
  | .obj [(name, v)] =>
    if name = "UseSeed" then do
      let s ← readBytes v
      pure (.useSeed s)
    else if name = "FromSecretKey" then do
      let k ← keyFromJson v
      pure (.fromSecretKey k)
    else .err "unknown variant"
  | _ => .err "invalid type"

/-! ## Keys and errors of the JavaScript interface -/

/-- libursa/src/wasm/macros.rs:13-17 `maperr!`: `stringify!(_e)` is the text of the identifier, not of the error -/
def maperr {ε α : Type} : Res ε α → Res String α
  | .ok a => .ok a
  | .err _ => .err "_e"
  | .panic => .panic

/-- libursa/src/wasm/mod.rs:39-55, 68-78, 92-96: a key becomes a `WasmPublicKey`, `WasmPrivateKey` or `WasmSessionKey` -/
def toWasm (key : Bytes) : List Char := hexEncode key

/-- libursa/src/wasm/mod.rs:57-66, 80-90: `hex::decode(..).unwrap()` -/
def fromWasm {ε : Type} (t : List Char) : Res ε Bytes := Res.unwrap (hexDecode t)

/-- libursa/src/wasm/mod.rs:32-37 `KeyPair` -/
structure KeyPair where
  pk : List Char
  sk : List Char

/-- The native scheme behind a class: `SignatureScheme` (libursa/src/signatures/mod.rs) with the bytes that the system
generator gives already supplied. -/
structure SigScheme where
  keypair : Option KeyGenOption → Res CryptoError (Bytes × Bytes)
  sign : Bytes → Bytes → Res CryptoError Bytes
  verify : Bytes → Bytes → Bytes → Res CryptoError Bool

/-- `KeyExchangeScheme` (libursa/src/kex/mod.rs) -/
structure KexScheme where
  keypair : Option KeyGenOption → Res CryptoError (Bytes × Bytes)
  shared : Bytes → Bytes → Res CryptoError Bytes

/-- libursa/src/wasm/ed25519.rs:18-25, 27-34, libursa/src/wasm/secp256k1.rs:22-27, 29-34, 92-97, 99-104,
libursa/src/wasm/x25519.rs:18-25, 27-34: `keypair` (no option) and `keyPairFromSeed` -/
def wKeypair (kp : Option KeyGenOption → Res CryptoError (Bytes × Bytes)) (o : Option KeyGenOption) : Res String KeyPair := do
  let r ← maperr (kp o)
  pure ⟨toWasm r.1, toWasm r.2⟩

/-- libursa/src/wasm/ed25519.rs:18-25, libursa/src/wasm/secp256k1.rs:22-27, 92-97, libursa/src/wasm/x25519.rs:18-25 -/
def keypairNew (kp : Option KeyGenOption → Res CryptoError (Bytes × Bytes)) : Res String KeyPair := wKeypair kp none

/-- libursa/src/wasm/ed25519.rs:27-34, libursa/src/wasm/secp256k1.rs:29-34, 99-104, libursa/src/wasm/x25519.rs:27-34 -/
def keypairFromSeed (kp : Option KeyGenOption → Res CryptoError (Bytes × Bytes)) (seed : Bytes) : Res String KeyPair :=
  wKeypair kp (some (.useSeed seed))

/-- libursa/src/wasm/ed25519.rs:36-41, libursa/src/wasm/secp256k1.rs:36-43, 106-113, libursa/src/wasm/x25519.rs:36-41 -/
def getPublicKey (kp : Option KeyGenOption → Res CryptoError (Bytes × Bytes)) (sk : List Char) : Res String (List Char) := do
  let k ← fromWasm sk
  let r ← maperr (kp (some (.fromSecretKey k)))
  pure (toWasm r.1)

/-- libursa/src/wasm/ed25519.rs:43-48, libursa/src/wasm/secp256k1.rs:45-49 -/
def wSign (S : SigScheme) (message : Bytes) (sk : List Char) : Res String Bytes := do
  let k ← fromWasm sk
  maperr (S.sign message k)

/-- libursa/src/wasm/ed25519.rs:50-59, libursa/src/wasm/secp256k1.rs:51-59 -/
def wVerify (S : SigScheme) (message signature : Bytes) (pk : List Char) : Res String Bool := do
  let k ← fromWasm pk
  maperr (S.verify message signature k)

/-- libursa/src/wasm/x25519.rs:43-54, libursa/src/wasm/secp256k1.rs:115-125 -/
def wShared (K : KexScheme) (sk pk : List Char) : Res String (List Char) := do
  let s ← fromWasm sk
  let p ← fromWasm pk
  let r ← maperr (K.shared s p)
  pure (toWasm r)

/-- libursa/src/wasm/secp256k1.rs:66-69, 71-74: `f` is `public_key_compressed` or `public_key_uncompressed` -/
def wKeyForm (f : Bytes → Res CryptoError Bytes) (pk : List Char) : Res String (List Char) := do
  let k ← fromWasm pk
  let r ← maperr (f k)
  pure (toWasm r)

/-- libursa/src/wasm/secp256k1.rs:76-79 -/
def wParseKey (parse : Bytes → Res CryptoError Bytes) (b : Bytes) : Res String (List Char) := do
  let r ← maperr (parse b)
  pure (toWasm r)

/-- libursa/src/wasm/secp256k1.rs:61-64 -/
def wNormalizeS (n : Nat) (sig : Bytes) : Res String Bytes := maperr (normalizeS n sig)

/-- libursa/src/wasm/ed25519.rs:1-60 -/
def ed25519 {Pt : Type} [AddCommGroup Pt] (D : Dalek Pt) (os : Bytes) : SigScheme := ⟨D.keypair os, D.sign, D.verify⟩

/-- libursa/src/wasm/x25519.rs:1-55 -/
def x25519 {Pt : Type} [AddCommGroup Pt] (D : Dalek Pt) (os : Bytes) : KexScheme := ⟨D.xKeypair os, D.xSharedSecret⟩

/-- libursa/src/wasm/secp256k1.rs:12-80; the portable build of the scheme does not compile (see Verif/Sig/Secp256k1.lean),
so its behaviour is that of the native build -/
def ecdsa {n : Nat} [Fact n.Prime] {G : Type} [AddCommGroup G] [Module (ZMod n) G] [DecidableEq G] (S : Secp n G)
    (os : Bytes) : SigScheme := ⟨S.keypair os, S.sign, S.verify⟩

/-- libursa/src/wasm/secp256k1.rs:82-126, portable build -/
def ecdh {n : Nat} [Fact n.Prime] {G : Type} [AddCommGroup G] [Module (ZMod n) G] (S : Secp n G) (os : Bytes) : KexScheme :=
  ⟨S.keypairPure os, S.sharedPure⟩

/-! ## Encryption -/

/-- libursa/src/wasm/encryption.rs:8-13 `WasmCipherKey` -/
structure CipherKey where
  cipher : EncryptorType
  key : List Char
  deriving DecidableEq

/-- libursa/src/wasm/encryption.rs:75-89 `get_keysize` -/
def getKeysize : EncryptorType → Nat
  | .Aes128CbcHmac256 => 32
  | .Aes256CbcHmac512 => 64
  | .Aes128Gcm => 16
  | .Aes256Gcm => 32
  | .XChaCha20Poly1305 => 32

/-- libursa/src/wasm/encryption.rs:33-41 `new`; `random` is `random_vec` (libursa/src/encryption/mod.rs) -/
def cipherNew (random : Nat → Res Unit Bytes) (cipher : String) : Res String CipherKey := do
  let t ← maperr (EncryptorType.fromStr cipher)
  let k ← maperr (random (getKeysize t))
  pure ⟨t, hexEncode k⟩

/-- libursa/src/wasm/encryption.rs:43-54 `with_key` -/
def cipherWithKey (cipher : String) (key : List Char) : Res String CipherKey := do
  let t ← maperr (EncryptorType.fromStr cipher)
  let k ← maperr (Res.ofOption () (hexDecode key))
  if getKeysize t = k.length then .ok ⟨t, key⟩ else .err "Invalid key length for given cipher"

/-- libursa/src/wasm/encryption.rs:15-26 `operation_impl!`; `op` is the operation with the key of the encryptor -/
def operation (P : Prims) (c : CipherKey) (op : Bytes → Res Unit Bytes) : Res String Bytes := do
  let k ← maperr (Res.ofOption () (hexDecode c.key))
  if c.cipher.isValidKeysize P k.length then do
    let enc ← maperr (c.cipher.genEncryptor P k)
    maperr (op enc)
  else .err "Invalid key length"

/-- libursa/src/wasm/encryption.rs:56-63 `encrypt`, with 91; `nonce` is what the cipher drew -/
def wEncrypt (P : Prims) (c : CipherKey) (nonce aad input : Bytes) : Res String Bytes :=
  operation P c (fun k => encryptEasy (c.cipher.cipher P) k nonce aad input)

/-- libursa/src/wasm/encryption.rs:65-72 `decrypt`, with 92 -/
def wDecrypt (P : Prims) (c : CipherKey) (aad input : Bytes) : Res String Bytes :=
  operation P c (fun k => decryptEasy (c.cipher.cipher P) k aad input)

/-! ## BLS -/

section
variable {F K S GT : Type} [Field F] [AddCommGroup K] [Module F K] [AddCommGroup S] [Module F S]
  [AddCommGroup GT] [Module F GT] [DecidableEq GT]

/-- libursa/src/bls/mod.rs:129-134 `VerKey`, derived `Serialize`; the same for `Generator` (12-17), `ProofOfPossession`
(193-198), `Signature` (265-270) and `MultiSignature` (310-315) -/
def encodedToJson {G : Type} (t : Txt G) (x : BLS.Encoded G) : Json :=
  .obj [("point", t.write x.point), ("bytes", bytesToJson x.bytes)]

/-- libursa/src/bls/mod.rs:129-134 (and 12-17, 193-198, 265-270, 310-315), derived `Deserialize`: the two fields are read one
by one -/
def encodedFromJson {G : Type} (t : Txt G) : Reader (BLS.Encoded G) := fun j => do
  let fs ← fields j
  let p ← req fs "point" t.read
  let b ← req fs "bytes" readBytes
  pure ⟨p, b⟩

/-- libursa/src/wasm/bls.rs:140-152 `Bls.verify`; `verify` has no error of its own (libursa/src/bls/mod.rs:449-462) -/
def wBlsVerify (e : K →ₗ[F] S →ₗ[F] GT) (sha : Bytes → S) (message : Bytes) (sig : BLS.Encoded S) (vk : BLS.Encoded K)
    (gen : BLS.Encoded K) : Res String Bool := .ok (BLS.verify e sha sig message vk gen.point)

/-- libursa/src/wasm/bls.rs:106-107, 172-175: reading a value given by JavaScript, with `unwrap` -/
def readOrCrash {α : Type} (r : Reader α) (j : Json) : Res String α :=
  match r j with
  | .ok x => .ok x
  | .err _ => .panic
  | .panic => .panic

/-- libursa/src/wasm/bls.rs:105-111 `MultiSignature.new`: `into_serde().unwrap()` of every value -/
def wMultiSigNew (c : BLS.PointCodec S) (t : Txt S) (signatures : List Json) : Res String (BLS.Encoded S) := do
  let sigs ← signatures.mapM (readOrCrash (encodedFromJson t))
  pure (BLS.multiSigNew c sigs)

/-- libursa/src/wasm/bls.rs:166-182 `Bls.verifyMultiSignature`: `convert_from_js(x).unwrap()` of every value
(libursa/src/wasm/mod.rs:105-116) -/
def wVerifyMultiSig (e : K →ₗ[F] S →ₗ[F] GT) (sha : Bytes → S) (t : Txt K) (ms : BLS.Encoded S) (message : Bytes)
    (verKeys : List Json) (gen : BLS.Encoded K) : Res String Bool := do
  let vks ← verKeys.mapM (readOrCrash (encodedFromJson t))
  .ok (BLS.verifyMultiSig e sha ms message vks gen.point)

end

end Verif.Wasm
