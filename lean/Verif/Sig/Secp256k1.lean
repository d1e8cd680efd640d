import Verif.Sig.Ed25519
import Mathlib.Data.ZMod.Basic
import Mathlib.Algebra.Field.ZMod

/-!
# ECDSA and ECDH on secp256k1

libursa/src/signatures/secp256k1.rs (the native build; the pure build of the signatures does not compile against the
version of k256 in Cargo.toml and is not modelled) and libursa/src/kex/secp256k1.rs (both builds).

The crates secp256k1 0.19 (libsecp256k1), k256 0.7, sha2 and rand_chacha are the structure `Secp`: a group of prime order
`n`, written as a vector space over `ZMod n`, encodings of its points, x-coordinates, the deterministic nonce and hash
functions.  Signing and verifying of libsecp256k1 are written out on top of these.
-/

namespace Verif.Sig

/-- The primitives below libursa/src/signatures/secp256k1.rs:110-215 and libursa/src/kex/secp256k1.rs:43-196: contract only. -/
structure Secp (n : Nat) [Fact n.Prime] (G : Type) [AddCommGroup G] [Module (ZMod n) G] where
  n_lt : n < 2 ^ 256
  n_odd : 2 < n
  base : G
  base_ne : base ≠ 0
  /-- `PublicKey::serialize`: 33 bytes, for points other than zero -/
  ser : G → Bytes
  /-- `PublicKey::serialize_uncompressed`: 65 bytes -/
  serLong : G → Bytes
  /-- `PublicKey::from_slice` and `k256::PublicKey::from_sec1_bytes` -/
  parse : Bytes → Option G
  ser_length : ∀ P, (ser P).length = 33
  serLong_length : ∀ P, (serLong P).length = 65
  parse_ser : ∀ P, P ≠ 0 → parse (ser P) = some P
  parse_serLong : ∀ P, P ≠ 0 → parse (serLong P) = some P
  parse_ne : ∀ b P, parse b = some P → P ≠ 0
  /-- the x-coordinate, 32 bytes -/
  xBytes : G → Bytes
  xBytes_length : ∀ P, (xBytes P).length = 32
  xBytes_neg : ∀ P, xBytes (-P) = xBytes P
  sha256 : Bytes → Bytes
  sha256_length : ∀ b, (sha256 b).length = 32
  /-- the first 32 bytes of `ChaChaRng::from_seed` -/
  chacha : Bytes → Bytes
  chacha_length : ∀ b, (chacha b).length = 32
  /-- the nonce of `secp256k1_ecdsa_sign` (RFC 6979) for a message hash and a private key: the first of the deterministic
  sequence for which the signature is defined -/
  nonce : Bytes → ZMod n → ZMod n
  nonce_ne : ∀ h d, d ≠ 0 → nonce h d ≠ 0
  nonce_r : ∀ h d, d ≠ 0 → ((ofBe (xBytes (nonce h d • base)) : Nat) : ZMod n) ≠ 0
  nonce_s : ∀ h d, d ≠ 0 →
    ((ofBe h : Nat) : ZMod n) + ((ofBe (xBytes (nonce h d • base)) : Nat) : ZMod n) * d ≠ 0

/-- `SecretKey::from_slice` (secp256k1) and `k256::SecretKey::from_bytes`: 32 bytes, a number from 1 to n - 1 -/
def secretFromSlice (n : Nat) (b : Bytes) : Option (ZMod n) :=
  if b.length = 32 ∧ 0 < ofBe b ∧ ofBe b < n then some ((ofBe b : Nat) : ZMod n) else none

/-- `Signature::from_compact` (secp256k1): 64 bytes, two numbers below n -/
def sigFromCompact (n : Nat) (b : Bytes) : Option (ZMod n × ZMod n) :=
  if b.length = 64 ∧ ofBe (b.take 32) < n ∧ ofBe (b.drop 32) < n then
    some (((ofBe (b.take 32) : Nat) : ZMod n), ((ofBe (b.drop 32) : Nat) : ZMod n))
  else none

/-- `Signature::serialize_compact` (secp256k1) -/
def sigToCompact {n : Nat} (r s : ZMod n) : Bytes := toBe 32 r.val ++ toBe 32 s.val

/-- `Signature::normalize_s` (secp256k1): a number above n / 2 is replaced by its negative -/
def lowS {n : Nat} (s : ZMod n) : ZMod n := if n / 2 < s.val then -s else s

variable {n : Nat} [Fact n.Prime] {G : Type} [AddCommGroup G] [Module (ZMod n) G] (S : Secp n G)

/-- `secp256k1_ecdsa_sign` (libsecp256k1), used in libursa/src/signatures/secp256k1.rs:177-186 -/
def Secp.ecdsaSign (h : Bytes) (d : ZMod n) : ZMod n × ZMod n :=
  let k := S.nonce h d
  let r : ZMod n := ((ofBe (S.xBytes (k • S.base)) : Nat) : ZMod n)
  (r, lowS (k⁻¹ * (((ofBe h : Nat) : ZMod n) + r * d)))

/-- `secp256k1_ecdsa_verify` (libsecp256k1), used in libursa/src/signatures/secp256k1.rs:187-206: high numbers and zeros
are refused, then the x-coordinate is compared -/
def Secp.ecdsaVerify [DecidableEq G] (h : Bytes) (r s : ZMod n) (Q : G) : Bool :=
  let R := (((ofBe h : Nat) : ZMod n) * s⁻¹) • S.base + (r * s⁻¹) • Q
  decide (s.val ≤ n / 2) && decide (r ≠ 0) && decide (s ≠ 0) && decide (R ≠ 0) &&
    decide (((ofBe (S.xBytes R) : Nat) : ZMod n) = r)

/-! ## EcdsaSecp256k1Sha256 -/

/-- libursa/src/signatures/secp256k1.rs:125-128 `public_key_compressed` -/
def Secp.publicKeyCompressed (pk : Bytes) : Res CryptoError Bytes := do
  let P ← Res.unwrap (S.parse pk)
  .ok (S.ser P)

/-- libursa/src/signatures/secp256k1.rs:129-132 `public_key_uncompressed` -/
def Secp.publicKeyUncompressed (pk : Bytes) : Res CryptoError Bytes := do
  let P ← Res.unwrap (S.parse pk)
  .ok (S.serLong P)

/-- libursa/src/signatures/secp256k1.rs:133-137 `parse` -/
def Secp.parseKey (data : Bytes) : Res CryptoError Bytes := do
  let P ← Res.ofOption .parseError (S.parse data)
  .ok (S.ser P)

/-- libursa/src/signatures/secp256k1.rs:148-170 and, the same, libursa/src/kex/secp256k1.rs:69-93: the bytes of the private
key; `os` is what the system generator gives -/
def Secp.keyBytes (os : Bytes) : Option KeyGenOption → Res CryptoError Bytes
  | some (.useSeed seed) => do
    let s ← arrayRef32 seed
    .ok (S.sha256 (S.chacha s))
  | some (.fromSecretKey s) => .ok s
  | none => .ok (S.sha256 os)

/-- libursa/src/signatures/secp256k1.rs:141-176 `keypair` and, the same, libursa/src/kex/secp256k1.rs:62-99 -/
def Secp.keypair (os : Bytes) (o : Option KeyGenOption) : Res CryptoError (Bytes × Bytes) := do
  let k ← S.keyBytes os o
  let d ← Res.ofOption .parseError (secretFromSlice n k)
  .ok (S.ser (d • S.base), toBe 32 d.val)

/-- libursa/src/signatures/secp256k1.rs:177-186 `sign`; the digest has 32 bytes, so `Message::from_slice` succeeds -/
def Secp.sign (message sk : Bytes) : Res CryptoError Bytes := do
  let d ← Res.ofOption .parseError (secretFromSlice n sk)
  let rs := S.ecdsaSign (S.sha256 message) d
  .ok (sigToCompact rs.1 rs.2)

/-- libursa/src/signatures/secp256k1.rs:187-206 `verify` -/
def Secp.verify [DecidableEq G] (message sig pk : Bytes) : Res CryptoError Bool := do
  let Q ← Res.ofOption .parseError (S.parse pk)
  let rs ← Res.ofOption .parseError (sigFromCompact n sig)
  .ok (S.ecdsaVerify (S.sha256 message) rs.1 rs.2 Q)

/-- libursa/src/signatures/secp256k1.rs:207-213 `normalize_s`; the new content of the argument -/
def normalizeS (n : Nat) (sig : Bytes) : Res CryptoError Bytes := do
  let rs ← Res.ofOption .parseError (sigFromCompact n sig)
  .ok (sigToCompact rs.1 (lowS rs.2))

/-! ## EcdhSecp256k1Sha256 -/

/-- libursa/src/kex/secp256k1.rs:101-114 `compute_shared_secret`, native build: `SharedSecret::new` is the SHA-256 hash of
the compressed point -/
def Secp.sharedNative (sk pk : Bytes) : Res CryptoError Bytes := do
  let d ← Res.ofOption .parseError (secretFromSlice n sk)
  let P ← Res.ofOption .parseError (S.parse pk)
  .ok (S.sha256 (S.ser (d • P)))

/-- libursa/src/kex/secp256k1.rs:149-168: the bytes of the private key, pure build; a private key is copied byte by byte
(libursa/src/utils/macros.rs:1-18 `array_copy!`), which panics if it is too short and ignores what is beyond 32 bytes -/
def Secp.keyBytesPure (os : Bytes) : Option KeyGenOption → Res CryptoError Bytes
  | some (.useSeed seed) => do
    let s ← arrayRef32 seed
    .ok (S.sha256 (S.chacha s))
  | some (.fromSecretKey s) => arrayRef32 s
  | none => .ok (S.sha256 os)

/-- libursa/src/kex/secp256k1.rs:142-176 `keypair`, pure build -/
def Secp.keypairPure (os : Bytes) (o : Option KeyGenOption) : Res CryptoError (Bytes × Bytes) := do
  let k ← S.keyBytesPure os o
  let d ← Res.ofOption .parseError (secretFromSlice n k)
  .ok (S.ser (d • S.base), k)

/-- libursa/src/kex/secp256k1.rs:178-196 `compute_shared_secret`, pure build: the x-coordinate, not hashed -/
def Secp.sharedPure (sk pk : Bytes) : Res CryptoError Bytes := do
  let d ← Res.ofOption .parseError (secretFromSlice n sk)
  let P ← Res.ofOption .parseError (S.parse pk)
  .ok (S.xBytes (d • P))

end Verif.Sig
