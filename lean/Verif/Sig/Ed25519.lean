import Verif.Sig.Bytes
import Mathlib.Algebra.Group.Basic
import Mathlib.Algebra.Module.NatInt
import Mathlib.Data.Nat.Prime.Basic

/-!
# Ed25519 signatures and X25519 key exchange

libursa/src/signatures/ed25519.rs, libursa/src/signatures/mod.rs, libursa/src/kex/x25519.rs and the C interface
libursa/src/ffi/signatures/ed25519.rs.

The crates ed25519-dalek 1.0, curve25519-dalek 3.1, x25519-dalek 1.1, sha2 and rand_chacha are the structure `Dalek`: a
commutative group with a base point of prime order, an encoding of points, the Montgomery ladder and hash functions.  The
algorithms of ed25519-dalek and x25519-dalek (key expansion, signing, verification, clamping) are written out on top of
these.
-/

namespace Verif.Sig

/-- libursa/src/lib.rs:225-240 `CryptoError`, without the texts -/
inductive CryptoError where
  | noSuchAlgorithm | parseError | signingError | keyGenError | digestGenError | generalError
  deriving DecidableEq, Repr

/-- libursa/src/keys.rs:22-25 `KeyGenOption` -/
inductive KeyGenOption where
  | useSeed (seed : Bytes)
  | fromSecretKey (sk : Bytes)

/-- The primitives below libursa/src/signatures/ed25519.rs:1-160 and libursa/src/kex/x25519.rs:1-62, from the crates
curve25519-dalek, sha2 and rand_chacha: contract only. -/
structure Dalek (Pt : Type) [AddCommGroup Pt] where
  /-- the base point -/
  base : Pt
  /-- its order -/
  ell : Nat
  ell_prime : ell.Prime
  ell_lt : ell < 2 ^ 253
  ell_base : ell • base = 0
  base_ne : base ≠ 0
  /-- `EdwardsPoint::compress` -/
  enc : Pt → Bytes
  /-- `CompressedEdwardsY::decompress` of a slice of 32 bytes; the crate accepts more than one encoding of some points -/
  dec : Bytes → Option Pt
  enc_length : ∀ P, (enc P).length = 32
  dec_enc : ∀ P, dec (enc P) = some P
  dec_length : ∀ b P, dec b = some P → b.length = 32
  /-- `EdwardsPoint::to_montgomery` -/
  mont : Pt → Bytes
  mont_length : ∀ P, (mont P).length = 32
  /-- `&Scalar * &MontgomeryPoint` -/
  ladder : Nat → Bytes → Bytes
  ladder_length : ∀ n u, (ladder n u).length = 32
  ladder_mont : ∀ n P, ladder n (mont P) = mont (n • P)
  ladder_comm : ∀ m n u, ladder m (ladder n u) = ladder n (ladder m u)
  ladder_zero : ∀ n, ladder n (List.replicate 32 0) = List.replicate 32 0
  sha512 : Bytes → Bytes
  sha512_length : ∀ b, (sha512 b).length = 64
  sha256 : Bytes → Bytes
  sha256_length : ∀ b, (sha256 b).length = 32
  /-- the first 32 bytes of `ChaChaRng::from_seed` -/
  chacha : Bytes → Bytes
  chacha_length : ∀ b, (chacha b).length = 32
  /-- whether `Signature::try_from` already refuses a last byte with one of its three top bits set (depends on the version
  of the crate ed25519); otherwise such a signature is refused by `verify` -/
  strictParse : Bool

variable {Pt : Type} [AddCommGroup Pt] (D : Dalek Pt)

/-- `Scalar::from_hash`: the hash modulo the order, little endian (used in libursa/src/signatures/ed25519.rs:138-155) -/
def Dalek.hashScalar (b : Bytes) : Nat := ofLe (D.sha512 b) % D.ell

/-- The scalar of `ExpandedSecretKey::from` (ed25519-dalek): the clamped low half of the hash of the secret key (used in
libursa/src/signatures/ed25519.rs:138-142) -/
def Dalek.secretScalar (secret : Bytes) : Nat := ofLe (clamp ((D.sha512 secret).take 32))

/-- `PublicKey::from(&SecretKey)` (ed25519-dalek), used in libursa/src/signatures/ed25519.rs:94-106 -/
def Dalek.publicOf (secret : Bytes) : Bytes := D.enc (D.secretScalar secret • D.base)

/-- `PublicKey::from_bytes` (ed25519-dalek): the bytes as given and the point -/
def Dalek.pkFromBytes (b : Bytes) : Option (Bytes × Pt) := (D.dec b).map (fun P => (b, P))

/-- `Keypair` (ed25519-dalek): the secret and the bytes of the public key -/
structure Keypair where
  secret : Bytes
  pub : Bytes

/-- `Keypair::from_bytes` (ed25519-dalek), used in libursa/src/signatures/ed25519.rs:113-142: 64 bytes, the second half a
point; whether it is the public key of the first half is not checked -/
def Dalek.keypairFromBytes (b : Bytes) : Option Keypair :=
  if b.length = 64 then (D.pkFromBytes (b.drop 32)).map (fun p => ⟨b.take 32, p.1⟩) else none

/-- `Keypair::generate` with a generator that gives `drawn` first -/
def Dalek.keypairGenerate (drawn : Bytes) : Keypair := ⟨drawn, D.publicOf drawn⟩

/-- `Keypair::to_bytes` -/
def Keypair.toBytes (k : Keypair) : Bytes := k.secret ++ k.pub

/-- `Keypair::sign` (`ExpandedSecretKey::sign`, ed25519-dalek), used in libursa/src/signatures/ed25519.rs:138-142 -/
def Dalek.keypairSign (k : Keypair) (message : Bytes) : Bytes :=
  let h := D.sha512 k.secret
  let r := D.hashScalar (h.drop 32 ++ message)
  let R := D.enc (r • D.base)
  let c := D.hashScalar (R ++ k.pub ++ message)
  R ++ toLe 32 ((c * D.secretScalar k.secret + r) % D.ell)

/-- `PublicKey::verify` (ed25519-dalek), used in libursa/src/signatures/ed25519.rs:143-155 -/
def Dalek.pkVerify (pk : Bytes × Pt) (message sig : Bytes) : Bool :=
  let R := sig.take 32
  let s := ofLe (sig.drop 32)
  let c := D.hashScalar (R ++ pk.1 ++ message)
  decide (s < D.ell) && decide (D.enc (s • D.base - c • pk.2) = R)

/-- `Signature::try_from` (crate ed25519), used in libursa/src/signatures/ed25519.rs:149-151 -/
def Dalek.sigParse (b : Bytes) : Option Bytes :=
  if b.length = 64 then
    if D.strictParse && decide (2 ^ 253 ≤ ofLe (b.drop 32)) then none else some b
  else none

/-! ## Ed25519Sha512 -/

/-- libursa/src/signatures/ed25519.rs:113-137 `keypair`; `os` is what the system generator gives -/
def Dalek.keypair (os : Bytes) : Option KeyGenOption → Res CryptoError (Bytes × Bytes)
  | none => let kp := D.keypairGenerate os; .ok (kp.pub, kp.toBytes)
  | some (.useSeed s) =>
    let kp := D.keypairGenerate (D.chacha ((D.sha256 s).take 32))
    .ok (kp.pub, kp.toBytes)
  | some (.fromSecretKey s) =>
    match D.keypairFromBytes s with
    | some kp => .ok (kp.pub, kp.toBytes)
    | none => .err .keyGenError

/-- libursa/src/signatures/ed25519.rs:138-142 `sign` -/
def Dalek.sign (message sk : Bytes) : Res CryptoError Bytes :=
  match D.keypairFromBytes sk with
  | some kp => .ok (D.keypairSign kp message)
  | none => .err .keyGenError

/-- libursa/src/signatures/ed25519.rs:143-155 `verify` -/
def Dalek.verify (message sig pk : Bytes) : Res CryptoError Bool := do
  let p ← Res.ofOption .parseError (D.pkFromBytes pk)
  let s ← Res.ofOption .parseError (D.sigParse sig)
  if D.pkVerify p message s then .ok true else .err .signingError

/-- libursa/src/signatures/ed25519.rs:38-53 `ver_key_to_key_exchange`; `CompressedEdwardsY::from_slice` panics unless it
gets 32 bytes -/
def Dalek.verKeyToKeyExchange (pk : Bytes) : Res CryptoError Bytes := do
  let _ ← Res.ofOption .parseError (D.pkFromBytes pk)
  if pk.length ≠ 32 then .panic
  else
    match D.dec pk with
    | some P => .ok (D.mont P)
    | none => .err .parseError

/-- libursa/src/signatures/ed25519.rs:67-80 `sign_key_to_key_exchange` -/
def Dalek.signKeyToKeyExchange (sk : Bytes) : Res CryptoError Bytes :=
  if sk.length < 32 then .err .parseError
  else .ok (clamp ((D.sha512 (sk.take 32)).take 32))

/-- libursa/src/signatures/ed25519.rs:94-106 `expand_keypair` -/
def Dalek.expandKeypair (ikm : Bytes) : Res CryptoError (Bytes × Bytes) :=
  if ikm.length < 32 then .err .parseError
  else
    let pk := D.publicOf (ikm.take 32)
    .ok (pk, ikm.take 32 ++ pk)

/-- libursa/src/signatures/mod.rs:73-80 `Signer::get_public_key` for this scheme: `unwrap` of `keypair` -/
def Dalek.signerPublicKey (os sk : Bytes) : Res CryptoError Bytes :=
  match D.keypair os (some (.fromSecretKey sk)) with
  | .ok (pk, _) => .ok pk
  | .err _ => .panic
  | .panic => .panic

/-! ## X25519Sha256 -/

/-- `x25519_dalek::PublicKey::from(&StaticSecret)`, for the clamped bytes of the secret -/
def Dalek.xPublic (sk : Bytes) : Bytes := D.mont (ofLe sk • D.base)

/-- libursa/src/kex/x25519.rs:18-49 `keypair`; `os` is what the system generator gives -/
def Dalek.xKeypair (os : Bytes) : Option KeyGenOption → Res CryptoError (Bytes × Bytes)
  | none => .ok (D.xPublic (clamp os), clamp os)
  | some (.useSeed s) =>
    let sk := clamp (D.chacha ((D.sha256 s).take 32))
    .ok (D.xPublic sk, sk)
  | some (.fromSecretKey s) => do
    let b ← arrayRef32 s
    .ok (D.xPublic (clamp b), clamp b)

/-- libursa/src/kex/x25519.rs:51-62 `compute_shared_secret` -/
def Dalek.xSharedSecret (sk pk : Bytes) : Res CryptoError Bytes := do
  let s ← arrayRef32 sk
  let p ← arrayRef32 pk
  .ok (D.sha256 (D.ladder (ofLe (clamp s)) p))

/-! ## The C interface of Ed25519: a null pointer is `none` -/

/-- What a call leaves: the value returned, the new contents of the buffers given by reference (if written) and the code
in `err` (`none` if not written) -/
structure FfiRet where
  value : Nat
  publicKey : Option Bytes := none
  privateKey : Option Bytes := none
  signature : Option Bytes := none
  code : Option Nat
  deriving DecidableEq

/-- libursa/src/ffi/signatures/ed25519.rs:303-328 `ursa_ed25519_keypair_gen`; `wantPrivate` says whether a buffer for the
private key is given -/
def Dalek.ffiKeypairGen (os : Bytes) (option : Option KeyGenOption) (wantPrivate : Bool) : Res CryptoError FfiRet :=
  match D.keypair os option with
  | .ok (pk, sk) => .ok { value := 1, publicKey := some pk, privateKey := if wantPrivate then some sk else none, code := some 0 }
  | .err _ => .ok { value := 0, code := some 1 }
  | .panic => .panic

/-- libursa/src/ffi/signatures/ed25519.rs:187-193 `ursa_ed25519_keypair_new` -/
def Dalek.ffiKeypairNew (os : Bytes) : Res CryptoError FfiRet := D.ffiKeypairGen os none true

/-- libursa/src/ffi/signatures/ed25519.rs:201-213 `ursa_ed25519_keypair_from_seed` -/
def Dalek.ffiKeypairFromSeed (os : Bytes) (seed : Option Bytes) : Res CryptoError FfiRet :=
  D.ffiKeypairGen os (some (.useSeed (seed.getD []))) true

/-- libursa/src/ffi/signatures/ed25519.rs:221-234 `ursa_ed25519_get_public_key` -/
def Dalek.ffiGetPublicKey (os : Bytes) (sk : Option Bytes) : Res CryptoError FfiRet :=
  D.ffiKeypairGen os (some (.fromSecretKey (sk.getD []))) false

/-- libursa/src/ffi/signatures/ed25519.rs:242-265 `ursa_ed25519_sign` -/
def Dalek.ffiSign (message sk : Option Bytes) : Res CryptoError FfiRet :=
  match D.sign (message.getD []) (sk.getD []) with
  | .ok sig => .ok { value := 1, signature := some sig, code := some 0 }
  | .err _ => .ok { value := 0, code := some 2 }
  | .panic => .panic

/-- libursa/src/ffi/signatures/ed25519.rs:271-301 `ursa_ed25519_verify` -/
def Dalek.ffiVerify (message sig pk : Option Bytes) : Res CryptoError FfiRet :=
  match D.verify (message.getD []) (sig.getD []) (pk.getD []) with
  | .ok true => .ok { value := 1, code := some 0 }
  | .ok false => .ok { value := 0, code := none }
  | .err _ => .ok { value := 0, code := some 3 }
  | .panic => .panic

end Verif.Sig
