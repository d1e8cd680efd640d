import Verif.Common
/-!
# Model of the symmetric encryption suite (libursa/src/encryption/symm)

The block ciphers, MACs and AEAD primitives of the external crates enter through their contracts: a block cipher is a
key-indexed permutation of 16-byte blocks, a MAC is any function with a fixed output length, an AEAD primitive
(`aes-gcm`, `chacha20poly1305`, OpenSSL, libsodium) decrypts what it encrypted, appends a tag of fixed length and rejects
inputs shorter than the tag.  CBC chaining and PKCS#7 padding (crates `block-modes` and `block-padding`) are written out.
Nonces drawn by `nonce_gen` and keys drawn by `key_gen` are parameters.
-/
namespace Verif.Symm

/-! ## External primitives -/

/-- AES as used by `Cbc<Aes128, Pkcs7>` / `Cbc<Aes256, Pkcs7>` (symm/aescbc.rs:10-12, 19-20) -/
structure BlockCipher where
  enc : Bytes → Bytes → Bytes
  dec : Bytes → Bytes → Bytes
  enc_length : ∀ k b, b.length = 16 → (enc k b).length = 16
  dec_enc : ∀ k b, b.length = 16 → dec k (enc k b) = b

/-- `Hmac<Sha256>` / `Hmac<Sha512>` (symm/aescbc.rs:13, 21-22): `new_varkey` accepts every key, `result().code()` has the
length of the digest -/
structure Mac where
  tag : Bytes → Bytes → Bytes
  size : Nat
  tag_length : ∀ k m, (tag k m).length = size

/-- `aes_gcm::Aes128Gcm`, `aes_gcm::Aes256Gcm`, `chacha20poly1305::{ChaCha20Poly1305, XChaCha20Poly1305}` (symm/aesgcm.rs:9,
symm/chacha20poly1305.rs:9, symm/xchacha20poly1305.rs:9).  Arguments: key, nonce, associated data, message. -/
structure AeadPrim where
  enc : Bytes → Bytes → Bytes → Bytes → Bytes
  dec : Bytes → Bytes → Bytes → Bytes → Option Bytes
  enc_length : ∀ k n a m, (enc k n a m).length = m.length + 16
  dec_enc : ∀ k n a m, dec k n a (enc k n a m) = some m
  dec_short : ∀ k n a c, c.length < 16 → dec k n a c = none

/-- the message is split into 16-byte blocks (crate block-modes; `n` is the number of blocks) -/
def blocks : Nat → Bytes → List Bytes
  | 0, _ => []
  | n + 1, l => l.take 16 :: blocks n (l.drop 16)

/-- exclusive or of two blocks -/
def xorB (a b : Bytes) : Bytes := List.zipWith (· ^^^ ·) a b

/-- CBC encryption of blocks: every block is masked by the previous ciphertext block, the first one by the nonce
(`encryptor.encrypt_vec`, symm/aescbc.rs:57) -/
def cbcEncBlocks (bc : BlockCipher) (k : Bytes) : Bytes → List Bytes → List Bytes
  | _, [] => []
  | iv, b :: bs => bc.enc k (xorB iv b) :: cbcEncBlocks bc k (bc.enc k (xorB iv b)) bs

/-- CBC decryption of blocks (`decryptor.decrypt_vec`, symm/aescbc.rs:92-94) -/
def cbcDecBlocks (bc : BlockCipher) (k : Bytes) : Bytes → List Bytes → List Bytes
  | _, [] => []
  | iv, c :: cs => xorB iv (bc.dec k c) :: cbcDecBlocks bc k c cs

/-- PKCS#7 padding to a multiple of 16 bytes -/
def pad (m : Bytes) : Bytes := m ++ List.replicate (16 - m.length % 16) (UInt8.ofNat (16 - m.length % 16))

/-- PKCS#7 unpadding of crate block-padding: the last byte says how many bytes to drop, all of which must equal it -/
def unpad (m : Bytes) : Option Bytes :=
  match m.getLast? with
  | none => none
  | some n =>
    if n.toNat = 0 ∨ m.length < n.toNat then none
    else if (m.drop (m.length - n.toNat)).all (fun v => v == n) then some (m.take (m.length - n.toNat)) else none

/-- `Cbc::encrypt_vec` (symm/aescbc.rs:57) -/
def cbcEncrypt (bc : BlockCipher) (k iv m : Bytes) : Bytes :=
  (cbcEncBlocks bc k iv (blocks ((pad m).length / 16) (pad m))).flatten

/-- `Cbc::decrypt_vec` (symm/aescbc.rs:92-94): `Err` unless the length is a multiple of the block size and the padding is
well formed -/
def cbcDecrypt (bc : BlockCipher) (k iv c : Bytes) : Option Bytes :=
  if c.length % 16 ≠ 0 then none else unpad (cbcDecBlocks bc k iv (blocks (c.length / 16) c)).flatten

/-! ## The ciphers -/

/-- One of the encryptor types with the associated sizes of `NewAead`, `Aead` and `Encryptor` and the two `Aead` methods
(arguments: key, nonce, associated data, message). -/
structure Cipher where
  keySize : Nat
  nonceSize : Nat
  tagSize : Nat
  minSize : Nat
  encrypt : Bytes → Bytes → Bytes → Bytes → Res Unit Bytes
  decrypt : Bytes → Bytes → Bytes → Bytes → Res Unit Bytes

/-- symm/aescbc.rs:48-66 `encrypt` (symm/aescbc_asm.rs:44-74 has the same effect) -/
def cbcHmacEncrypt (bc : BlockCipher) (mac : Mac) (algoKeySize : Nat) (key nonce aad msg : Bytes) : Res Unit Bytes :=
  let ciphertext := cbcEncrypt bc (key.take algoKeySize) nonce msg
  .ok (ciphertext ++ mac.tag (key.drop algoKeySize) (aad ++ nonce ++ ciphertext))

/-- symm/aescbc.rs:68-101 `decrypt` (symm/aescbc_asm.rs:76-110) -/
def cbcHmacDecrypt (bc : BlockCipher) (mac : Mac) (algoKeySize tagSize : Nat) (key nonce aad msg : Bytes) : Res Unit Bytes :=
  if msg.length < tagSize + algoKeySize then .err ()
  else
    let tagStart := msg.length - tagSize
    let buffer := msg.take tagStart
    let tag := msg.drop tagStart
    if mac.tag (key.drop algoKeySize) (aad ++ nonce ++ buffer) = tag then
      Res.ofOption () (cbcDecrypt bc (key.take algoKeySize) nonce buffer)
    else .err ()

/-- symm/aescbc.rs:24-108 `aes_cbc_hmac_impl!`; `MinSize` is 48 for every instance (31-33) -/
@[reducible] def cbcHmac (bc : BlockCipher) (mac : Mac) (algoKeySize keySize nonceSize tagSize : Nat) : Cipher where
  keySize := keySize
  nonceSize := nonceSize
  tagSize := tagSize
  minSize := 48
  encrypt := cbcHmacEncrypt bc mac algoKeySize
  decrypt := cbcHmacDecrypt bc mac algoKeySize tagSize

/-- symm/aescbc.rs:110-119 -/
@[reducible] def aes128CbcHmac256 (bc : BlockCipher) (mac : Mac) : Cipher := cbcHmac bc mac 16 32 16 32
/-- symm/aescbc.rs:120-129 -/
@[reducible] def aes256CbcHmac512 (bc : BlockCipher) (mac : Mac) : Cipher := cbcHmac bc mac 32 64 16 64

/-- symm/aesgcm.rs:14-68 `aes_gcm_impl!` (symm/aesgcm_asm.rs:17-90): `MinSize` 32, nonce 12, tag 16; `decrypt` first
requires tag + nonce bytes (52-54) -/
@[reducible] def gcm (p : AeadPrim) (keySize : Nat) : Cipher where
  keySize := keySize
  nonceSize := 12
  tagSize := 16
  minSize := 32
  encrypt := fun key nonce aad msg => .ok (p.enc key nonce aad msg)
  decrypt := fun key nonce aad msg =>
    if msg.length < 16 + 12 then .err () else Res.ofOption () (p.dec key nonce aad msg)

/-- symm/aesgcm.rs:70 -/
@[reducible] def aes128Gcm (p : AeadPrim) : Cipher := gcm p 16
/-- symm/aesgcm.rs:71 -/
@[reducible] def aes256Gcm (p : AeadPrim) : Cipher := gcm p 32

/-- symm/chacha20poly1305.rs:14-55 (symm/chacha20poly1305_asm.rs:26-106): `MinSize` 36, nonce 12, tag 16 -/
@[reducible] def chaCha20Poly1305 (p : AeadPrim) : Cipher where
  keySize := 32
  nonceSize := 12
  tagSize := 16
  minSize := 36
  encrypt := fun key nonce aad msg => .ok (p.enc key nonce aad msg)
  decrypt := fun key nonce aad msg => Res.ofOption () (p.dec key nonce aad msg)

/-- symm/xchacha20poly1305.rs:14-55 (symm/xchacha20poly1305_asm.rs:26-106): `MinSize` 48, nonce 24, tag 16 -/
@[reducible] def xChaCha20Poly1305 (p : AeadPrim) : Cipher where
  keySize := 32
  nonceSize := 24
  tagSize := 16
  minSize := 48
  encrypt := fun key nonce aad msg => .ok (p.enc key nonce aad msg)
  decrypt := fun key nonce aad msg => Res.ofOption () (p.dec key nonce aad msg)

/-! ## The `Encryptor` trait and its wrappers -/

/-- symm/mod.rs:237-247 `Encryptor::encrypt_easy`; `nonce` is what `nonce_gen` (292-294) drew -/
def encryptEasy (C : Cipher) (key nonce aad plaintext : Bytes) : Res Unit Bytes := do
  let ciphertext ← C.encrypt key nonce aad plaintext
  pure (nonce ++ ciphertext)

/-- symm/mod.rs:249-262 `Encryptor::decrypt_easy`; slicing beyond the end panics -/
def decryptEasy (C : Cipher) (key aad ciphertext : Bytes) : Res Unit Bytes :=
  if ciphertext.length < C.minSize then .err ()
  else if ciphertext.length < C.nonceSize then .panic
  else C.decrypt key (ciphertext.take C.nonceSize) aad (ciphertext.drop C.nonceSize)

/-- symm/mod.rs:149-153 `SymmetricEncryptor::new_with_key`, 397-420 `EncryptorType::gen_encryptor` and 81-83 (deserialization):
`GenericArray::from_slice` panics unless the slice has exactly the length of the array -/
def newWithKey (C : Cipher) (key : Bytes) : Res Unit Bytes :=
  if key.length ≠ C.keySize then .panic else .ok key

/-- symm/mod.rs:162-174 `SymmetricEncryptor::encrypt`, 321-325 `DynEncryptor::encrypt`: the nonce length is asserted -/
def encryptWith (C : Cipher) (key nonce aad plaintext : Bytes) : Res Unit Bytes :=
  if nonce.length ≠ C.nonceSize then .panic else C.encrypt key nonce aad plaintext

/-- symm/mod.rs:189-201 `SymmetricEncryptor::decrypt`, 331-335 `DynEncryptor::decrypt` -/
def decryptWith (C : Cipher) (key nonce aad ciphertext : Bytes) : Res Unit Bytes :=
  if nonce.length ≠ C.nonceSize then .panic else C.decrypt key nonce aad ciphertext

/-- A `Read` stream as seen by `read_to_end`: the chunks it delivers, and whether it ends with an error. -/
structure Stream where
  chunks : List Bytes
  fails : Bool

/-- symm/mod.rs:460-465 `read_buffer` -/
def readBuffer (s : Stream) : Res Unit Bytes :=
  if s.fails then .err () else .ok (s.chunks.flatten.take s.chunks.flatten.length)

/-- symm/mod.rs:264-274 `encrypt_buffer`: what is written to the output; `writeOk` says whether `write_all` succeeds -/
def encryptBuffer (C : Cipher) (key nonce aad : Bytes) (input : Stream) (writeOk : Bool) : Res Unit Bytes := do
  let p ← readBuffer input
  let c ← encryptEasy C key nonce aad p
  if writeOk then .ok c else .err ()

/-- symm/mod.rs:276-286 `decrypt_buffer` -/
def decryptBuffer (C : Cipher) (key aad : Bytes) (input : Stream) (writeOk : Bool) : Res Unit Bytes := do
  let c ← readBuffer input
  let p ← decryptEasy C key aad c
  if writeOk then .ok p else .err ()

/-! ## `EncryptorType` -/

/-- symm/mod.rs:338-351 -/
inductive EncryptorType where
  | Aes128CbcHmac256 | Aes256CbcHmac512 | Aes128Gcm | Aes256Gcm | XChaCha20Poly1305
  deriving DecidableEq

/-- The external primitives behind the five selectable ciphers. -/
structure Prims where
  aes128 : BlockCipher
  aes256 : BlockCipher
  hmac256 : Mac
  hmac512 : Mac
  gcm128 : AeadPrim
  gcm256 : AeadPrim
  xchacha : AeadPrim

/-- symm/mod.rs:397-420: the cipher `gen_encryptor` instantiates -/
def EncryptorType.cipher (P : Prims) : EncryptorType → Cipher
  | .Aes128CbcHmac256 => aes128CbcHmac256 P.aes128 P.hmac256
  | .Aes256CbcHmac512 => aes256CbcHmac512 P.aes256 P.hmac512
  | .Aes128Gcm => aes128Gcm P.gcm128
  | .Aes256Gcm => aes256Gcm P.gcm256
  | .XChaCha20Poly1305 => xChaCha20Poly1305 P.xchacha

/-- symm/mod.rs:354-373 `is_valid_keysize` -/
def EncryptorType.isValidKeysize (P : Prims) (t : EncryptorType) (size : Nat) : Bool := size == (t.cipher P).keySize

/-- symm/mod.rs:375-395 `is_valid_noncesize` -/
def EncryptorType.isValidNoncesize (P : Prims) (t : EncryptorType) (size : Nat) : Bool := size == (t.cipher P).nonceSize

/-- symm/mod.rs:397-420 `gen_encryptor` -/
def EncryptorType.genEncryptor (P : Prims) (t : EncryptorType) (key : Bytes) : Res Unit Bytes := newWithKey (t.cipher P) key

/-- symm/mod.rs:422-440 `FromStr` -/
def EncryptorType.fromStr (s : String) : Res String EncryptorType :=
  if s = "aes-128-cbc-hmac-256" then .ok .Aes128CbcHmac256
  else if s = "aes-256-cbc-hmac-512" then .ok .Aes256CbcHmac512
  else if s = "aes-128-gcm" then .ok .Aes128Gcm
  else if s = "aes-256-gcm" then .ok .Aes256Gcm
  else if s = "xchacha20poly1305" then .ok .XChaCha20Poly1305
  else .err ("Invalid type: " ++ s)

/-- symm/mod.rs:442-458 `Display` -/
def EncryptorType.display : EncryptorType → String
  | .Aes128CbcHmac256 => "aes-128-cbc-hmac-256"
  | .Aes256CbcHmac512 => "aes-256-cbc-hmac-512"
  | .Aes128Gcm => "aes-128-gcm"
  | .Aes256Gcm => "aes-256-gcm"
  | .XChaCha20Poly1305 => "xchacha20poly1305"

/-! ## Serialization of an encryptor (its key, as hexadecimal) -/

/-- crate hex: lower-case digits -/
def hexDigit (n : Nat) : Char := if n < 10 then Char.ofNat (48 + n) else Char.ofNat (87 + n)

/-- crate hex: value of a digit, upper case accepted -/
def hexVal (c : Char) : Option Nat :=
  let n := c.toNat
  if 48 ≤ n ∧ n ≤ 57 then some (n - 48)
  else if 97 ≤ n ∧ n ≤ 102 then some (n - 87)
  else if 65 ≤ n ∧ n ≤ 70 then some (n - 55)
  else none

/-- `hex::encode` -/
def hexEncode : Bytes → List Char
  | [] => []
  | b :: bs => hexDigit (b.toNat / 16) :: hexDigit (b.toNat % 16) :: hexEncode bs

/-- `hex::decode` -/
def hexDecode : List Char → Option Bytes
  | [] => some []
  | [_] => none
  | a :: b :: cs =>
    match hexVal a, hexVal b, hexDecode cs with
    | some x, some y, some r => some (UInt8.ofNat (x * 16 + y) :: r)
    | _, _, _ => none

/-- symm/mod.rs:49-59 `Serialize` -/
def serialize (key : Bytes) : List Char := hexEncode key

/-- symm/mod.rs:61-90 `Deserialize`: `from_slice` at line 83 is not guarded -/
def deserialize (C : Cipher) (s : List Char) : Res Unit Bytes := do
  let key ← Res.ofOption () (hexDecode s)
  newWithKey C key

end Verif.Symm
