import Verif.Symm.Model

/-!
# The C interface of symmetric encryption: libursa/src/ffi/encryption/mod.rs

The functions work on byte arrays, not on handles.  A pointer given by the caller is null or points to as many readable
bytes as its length says; the length of a null pointer is ignored.  `output` and `err` are given by reference; the model
says whether `output` is written and what `err` holds after the call.
-/

namespace Verif.Symm

/-- `ByteArray`: libursa/src/ffi/mod.rs:25-28; `none` is a null pointer -/
abbrev ByteArray := Option Bytes

/-- `ByteArray::to_vec`: libursa/src/ffi/mod.rs:40-46 -/
def ByteArray.toVec (a : ByteArray) : Bytes := a.getD []

/-- `ByteArray::to_opt_vec`: libursa/src/ffi/mod.rs:48-56 -/
def ByteArray.toOptVec (a : ByteArray) : Option Bytes := a

/-- A C string as `FfiStr::as_str` (crate ffi-support) sees it: it panics for the first two. -/
inductive CText where
  | null | notUtf8 | text (s : String)

/-- What a call leaves: the value returned, the new content of `output` (if written) and the code in `err`. -/
structure Ret where
  value : Nat
  output : Option Bytes
  code : Nat
  deriving DecidableEq

/-- libursa/src/ffi/encryption/mod.rs:10-10 -/
def ENCRYPTION_ERROR : Nat := 6
/-- libursa/src/ffi/encryption/mod.rs:11-11 -/
def DECRYPTION_ERROR : Nat := 7
/-- libursa/src/ffi/encryption/mod.rs:12-12 -/
def INVALID_KEY_LENGTH : Nat := 8
/-- libursa/src/ffi/encryption/mod.rs:13-13 -/
def INVALID_NONCE_LENGTH : Nat := 9
/-- libursa/src/ffi/encryption/mod.rs:14-14 -/
def INVALID_CIPHER : Nat := 11

/-- the end of libursa/src/ffi/encryption/mod.rs:83-92; a panic crosses the C boundary and stops the program -/
def finishCall (errCode : Nat) : Res Unit Bytes → Res Unit Ret
  | .ok c => .ok ⟨1, some c, 0⟩
  | .err _ => .ok ⟨0, none, errCode⟩
  | .panic => .panic

/-- libursa/src/ffi/encryption/mod.rs:26-95 `ffi_encryption_impl!`.  `op` and `opEasy` are the operations with and without
nonce. -/
def ffiCall (P : Prims) (op : Cipher → Bytes → Bytes → Bytes → Bytes → Res Unit Bytes)
    (opEasy : Cipher → Bytes → Bytes → Bytes → Res Unit Bytes) (errCode : Nat)
    (algorithm : CText) (key nonce aad input : ByteArray) : Res Unit Ret :=
  match algorithm with
  | .null => .panic
  | .notUtf8 => .panic
  | .text s =>
    match EncryptorType.fromStr s with
    | .panic => .panic
    | .err _ => .ok ⟨0, none, INVALID_CIPHER⟩
    | .ok t =>
      if !(t.isValidKeysize P key.toVec.length) then .ok ⟨0, none, INVALID_KEY_LENGTH⟩
      else
        match t.genEncryptor P key.toVec with
        | .panic => .panic
        | .err _ => .panic
        | .ok k =>
          match nonce.toOptVec with
          | some n =>
            if (t.cipher P).nonceSize ≠ n.length then .ok ⟨0, none, INVALID_NONCE_LENGTH⟩
            else finishCall errCode (op (t.cipher P) k n aad.toVec input.toVec)
          | none => finishCall errCode (opEasy (t.cipher P) k aad.toVec input.toVec)

/-- libursa/src/ffi/encryption/mod.rs:289-294 `ursa_encrypt`; `drawn` is the random nonce used when none is given -/
def ursaEncrypt (P : Prims) (drawn : Bytes) : CText → ByteArray → ByteArray → ByteArray → ByteArray → Res Unit Ret :=
  ffiCall P encryptWith (fun C k a m => encryptEasy C k drawn a m) ENCRYPTION_ERROR

/-- libursa/src/ffi/encryption/mod.rs:295-300 `ursa_decrypt` -/
def ursaDecrypt (P : Prims) : CText → ByteArray → ByteArray → ByteArray → ByteArray → Res Unit Ret :=
  ffiCall P decryptWith decryptEasy DECRYPTION_ERROR

/-- libursa/src/ffi/encryption/mod.rs:97-114 `ffi_encryption_alias!`: the functions `ursa_aes128_cbc_hmac256_encrypt`
and so on (189-222) -/
def aliasEncrypt (P : Prims) (drawn : Bytes) (t : EncryptorType) (key nonce aad input : ByteArray) : Res Unit Ret :=
  ursaEncrypt P drawn (.text t.display) key nonce aad input

/-- libursa/src/ffi/encryption/mod.rs:97-114 for decryption -/
def aliasDecrypt (P : Prims) (t : EncryptorType) (key nonce aad input : ByteArray) : Res Unit Ret :=
  ursaDecrypt P (.text t.display) key nonce aad input

/-- libursa/src/ffi/encryption/mod.rs:17-24 and 224-287 `ursa_…_keysize` -/
def ffiKeysize (P : Prims) (t : EncryptorType) : Nat := (t.cipher P).keySize
/-- libursa/src/ffi/encryption/mod.rs:17-24 and 224-287 `ursa_…_noncesize` -/
def ffiNoncesize (P : Prims) (t : EncryptorType) : Nat := (t.cipher P).nonceSize
/-- libursa/src/ffi/encryption/mod.rs:17-24 and 224-287 `ursa_…_tagsize` -/
def ffiTagsize (P : Prims) (t : EncryptorType) : Nat := (t.cipher P).tagSize

/-- libursa/src/ffi/encryption/mod.rs:303-322 `random_bytes`; `random_vec` (libursa/src/encryption/mod.rs:10-14) gives as
many random bytes as asked for and never fails -/
def ffiRandomBytes (draw : Nat → Bytes) (n : Nat) : Ret := ⟨1, some (draw n), 0⟩

end Verif.Symm
