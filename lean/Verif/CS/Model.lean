import Verif.BN.Model
/-!
# Camenisch–Shoup verifiable encryption (libzmix/src/verifiable_encryption/cs_verifiable_encryption.rs)

`BigNumber` is `Int` and its operations are those of `Verif.BN.Model` (the pure Rust backend).  Randomness is an argument.  `BigNumber::hash_array`
(SHA-256 of the concatenation, libursa/src/bn/rust.rs:491-499) followed by `from_bytes` (libursa/src/cl/hash.rs:4-12) is an arbitrary function `H` of
the concatenated bytes.  Error texts leave out the numbers they print.
-/
namespace Verif.CS
open Verif.BN

/-- cs_verifiable_encryption.rs:17-24 `PaillierGroup` -/
structure Group where
  g : Int
  h : Int
  nBy4 : Int
  modulus : Int
  deriving DecidableEq

/-- cs_verifiable_encryption.rs:26-32 `CSEncPrikey` -/
structure PriKey where
  x1 : List Int
  x2 : Int
  x3 : Int
  deriving DecidableEq

/-- cs_verifiable_encryption.rs:34-43 `CSEncPubkey` -/
structure PubKey where
  n : Int
  twoInvTimes2 : Int
  group : Group
  y1 : List Int
  y2 : Int
  y3 : Int
  deriving DecidableEq

/-- cs_verifiable_encryption.rs:45-51 `CSCiphertext` -/
structure Cipher where
  u : Int
  e : List Int
  v : Int
  deriving DecidableEq

/-- cs_verifiable_encryption.rs:59-72 `PaillierGroup::new`; `g'` is the value drawn -/
def Group.new (n g' : Int) : Res String Group := do
  let g ← modExp g' (lshift1 n) (n * n)
  pure ⟨g, n + 1, rshift n 2, n * n⟩

/-- cs_verifiable_encryption.rs:92-100 `exponentiate` (and 74-90 with `g` and `h`) -/
def Group.exp (G : Group) (base e : Int) : Res String Int := modExp base e G.modulus

/-- cs_verifiable_encryption.rs:102-114 `sqr` -/
def Group.sqr (G : Group) (base : Int) : Res String Int := BN.modulus (base * base) G.modulus

/-- cs_verifiable_encryption.rs:126-140 `abs` -/
def Group.abs (G : Group) (a : Int) : Res String Int := do
  let a ← BN.modulus a G.modulus
  if a > rshift G.modulus 1 then pure (G.modulus - a) else pure a

/-- cs_verifiable_encryption.rs:164-171: the `y1` for the `x1` -/
def keysFor (G : Group) : List Int → Res String (List Int)
  | [] => .ok []
  | x :: xs => do
    let y ← G.exp G.g x
    let rest ← keysFor G xs
    pure (y :: rest)

/-- cs_verifiable_encryption.rs:145-187 `CSKeypair::new`; `p`, `q`, `g'`, `x1` (one for each message), `x2`, `x3` are the values drawn -/
def keypair (p q g' : Int) (x1 : List Int) (x2 x3 : Int) : Res String (PubKey × PriKey) :=
  if x1.length < 1 then .err "number of messages should be greater than 0"
  else do
    let i ← inverse 2 (p * q)
    let G ← Group.new (p * q) g'
    let y1 ← keysFor G x1
    let y2 ← G.exp G.g x2
    let y3 ← G.exp G.g x3
    pure (⟨p * q, lshift1 i, G, y1, y2, y3⟩, ⟨x1, x2, x3⟩)

/-- cs_verifiable_encryption.rs:481-488 `hash`: the bytes that are hashed -/
def hashInput (u : Int) (e : List Int) (label : Bytes) : Bytes := toBytes u ++ e.flatMap toBytes ++ label

variable (H : Bytes → Int)

/-- cs_verifiable_encryption.rs:442-456 `compute_e`; `y1[i]` panics if there are fewer keys -/
def computeE (G : Group) (r : Int) : List Int → List Int → Res String (List Int)
  | [], _ => .ok []
  | _ :: _, [] => .panic
  | m :: ms, y :: ys => do
    let y' ← G.exp y r
    let hm ← G.exp G.h m
    let e ← modMul y' hm G.modulus
    let rest ← computeE G r ms ys
    pure (e :: rest)

/-- cs_verifiable_encryption.rs:458-479 `compute_v` -/
def computeV (pk : PubKey) (r hash : Int) (takeAbs : Bool) : Res String Int := do
  let y3 ← pk.group.exp pk.y3 hash
  let y ← modMul pk.y2 y3 pk.group.modulus
  let v ← pk.group.exp y r
  if takeAbs = true then pk.group.abs v else pure v

/-- cs_verifiable_encryption.rs:400-414 `encrypt_using_random_value` -/
def encryptWith (pk : PubKey) (r : Int) (ms : List Int) (label : Bytes) : Res String Cipher := do
  let u ← pk.group.exp pk.group.g r
  let e ← computeE pk.group r ms pk.y1
  let v ← computeV pk r (H (hashInput u e label)) true
  pure ⟨u, e, v⟩

/-- cs_verifiable_encryption.rs:257-279 `encrypt`; `r` is the value drawn -/
def encrypt (pk : PubKey) (r : Int) (ms : List Int) (label : Bytes) : Res String Cipher :=
  if ms.length > pk.y1.length then .err "number of messages is more than supported by public key"
  else encryptWith H pk r ms label

/-- cs_verifiable_encryption.rs:229-252: the messages from number `i` on; `x1[i]` panics if there are fewer keys -/
def decryptLoop (pk : PubKey) (u : Int) : Nat → List Int → List Int → Res String (List Int)
  | _, [], _ => .ok []
  | _, _ :: _, [] => .panic
  | i, e :: es, x :: xs => do
    let ux ← pk.group.exp u x
    let inv ← inverse ux pk.group.modulus
    let w ← modMul e inv pk.group.modulus
    let mHat ← pk.group.exp w pk.twoInvTimes2
    let one ← BN.modulus mHat pk.n
    if one = 1 then do
      let m ← BN.modulus mHat pk.group.modulus
      let m ← div (m - 1) pk.n
      let rest ← decryptLoop pk u (i + 1) es xs
      pure (m :: rest)
    else .err s!"Decryption failed for message {i + 1}"

/-- cs_verifiable_encryption.rs:190-255 `decrypt` -/
def decrypt (label : Bytes) (c : Cipher) (pk : PubKey) (sk : PriKey) : Res String (List Int) :=
  if c.e.length > sk.x1.length then .err "number of messages is more than supported by public key"
  else do
    let a ← pk.group.abs c.v
    if c.v ≠ a then .err "absolute check failed for v"
    else do
      let us ← pk.group.exp c.u (lshift1 (H (hashInput c.u c.e label) * sk.x3 + sk.x2))
      let vs ← pk.group.sqr c.v
      if vs ≠ us then .err "u^2 != v^2"
      else decryptLoop pk c.u 0 c.e sk.x1

/-- cs_verifiable_encryption.rs:416-430 `ciphertext_t_values` -/
def tValues (pk : PubKey) (rTilde : Int) (blindings : List Int) (hash : Int) : Res String Cipher := do
  let u ← pk.group.exp pk.group.g (lshift1 rTilde)
  let e ← computeE pk.group (lshift1 rTilde) (blindings.map lshift1) pk.y1
  let v ← computeV pk (lshift1 rTilde) hash false
  pure ⟨u, e, v⟩

/-- cs_verifiable_encryption.rs:281-322 `encrypt_and_prove_phase_1`: the ciphertext and the commitments; `r` and `rTilde` are the values drawn, which
the function returns as well -/
def provePhase1 (pk : PubKey) (r rTilde : Int) (ms blindings : List Int) (label : Bytes) : Res String (Cipher × Cipher) :=
  if ms.length ≠ blindings.length then .err "number of messages is not equal to the number of blindings"
  else if ms.length > pk.y1.length then .err "number of messages is more than supported by public key"
  else do
    let c ← encryptWith H pk r ms label
    let t ← tValues pk rTilde blindings (H (hashInput c.u c.e label))
    pure (c, t)

/-- cs_verifiable_encryption.rs:324-334 `encrypt_and_prove_phase_2` -/
def provePhase2 (pk : PubKey) (r rTilde challenge : Int) : Res String Int := do
  let x ← modMul r challenge pk.group.modulus
  pure (rTilde - x)

/-- cs_verifiable_encryption.rs:368-379: the `e` of the commitments; `ciphertext.e[i]` and `y1[i]` panic if they are not there.
`challenge` and `rHat` are doubled already. -/
def reconE (G : Group) (challenge rHat : Int) : List Int → List Int → List Int → Res String (List Int)
  | [], _, _ => .ok []
  | _ :: _, [], _ => .panic
  | s :: ss, e :: es, ys => do
    let ec ← G.exp e challenge
    let y ← Res.unwrap ys.head?
    let yr ← G.exp y rHat
    let hm ← G.exp G.h (lshift1 s)
    let a ← modMul ec yr G.modulus
    let b ← modMul a hm G.modulus
    let rest ← reconE G challenge rHat ss es ys.tail
    pure (b :: rest)

/-- cs_verifiable_encryption.rs:336-398 `reconstruct_blindings_ciphertext` -/
def reconstruct (pk : PubKey) (c : Cipher) (s : List Int) (rHat challenge : Int) (label : Bytes) : Res String Cipher :=
  if s.length > pk.y1.length then .err "number of messages is more than supported by public key"
  else do
    let uc ← pk.group.exp c.u (lshift1 challenge)
    let gr ← pk.group.exp pk.group.g (lshift1 rHat)
    let u ← modMul uc gr pk.group.modulus
    let e ← reconE pk.group (lshift1 challenge) (lshift1 rHat) s c.e pk.y1
    let vc ← pk.group.exp c.v (lshift1 challenge)
    let y3 ← pk.group.exp pk.y3 (H (hashInput c.u c.e label))
    let y ← modMul pk.y2 y3 pk.group.modulus
    let yr ← pk.group.exp y (lshift1 rHat)
    let v ← modMul vc yr pk.group.modulus
    pure ⟨u, e, v⟩

end Verif.CS
