import Verif.BBS.Model
/-!
# BBS+ wire formats (libzmix/bbs/src: keys.rs, signature.rs, pok_sig.rs, lib.rs)

One codec per group stands for the compressed or for the uncompressed form, as the flag `compressed` says; scalars have the same
32 bytes in both.  Reading from a cursor that has too few bytes left is an `io::Error`, which becomes `GeneralError`.
`Vec::with_capacity(n)` with `n` read from the input (which aborts when memory is exhausted) is not modelled.
-/
namespace Verif.BBS
open Verif.PoK (readElem readMany)

/-- the slice `&data[a..b]` -/
def slice {ε : Type} (d : Bytes) (a b : Nat) : Res ε Bytes :=
  if a ≤ b ∧ b ≤ d.length then .ok ((d.take b).drop a) else .panic

/-- `u32::from_be_bytes(*array_ref![data, off, 4]) as usize` -/
def readU32 {ε : Type} (d : Bytes) (off : Nat) : Res ε Nat := do
  let b ← slice d off (off + 4)
  pure (ofBe b)

/-- errors.rs `From<std::io::Error>` -/
def ioErr : Error := .general "io"

section
variable {F G1 G2 : Type} [Field F] [AddCommGroup G1] [Module F G1] [AddCommGroup G2]
  [DecidableEq F] [DecidableEq G1] [DecidableEq G2]
variable (c1 : Codec G1) (c2 : Codec G2) (cF : Codec F)

/-! ## Public keys -/

/-- keys.rs:110-119 `PublicKey::to_bytes` -/
def PublicKey.toBytes (pk : PublicKey G1 G2) : Bytes :=
  c2.enc pk.w ++ c1.enc pk.h0 ++ beU32 pk.h.length ++ (pk.h.map c1.enc).flatten

/-- keys.rs:122-146 `PublicKey::from_bytes`.  The subtraction `data.len() - 4` panics below four bytes in a build with overflow
checks. -/
def PublicKey.fromBytes (data : Bytes) : Res Error (PublicKey G1 G2) :=
  if data.length < 4 then .panic
  else if (data.length - 4) % c1.size ≠ 0 then .err .malformedPublicKey
  else do
    let (w, rest) ← Res.ofOption ioErr (readElem c2 data)
    let (h0, rest) ← Res.ofOption ioErr (readElem c1 rest)
    let n ← readU32 rest 0
    let (h, _) ← Res.ofOption ioErr (readMany c1 n (rest.drop 4))
    let pk : PublicKey G1 G2 := ⟨h0, h, w⟩
    pk.validate
    pure pk

/-! ## Signatures -/

/-- signature.rs:46-57 `to_bytes_compressed_form`, `to_bytes_uncompressed_form` of `Signature` and `BlindSignature` -/
def Signature.toBytes (s : Signature F G1) : Bytes := c1.enc s.a ++ cF.enc s.e ++ cF.enc s.s

/-- signature.rs:80-91 `TryFrom<&[u8]>`: the form is chosen by the length.  `c1` is the compressed form, `c1'` the other one -/
def Signature.tryFrom (c1' : Codec G1) (data : Bytes) : Res Error (Signature F G1) := do
  let c := if data.length = c1.size + 2 * cF.size then c1 else c1'
  let (a, rest) ← Res.ofOption ioErr (readElem c data)
  let (e, rest) ← Res.ofOption ioErr (readElem cF rest)
  let (s, _) ← Res.ofOption ioErr (readElem cF rest)
  pure ⟨a, e, s⟩

/-! ## Proofs -/

/-- pok_sig.rs:433-447 `PoKOfSignatureProof::to_bytes` -/
def SigProof.toBytes (p : SigProof F G1) : Bytes :=
  let b1 := p.vc1.toBytes c1 cF
  c1.enc p.aPrime ++ c1.enc p.aBar ++ c1.enc p.d ++ beU32 b1.length ++ b1 ++ p.vc2.toBytes c1 cF

/-- pok_sig.rs:448-487 `PoKOfSignatureProof::from_bytes` -/
def SigProof.fromBytes (data : Bytes) : Res Error (SigProof F G1) :=
  if data.length < c1.size * 3 then .err (.pokvc "Invalid proof bytes")
  else do
    let (aPrime, rest) ← Res.ofOption ioErr (readElem c1 data)
    let (aBar, rest) ← Res.ofOption ioErr (readElem c1 rest)
    let (d, _) ← Res.ofOption ioErr (readElem c1 rest)
    let n ← readU32 data (c1.size + c1.size + c1.size)
    let off := c1.size + c1.size + c1.size + 4
    let b1 ← slice data off (off + n)
    let vc1 ← liftPoK (PoK.Proof.fromBytes c1 cF b1)
    let vc2 ← liftPoK (PoK.Proof.fromBytes c1 cF (data.drop (off + n)))
    pure ⟨aPrime, aBar, d, vc1, vc2⟩

/-- `BTreeMap::insert` on the ascending list of entries -/
def mapInsert {A : Type} (k : Nat) (v : A) : List (Nat × A) → List (Nat × A)
  | [] => [(k, v)]
  | p :: m => if k < p.1 then (k, v) :: p :: m else if k = p.1 then (k, v) :: m else p :: mapInsert k v m

/-- lib.rs:616-634 `SignatureProof::to_bytes` -/
def SignatureProof.toBytes (sp : SignatureProof F G1) : Bytes :=
  let pb := sp.proof.toBytes c1 cF
  beU32 pb.length ++ pb ++ beU32 sp.revealed.length ++ (sp.revealed.map (fun q => beU32 q.1 ++ cF.enc q.2)).flatten

/-- lib.rs:657-670: the loop over the revealed messages; `SignatureMessage::from(&[u8; 32])` panics on a non-canonical scalar -/
def readRevealed (data : Bytes) : Nat → Nat → List (Nat × F) → Res Error (List (Nat × F))
  | 0, _, m => .ok m
  | n + 1, off, m => do
    let i ← readU32 data off
    let b ← slice data (off + 4) (off + 4 + cF.size)
    let v ← Res.unwrap (cF.dec b)
    readRevealed data n (off + 4 + cF.size) (mapInsert i v m)

/-- lib.rs:637-676 `SignatureProof::from_bytes` -/
def SignatureProof.fromBytes (data : Bytes) : Res Error (SignatureProof F G1) :=
  if data.length < 8 then .err (.invalidNumberOfBytes 8 data.length)
  else do
    let n ← readU32 data 0
    let pb ← slice data 4 (n + 4)
    let proof ← SigProof.fromBytes c1 cF pb
    let k ← readU32 data (n + 4)
    let revealed ← readRevealed cF data k (n + 4 + 4) []
    pure ⟨revealed, proof⟩

/-! ## Blind signature contexts and proof requests -/

/-- lib.rs:400-412 `BlindSignatureContext::to_bytes` -/
def BlindCtx.toBytes (x : BlindCtx F G1) : Bytes := c1.enc x.commitment ++ cF.enc x.challenge ++ x.proof.toBytes c1 cF

/-- lib.rs:414-436 `BlindSignatureContext::from_bytes` -/
def BlindCtx.fromBytes (data : Bytes) : Res Error (BlindCtx F G1) :=
  if data.length < c1.size * 2 + cF.size + 4 then .err (.invalidNumberOfBytes (c1.size * 2 + cF.size + 4) data.length)
  else do
    let (commitment, rest) ← Res.ofOption ioErr (readElem c1 data)
    let (challenge, _) ← Res.ofOption ioErr (readElem cF rest)
    let proof ← liftPoK (PoK.Proof.fromBytes c1 cF (data.drop (c1.size + cF.size)))
    pure ⟨commitment, challenge, proof⟩

/-- lib.rs:720-724: set bit `r % 8` of byte `r / 8` -/
def setBits : List Nat → Bytes → Res Error Bytes
  | [], b => .ok b
  | r :: rs, b =>
    if r / 8 < b.length then setBits rs (b.modify (r / 8) (fun x => x ||| (1 : UInt8) <<< UInt8.ofNat (r % 8))) else .panic

/-- lib.rs:717-729 `revealed_to_bitvector` -/
def revealedToBitvector (total : Nat) (revealed : List Nat) : Res Error Bytes := do
  let b ← setBits revealed (List.replicate (total / 8 + 1) 0)
  pure b.reverse

/-- lib.rs:739-747: the loop over the bits of one byte; returns the members and the number of bits consumed -/
def byteBits (v scalar : Nat) (acc : List Nat) (used : Nat) : List Nat × Nat :=
  if h : v = 0 then (acc, used)
  else byteBits (v / 2) (scalar + 1) (if v % 2 = 1 then setInsert scalar acc else acc) (used + 1)
termination_by v
decreasing_by omega

/-- lib.rs:732-751 `bitvector_to_revealed`, the loop over the bytes from the last one; `remaining = 8 - used` -/
def bytesToRevealed : Bytes → Nat → List Nat → List Nat
  | [], _, acc => acc
  | b :: bs, scalar, acc =>
    let (acc, used) := byteBits b.toNat scalar acc 0
    bytesToRevealed bs (scalar + used + (8 - used)) acc

/-- lib.rs:732-751 `bitvector_to_revealed` -/
def bitvectorToRevealed (data : Bytes) : List Nat := bytesToRevealed data.reverse 0 []

/-- lib.rs:533-542 `ProofRequest::to_bytes`; panics if a requested index does not fit the bit vector -/
def ProofRequest.toBytes (r : ProofRequest G1 G2) : Res Error Bytes := do
  let bv ← revealedToBitvector r.key.h.length r.revealed
  pure (beU32 bv.length ++ bv ++ r.key.toBytes c1 c2)

/-- lib.rs:544-562 `ProofRequest::from_bytes` -/
def ProofRequest.fromBytes (data : Bytes) : Res Error (ProofRequest G1 G2) :=
  if data.length < 8 + c1.size + c2.size then .err (.invalidNumberOfBytes (8 + c1.size + c2.size) data.length)
  else do
    let n ← readU32 data 0
    let bv ← slice data 4 (4 + n)
    let key ← PublicKey.fromBytes c1 c2 (data.drop (4 + n))
    pure ⟨bitvectorToRevealed bv, key⟩

/-! ## Defaults (used for `From<Box<[u8]>>` when parsing fails) -/

/-- keys.rs:178-186 -/
def PublicKey.default : PublicKey G1 G2 := ⟨0, [], 0⟩
/-- signature.rs:101-109 -/
def Signature.default : Signature F G1 := ⟨0, 0, 0⟩
/-- pok_vc.rs:412-419 (bbs) -/
def proofDefault : PoK.Proof F G1 := ⟨0, []⟩
/-- pok_sig.rs:513-523 -/
def SigProof.default : SigProof F G1 := ⟨0, 0, 0, proofDefault, proofDefault⟩
/-- lib.rs:702-709 -/
def SignatureProof.default : SignatureProof F G1 := ⟨[], SigProof.default⟩
/-- lib.rs:506-514 -/
def BlindCtx.default : BlindCtx F G1 := ⟨0, 0, proofDefault⟩

/-- macros.rs:57-65, 152-160, signature.rs:112-120 `From<Box<[u8]>>`: parse, or the default if that fails -/
def fromBoxed {A : Type} (parse : Bytes → Res Error A) (dflt : A) (data : Bytes) : Res Error A :=
  match parse data with
  | .ok a => .ok a
  | .err _ => .ok dflt
  | .panic => .panic
end
end Verif.BBS
