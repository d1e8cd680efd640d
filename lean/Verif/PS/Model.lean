import Verif.Common
import Verif.PoKVC.Model
import Verif.BBS.Model
import Mathlib.LinearAlgebra.BilinearMap
/-!
# Pointcheval–Sanders signatures (libzmix/src/signatures/ps)

`S` is the group of the signatures (`SignatureGroup`), `O` the other group (`OtherGroup`); which of them is G1 depends on a cargo
feature (mod.rs:6-46).  `F` is the scalar field; groups are written additively, as `F`-modules.  `ate_2_pairing(a, b, c, d).is_one()`
is `e a b + e c d = 0`.  A `HashSet<usize>` is a list without duplicates and a `HashMap<usize, _>` a list of entries with distinct keys,
both in (arbitrary) iteration order.  Randomness is an argument.
-/
namespace Verif.PS
open Verif.PoK (msm Committing Committed)
open Verif.BBS (hiddenBases mapGet)

/-- errors.rs:6-32 `PSErrorKind` (the kinds the modelled code returns) -/
inductive Error where
  | unsupportedNoOfMessages (expected given : Nat)
  | general (msg : String)
  | pokvc (msg : String)
  deriving DecidableEq

/-- errors.rs:33 `impl_PoKVCError_conversion!` -/
def liftPoK {α : Type} : Res PoK.Error α → Res Error α
  | .ok a => .ok a
  | .err _ => .err (.pokvc "PoKVC")
  | .panic => .panic

/-- keys.rs:6-10 `Sigkey` -/
structure Sigkey (F : Type) where
  x : F
  y : List F

/-- keys.rs:12-16 `Verkey` -/
structure Verkey (O : Type) where
  X : O
  Y : List O

/-- keys.rs:18-23 `Params`, and the pairing -/
structure Params (F S O GT : Type) [Field F] [AddCommGroup S] [Module F S] [AddCommGroup O] [Module F O]
    [AddCommGroup GT] [Module F GT] where
  g : S
  gt : O
  e : S →ₗ[F] O →ₗ[F] GT

/-- blind_signature.rs:13-17 `BlindingKey` -/
structure BlindingKey (S : Type) where
  X : S
  Y : List S

/-- signature.rs:11-15 `Signature` -/
structure Signature (S : Type) where
  s1 : S
  s2 : S
  deriving DecidableEq

/-- pok_sig.rs:36-42 `PoKOfSignature` -/
structure PoKSig (F S O : Type) where
  secrets : List F
  sig : Signature S
  j : O
  vc : Committed F O

/-- pok_sig.rs:44-50 `PoKOfSignatureProof` -/
structure SigProof (F S O : Type) where
  sig : Signature S
  j : O
  vc : PoK.Proof F O

section
variable {F S O GT : Type} [Field F] [AddCommGroup S] [Module F S] [AddCommGroup O] [Module F O]
  [AddCommGroup GT] [Module F GT] [DecidableEq F] [DecidableEq S] [DecidableEq O] [DecidableEq GT]
variable (P : Params F S O GT)

/-! ## Keys -/

/-- keys.rs:27-31 `Params::new`: the byte strings hashed to the two generators -/
def paramsInputs (label : Bytes) : Bytes × Bytes :=
  (label ++ " : g".toUTF8.toList, label ++ " : g_tilde".toUTF8.toList)

/-- keys.rs:40-51 `keygen`; `x` and `ys` are drawn at random, `ys` with one entry per message -/
def keygen (x : F) (ys : List F) : Verkey O × Sigkey F := (⟨x • P.gt, ys.map (fun y => y • P.gt)⟩, ⟨x, ys⟩)

/-- blind_signature.rs:21-28 `BlindingKey::new` -/
def blindingKey (sk : Sigkey F) : BlindingKey S := ⟨sk.x • P.g, sk.y.map (fun y => y • P.g)⟩

/-! ## Signatures -/

/-- signature.rs:51-54: the loop over the messages -/
def expLoop (acc : F) : List F → List F → F
  | y :: ys, m :: ms => expLoop (acc + y * m) ys ms
  | _, _ => acc

/-- signature.rs:34-57 `sign_with_sigma_1_generated_from_given_exp` -/
def signWith (messages : List F) (sk : Sigkey F) (u : F) (offset : Nat) (g : S) : Res Error (S × S) :=
  if offset + messages.length ≠ sk.y.length then .err (.unsupportedNoOfMessages (offset + messages.length) sk.y.length)
  else .ok (u • g, expLoop sk.x (sk.y.drop offset) messages • (u • g))

/-- signature.rs:20-31, 99-111 `Signature::new`; `u` is drawn at random -/
def sigNew (messages : List F) (sk : Sigkey F) (u : F) : Res Error (Signature S) :=
  if messages.length ≠ sk.y.length then .err (.unsupportedNoOfMessages messages.length sk.y.length)
  else do
    let (s1, s2) ← signWith messages sk u 0 P.g
    pure ⟨s1, s2⟩

/-- signature.rs:113-125 `check_verkey_and_messages_compat` -/
def checkCompat (messages : List F) (vk : Verkey O) : Res Error Unit :=
  if messages.length ≠ vk.Y.length then .err (.unsupportedNoOfMessages messages.length vk.Y.length) else .ok ()

/-- signature.rs:60-90 `Signature::verify` -/
def Signature.verify (sig : Signature S) (messages : List F) (vk : Verkey O) : Res Error Bool :=
  if sig.s1 = 0 ∨ sig.s2 = 0 then .ok false
  else do
    checkCompat messages vk
    pure (decide (P.e sig.s1 (vk.X + msm vk.Y messages) + P.e (-sig.s2) P.gt = 0))

/-- signature.rs:92-97 `Signature::to_bytes` -/
def Signature.toBytes (encS : S → Bytes) (sig : Signature S) : Bytes := encS sig.s1 ++ encS sig.s2

/-! ## Blind signatures -/

/-- blind_signature.rs:120-132 `check_blinding_key_and_messages_compat` -/
def checkBlinding (messages : List F) (bk : BlindingKey S) : Res Error Unit :=
  if messages.length ≥ bk.Y.length then .err (.unsupportedNoOfMessages messages.length bk.Y.length) else .ok ()

/-- blind_signature.rs:58-75 `BlindSignature::new` -/
def blindNew (commitment : S) (messages : List F) (sk : Sigkey F) (bk : BlindingKey S) (u : F) : Res Error (Signature S) := do
  checkBlinding messages bk
  let (s1, s2) ← signWith messages sk u (bk.Y.length - messages.length) P.g
  pure ⟨s1, s2 + u • commitment⟩

/-- blind_signature.rs:78-109 `BlindSignature::new_from_paper` -/
def blindNewFromPaper (commitment : S) (messages : List F) (skX : S) (bk : BlindingKey S) (u : F) : Res Error (Signature S) := do
  checkBlinding messages bk
  pure ⟨u • P.g, u • (skX + msm (bk.Y.drop (bk.Y.length - messages.length)) messages + commitment)⟩

/-- blind_signature.rs:113-118 `BlindSignature::unblind` -/
def unblind (sig : Signature S) (blinding : F) : Signature S := ⟨sig.s1, sig.s2 - blinding • sig.s1⟩

/-! ## Proofs of knowledge of a signature -/

/-- pok_sig.rs:71-88: the blindings of the hidden messages, supplied or drawn (`rnd`).  `messages.len() - revealed.len()` does not
underflow: the indices are distinct and below `messages.len()`. -/
def chooseBlindings (hidden : Nat) (rnd : Nat → F) : Option (List F) → Res Error (List F)
  | some b => if hidden ≠ b.length then .err (.general "No of blindings not equal to number of hidden messages") else .ok b
  | none => .ok ((List.range hidden).map rnd)

/-- pok_sig.rs:54-132 `PoKOfSignature::init`; `r`, `t`, the blinding `bt` of `t`, and `rnd` are drawn at random -/
def init (sig : Signature S) (vk : Verkey O) (messages : List F) (blindings : Option (List F)) (revealed : List Nat)
    (r t bt : F) (rnd : Nat → F) : Res Error (PoKSig F S O) :=
  if revealed.any (fun i => decide (i ≥ messages.length)) = true then .err (.general "Index")
  else do
    checkCompat messages vk
    let bs ← chooseBlindings (messages.length - revealed.length) rnd blindings
    let bases := P.gt :: hiddenBases (fun i => revealed.contains i) 0 vk.Y
    let exponents := t :: hiddenBases (fun i => revealed.contains i) 0 messages
    pure { secrets := exponents
           sig := ⟨r • sig.s1, r • (sig.s2 + t • sig.s1)⟩
           j := msm bases exponents
           vc := (⟨bases, bt :: bs⟩ : Committing F O).finish }

/-- pok_sig.rs:139-145 `PoKOfSignature::to_bytes` -/
def PoKSig.toBytes (encS : S → Bytes) (encO : O → Bytes) (p : PoKSig F S O) : Bytes :=
  p.sig.toBytes encS ++ encO p.j ++ p.vc.toBytes encO

/-- pok_sig.rs:147-154 `gen_proof` -/
def PoKSig.genProof (p : PoKSig F S O) (challenge : F) : Res Error (SigProof F S O) := do
  let vc ← liftPoK (p.vc.genProof challenge p.secrets)
  pure ⟨p.sig, p.j, vc⟩

/-- pok_sig.rs:163-182 `get_bytes_for_challenge` -/
def SigProof.bytesForChallenge (encS : S → Bytes) (encO : O → Bytes) (p : SigProof F S O) (revealed : List Nat) (vk : Verkey O) : Bytes :=
  p.sig.toBytes encS ++ encO p.j ++ encO P.gt ++
    ((hiddenBases (fun i => revealed.contains i) 0 vk.Y).map encO).flatten ++ encO p.vc.commitment

/-- pok_sig.rs:186-200 `get_resp_for_message`; `responses.len() - 1` panics for no responses (in a build with overflow checks) -/
def SigProof.respForMessage (p : SigProof F S O) (idx : Nat) : Res Error F :=
  if p.vc.responses.length < 1 then .panic
  else if idx ≥ p.vc.responses.length - 1 then .err (.general "Message index")
  else Res.unwrap p.vc.responses[1 + idx]?

/-- pok_sig.rs:235-238: the generators of the revealed messages, in iteration order; `vk.Y_tilde[i]` panics out of range -/
def lookupBases (Y : List O) : List (Nat × F) → Res Error (List O)
  | [] => .ok []
  | p :: ps => do
    let b ← Res.unwrap Y[p.1]?
    let bs ← lookupBases Y ps
    pure (b :: bs)

/-- pok_sig.rs:228-249: the pairing check -/
def SigProof.pairingCheck (p : SigProof F S O) (vk : Verkey O) (revealed : List (Nat × F)) : Res Error Bool := do
  let bs ← lookupBases vk.Y revealed
  pure (decide (P.e p.sig.s1 (p.j + msm bs (revealed.map (·.2)) + vk.X) + P.e (-p.sig.s2) P.gt = 0))

/-- pok_sig.rs:203-250 `PoKOfSignatureProof::verify`.  More revealed messages than generators panic: the subtraction
`vk.Y_tilde.len() - revealed_msgs.len()` underflows (in a build with overflow checks, which is the one modelled; without them the
capacity overflows, except for exactly one message too many, where line 237 panics instead if the proof gets that far). -/
def SigProof.verify (p : SigProof F S O) (vk : Verkey O) (revealed : List (Nat × F)) (challenge : F) : Res Error Bool :=
  if p.sig.s1 = 0 ∨ p.sig.s2 = 0 then .ok false
  else if vk.Y.length < revealed.length then .panic
  else do
    let ok ← liftPoK (p.vc.verify (P.gt :: hiddenBases (fun i => (mapGet revealed i).isSome) 0 vk.Y) p.j challenge)
    if ok = true then p.pairingCheck P vk revealed else .ok false

/-! ## Wire format of `ProofOtherGroup` -/

/-- commitments/pok_vc.rs:277-319 `from_bytes` as instantiated by pok_sig.rs:15-22: the size of an element is given separately
(`SIGNATURE_GROUP_SIZE`) and is not the size of the group `O` -/
def proofOtherFromBytes (size : Nat) (cO : Codec O) (cF : Codec F) (data : Bytes) : Res PoK.Error (PoK.Proof F O) :=
  if data.length < size + 4 then .err (.general "Invalid length")
  else do
    let commitment ← Res.ofOption (.general "Bad data") (cO.dec (data.take size))
    let length := ofBe ((data.drop size).take 4)
    if data.length < size + 4 + length * cF.size then .err (.general "Invalid length")
    else do
      let (responses, _) ← Res.ofOption (.general "Bad data") (PoK.readMany cF length (data.drop (size + 4)))
      pure ⟨commitment, responses⟩

end
end Verif.PS
