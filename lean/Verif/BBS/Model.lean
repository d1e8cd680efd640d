import Verif.Common
import Verif.PoKVC.Model
import Mathlib.Algebra.Module.LinearMap.Basic
import Mathlib.LinearAlgebra.BilinearMap
/-!
# BBS+ signatures: keys, signatures, blind issuance, proofs of knowledge (libzmix/bbs/src)

`F` is the scalar field Fr, `G1`, `G2`, `GT` are the groups of the pairing, written additively, as `F`-modules.  Comparing a
product of pairings with one is comparing a sum in `GT` with zero; `final_exponentiation` is defined on every product of
Miller loops of curve points (they are non-zero), so its `None` branch is not modelled.  `BTreeMap<usize, _>` is the list of
its entries in ascending key order, `BTreeSet<usize>` the ascending list of its members.  Randomness is an argument.
-/
namespace Verif.BBS
open Verif.PoK (msm Committing Committed)

/-- pok_sig.rs:60-71 `PoKOfSignatureProofStatus` -/
inductive Status where
  | success | badSignature | badHiddenMessage | badRevealedMessage
  deriving DecidableEq, Repr

/-- errors.rs:14-60 `BBSErrorKind` (the kinds the modelled code returns) -/
inductive Error where
  | keyGenError
  | countMismatch (a b : Nat)
  | malformedSecretKey
  | malformedPublicKey
  | malformedSignature
  | general (msg : String)
  | pokvc (msg : String)
  | invalidNumberOfBytes (expected found : Nat)
  | invalidProof (s : Status)
  deriving DecidableEq

/-- errors.rs `From<PoKVCError> for BBSError` -/
def liftPoK {α : Type} : Res PoK.Error α → Res Error α
  | .ok a => .ok a
  | .err _ => .err (.pokvc "PoKVC")
  | .panic => .panic

/-- The fixed parameters: generators `G1::one()`, `G2::one()`, the pairing, hashing to Fr (`hash_to_fr`, lib.rs:320-328) and to
G1 (`hash_to_g1`, lib.rs:310-313), and the uncompressed encodings used for hashing. -/
structure Params (F G1 G2 GT : Type) [Field F] [AddCommGroup G1] [Module F G1] [AddCommGroup G2] [Module F G2]
    [AddCommGroup GT] [Module F GT] where
  g1 : G1
  g2 : G2
  e : G1 →ₗ[F] G2 →ₗ[F] GT
  hashFr : Bytes → F
  hashG1 : Bytes → G1
  encG1 : Codec G1
  encG2 : Codec G2
  encF : Codec F

/-- keys.rs:91-98 `PublicKey` -/
structure PublicKey (G1 G2 : Type) where
  h0 : G1
  h : List G1
  w : G2
  deriving DecidableEq

/-- signature.rs:239-247 `Signature`; `BlindSignature` (signature.rs:129-136) has the same fields -/
structure Signature (F G1 : Type) where
  a : G1
  e : F
  s : F
  deriving DecidableEq

/-- pok_sig.rs:97-110 `PoKOfSignatureProof` -/
structure SigProof (F G1 : Type) where
  aPrime : G1
  aBar : G1
  d : G1
  vc1 : PoK.Proof F G1
  vc2 : PoK.Proof F G1

/-- pok_sig.rs:36-58 `PoKOfSignature` -/
structure PoKSig (F G1 : Type) where
  aPrime : G1
  aBar : G1
  d : G1
  vc1 : Committed F G1
  secrets1 : List F
  vc2 : Committed F G1
  secrets2 : List F
  revealed : List (Nat × F)

/-- messages.rs:63-68, 82-90 `ProofMessage`, `HiddenMessage` -/
inductive ProofMessage (F : Type) where
  | revealed (m : F)
  | hidden (m : F)
  | hiddenExt (m : F) (blinding : F)

/-- messages.rs:72-78 `get_message` -/
def ProofMessage.get {F : Type} : ProofMessage F → F
  | .revealed m => m
  | .hidden m => m
  | .hiddenExt m _ => m

/-- lib.rs:390-397 `BlindSignatureContext` -/
structure BlindCtx (F G1 : Type) where
  commitment : G1
  challenge : F
  proof : PoK.Proof F G1

/-- lib.rs:523-530 `ProofRequest` -/
structure ProofRequest (G1 G2 : Type) where
  revealed : List Nat
  key : PublicKey G1 G2

/-- lib.rs:607-612 `SignatureProof` -/
structure SignatureProof (F G1 : Type) where
  revealed : List (Nat × F)
  proof : SigProof F G1

/-- `BTreeMap::get` -/
def mapGet {F : Type} (m : List (Nat × F)) (i : Nat) : Option F := (m.find? (fun p => p.1 == i)).map (·.2)

/-- the loop `for i in 0..message_count { if known(i) { continue } … h[i] … }` -/
def hiddenBases {G : Type} (known : Nat → Bool) : Nat → List G → List G
  | _, [] => []
  | i, h :: hs => if known i then hiddenBases known (i + 1) hs else h :: hiddenBases known (i + 1) hs

/-- the loop `for i in 0..message_count { if let Some(m) = revealed.get(i) { (h[i], m) } … }` -/
def revealedTerms {F G : Type} (get : Nat → Option F) : Nat → List G → List (G × F)
  | _, [] => []
  | i, h :: hs => match get i with
    | some m => (h, m) :: revealedTerms get (i + 1) hs
    | none => revealedTerms get (i + 1) hs

section
variable {F G1 G2 GT : Type} [Field F] [AddCommGroup G1] [Module F G1] [AddCommGroup G2] [Module F G2]
  [AddCommGroup GT] [Module F GT] [DecidableEq F] [DecidableEq G1] [DecidableEq G2] [DecidableEq GT]
variable (P : Params F G1 G2 GT)

/-! ## Keys -/

/-- keys.rs:56-64 `SecretKey::validate` -/
def validateSk (x : F) : Res Error Unit := if x = 0 then .err .malformedSecretKey else .ok ()

/-- keys.rs:148-154 `PublicKey::validate` -/
def PublicKey.validate (pk : PublicKey G1 G2) : Res Error Unit :=
  if pk.h0 = 0 ∨ pk.w = 0 ∨ pk.h.any (fun v => decide (v = 0)) = true then .err .malformedPublicKey else .ok ()

/-- keys.rs:297-330 `generate`; `x` is the drawn secret, `gens` the `message_count + 1` hashed random seeds -/
def generate (messageCount : Nat) (x : F) (gens : List G1) : Res Error (PublicKey G1 G2 × F) :=
  if messageCount = 0 then .err .keyGenError
  else match gens with
    | h0 :: hs => .ok (⟨h0, hs, x • P.g2⟩, x)
    | [] => .panic

/-- keys.rs:228-241 `DeterministicPublicKey::new` for a given secret key -/
def deterministicNew (x : F) : Res Error (G2 × F) := do
  validateSk x
  pure (x • P.g2, x)

/-- keys.rs:246-275: the bytes hashed for generator `i` -/
def generatorInput (w : G2) (messageCount i : Nat) : Bytes :=
  P.encG2.enc w ++ [0] ++ beU32 i ++ [0] ++ beU32 messageCount

/-- keys.rs:242-290 `to_public_key` -/
def toPublicKey (w : G2) (messageCount : Nat) : Res Error (PublicKey G1 G2) :=
  if messageCount = 0 then .err .keyGenError
  else .ok ⟨P.hashG1 (generatorInput P w messageCount 0),
    (List.range' 1 messageCount).map (fun i => P.hashG1 (generatorInput P w messageCount i)), w⟩

/-! ## Signatures -/

/-- signature.rs:342-359 `compute_b` -/
def computeB (s : F) (messages : List F) (pk : PublicKey G1 G2) : G1 :=
  let min := Nat.min pk.h.length messages.length
  msm (P.g1 :: pk.h0 :: pk.h.take min) (1 :: s :: messages.take min)

/-- signature.rs:328-340 `get_b`; called only with `message_count` messages -/
def getB (s : F) (messages : List F) (pk : PublicKey G1 G2) : G1 :=
  msm (P.g1 :: pk.h0 :: pk.h) (1 :: s :: messages)

/-- signature.rs:251-271 `Signature::new`; `e` and `s` are drawn at random.  `exp.inverse().unwrap()` panics at zero -/
def sigNew (messages : List F) (x : F) (pk : PublicKey G1 G2) (e s : F) : Res Error (Signature F G1) :=
  if messages.length > pk.h.length then .err (.countMismatch pk.h.length messages.length) else do
    validateSk x
    pk.validate
    if x + e = 0 then .panic else .ok ⟨(x + e)⁻¹ • computeB P s messages pk, e, s⟩

/-- signature.rs:320-325 `Signature::validate` -/
def Signature.validate (sig : Signature F G1) : Res Error Unit :=
  if sig.a = 0 ∨ sig.e = 0 ∨ sig.s = 0 then .err .malformedSignature else .ok ()

/-- signature.rs:279-316 `Signature::verify` -/
def Signature.verify (sig : Signature F G1) (messages : List F) (pk : PublicKey G1 G2) : Res Error Bool :=
  if messages.length ≠ pk.h.length then .err (.countMismatch pk.h.length messages.length) else do
    pk.validate
    sig.validate
    pure (decide (P.e sig.a (sig.e • P.g2 + pk.w) + P.e (-(getB P sig.s messages pk)) P.g2 = 0))

/-- signature.rs:170-173: the generators for the known messages; `verkey.h[*i]` panics out of range -/
def lookupBases (h : List G1) : List (Nat × F) → Res Error (List G1)
  | [] => .ok []
  | p :: ps => do
    let b ← Res.unwrap h[p.1]?
    let bs ← lookupBases h ps
    pure (b :: bs)

/-- signature.rs:148-189 `BlindSignature::new` -/
def blindSigNew (commitment : G1) (messages : List (Nat × F)) (x : F) (pk : PublicKey G1 G2) (e s : F) :
    Res Error (Signature F G1) :=
  if messages.length > pk.h.length then .err (.countMismatch pk.h.length messages.length) else do
    validateSk x
    pk.validate
    let bases ← lookupBases pk.h messages
    let b := msm (commitment :: P.g1 :: pk.h0 :: bases) (1 :: 1 :: s :: messages.map (·.2))
    if x + e = 0 then .panic else .ok ⟨(x + e)⁻¹ • b, e, s⟩

/-- signature.rs:193-201 `to_unblinded` -/
def Signature.unblind (b : Signature F G1) (blinding : F) : Signature F G1 := ⟨b.a, b.e, b.s + blinding⟩

/-! ## Blind issuance -/

/-- prover.rs:47-62: the loop over the hidden messages; it extends the lists of bases and secrets -/
def ctxBases (h : List G1) : List (Nat × F) → Res Error (List G1)
  | [] => .ok []
  | p :: ps =>
    if p.1 > h.length then .err (.countMismatch p.1 h.length)
    else do
      let b ← Res.unwrap h[p.1]?
      let bs ← ctxBases h ps
      pure (b :: bs)

/-- `Result::unwrap` -/
def unwrapRes {ε ε' α : Type} : Res ε α → Res ε' α
  | .ok a => .ok a
  | .err _ => .panic
  | .panic => .panic

/-- prover.rs:31-83 `new_blind_signature_context`; `blinding` is the drawn blinding factor, `r0` and `rs` the blindings drawn
by `ProverCommittingG1::commit` -/
def newBlindCtx (pk : PublicKey G1 G2) (messages : List (Nat × F)) (nonce : F) (blinding r0 : F) (rs : List F) :
    Res Error (BlindCtx F G1 × F) := do
  let bases ← ctxBases pk.h messages
  let commitment := msm (pk.h0 :: bases) (blinding :: messages.map (·.2))
  let committed := (⟨pk.h0 :: bases, r0 :: rs⟩ : Committing F G1).finish
  let challenge := committed.genChallenge P.encG1.enc P.hashFr (P.encG1.enc commitment ++ P.encF.enc nonce)
  let proof ← unwrapRes (committed.genProof challenge (blinding :: messages.map (·.2)))
  pure (⟨commitment, challenge, proof⟩, blinding)

/-- lib.rs:441-482 `BlindSignatureContext::verify` -/
def BlindCtx.verify (ctx : BlindCtx F G1) (revealed : List Nat) (pk : PublicKey G1 G2) (nonce : F) : Res Error Bool := do
  let bases := pk.h0 :: hiddenBases (fun i => revealed.contains i) 0 pk.h
  let c ← liftPoK (ctx.proof.challengeContribution bases ctx.commitment ctx.challenge)
  let bytes := (bases.map P.encG1.enc).flatten ++ P.encG1.enc c ++ P.encG1.enc ctx.commitment ++ P.encF.enc nonce
  pure (decide (c - ctx.proof.commitment = 0) && decide (P.hashFr bytes - ctx.challenge = 0))

/-- issuer.rs:43-59 `blind_sign` -/
def blindSign (ctx : BlindCtx F G1) (messages : List (Nat × F)) (x : F) (pk : PublicKey G1 G2) (nonce : F) (e s : F) :
    Res Error (Signature F G1) := do
  let ok ← ctx.verify P (messages.map (·.1)) pk nonce
  if ok = true then blindSigNew P ctx.commitment messages x pk e s
  else .err (.general "Invalid proof of committed messages")

/-- prover.rs:86-100 `complete_signature` -/
def completeSignature (pk : PublicKey G1 G2) (messages : List F) (b : Signature F G1) (blinding : F) :
    Res Error (Signature F G1) := do
  let ok ← (b.unblind blinding).verify P messages pk
  if ok = true then .ok (b.unblind blinding) else .err (.general "Invalid signature.")

/-! ## Proofs of knowledge of a signature -/

/-- pok_sig.rs:206-223: the revealed entries, in index order -/
def revealedOf : Nat → List (ProofMessage F) → List (Nat × F)
  | _, [] => []
  | i, .revealed m :: ms => (i, m) :: revealedOf (i + 1) ms
  | i, _ :: ms => revealedOf (i + 1) ms

/-- pok_sig.rs:206-223: base, blinding and secret of the hidden messages; `blind i` is the blinding drawn for message `i` -/
def hiddenOf (blind : Nat → F) : Nat → List G1 → List (ProofMessage F) → List (G1 × F × F)
  | i, h :: hs, .hidden m :: ms => (h, blind i, m) :: hiddenOf blind (i + 1) hs ms
  | i, h :: hs, .hiddenExt m b :: ms => (h, b, m) :: hiddenOf blind (i + 1) hs ms
  | i, _ :: hs, .revealed _ :: ms => hiddenOf blind (i + 1) hs ms
  | _, _, _ => []

/-- The values drawn at random by `init` -/
structure Rand (F : Type) where
  r1 : F
  r2 : F
  ba : F
  bh : F
  bd : F
  bh' : F
  blind : Nat → F

/-- pok_sig.rs:134-232: the part of `init` after the signature has been verified.  `r1.inverse().unwrap()` does not panic
because `r1` is drawn non-zero -/
def initValid (sig : Signature F G1) (pk : PublicKey G1 G2) (messages : List (ProofMessage F)) (r : Rand F) : PoKSig F G1 :=
  let b := getB P sig.s (messages.map (·.get)) pk
  let aPrime := r.r1 • sig.a
  let aBar := r.r1 • b - sig.e • aPrime
  let d := msm [b, pk.h0] [r.r1, -r.r2]
  let r3 := r.r1⁻¹
  let sPrime := -(r.r2 * r3) + sig.s
  let hid := hiddenOf r.blind 0 pk.h messages
  { aPrime := aPrime
    aBar := aBar
    d := d
    vc1 := (⟨[aPrime, pk.h0], [r.ba, r.bh]⟩ : Committing F G1).finish
    secrets1 := [-sig.e, r.r2]
    vc2 := (⟨d :: pk.h0 :: hid.map (·.1), r.bd :: r.bh' :: hid.map (·.2.1)⟩ : Committing F G1).finish
    secrets2 := -r3 :: sPrime :: hid.map (·.2.2)
    revealed := revealedOf 0 messages }

/-- pok_sig.rs:116-241 `PoKOfSignature::init`; prover.rs:111-117 `commit_signature_pok` -/
def init (sig : Signature F G1) (pk : PublicKey G1 G2) (messages : List (ProofMessage F)) (r : Rand F) :
    Res Error (PoKSig F G1) :=
  if messages.length ≠ pk.h.length then .err (.countMismatch pk.h.length messages.length) else do
    let ok ← sig.verify P (messages.map (·.get)) pk
    if ok = true then .ok (initValid P sig pk messages r)
    else .err (.pokvc "The messages and signature do not match.")

/-- pok_sig.rs:244-257 `PoKOfSignature::to_bytes` -/
def PoKSig.toBytes (p : PoKSig F G1) : Bytes :=
  P.encG1.enc p.aBar ++ p.vc1.toBytes P.encG1.enc ++ p.vc2.toBytes P.encG1.enc

/-- pok_sig.rs:261-290 `gen_proof` -/
def PoKSig.genProof (p : PoKSig F G1) (challenge : F) : Res Error (SigProof F G1) := do
  let vc1 ← liftPoK (p.vc1.genProof challenge p.secrets1)
  let vc2 ← liftPoK (p.vc2.genProof challenge p.secrets2)
  pure ⟨p.aPrime, p.aBar, p.d, vc1, vc2⟩

/-- pok_sig.rs:296-325 `get_bytes_for_challenge` -/
def SigProof.bytesForChallenge (p : SigProof F G1) (revealed : List Nat) (pk : PublicKey G1 G2) : Bytes :=
  P.encG1.enc p.aBar ++ P.encG1.enc p.aPrime ++ P.encG1.enc pk.h0 ++ P.encG1.enc p.vc1.commitment ++ P.encG1.enc p.d ++
    P.encG1.enc pk.h0 ++ ((hiddenBases (fun i => revealed.contains i) 0 pk.h).map P.encG1.enc).flatten ++
    P.encG1.enc p.vc2.commitment

/-- pok_sig.rs:329-343 `get_resp_for_message`; the subtraction of `usize` panics below two responses (in a build with overflow
checks) -/
def SigProof.respForMessage (p : SigProof F G1) (idx : Nat) : Res Error F :=
  if p.vc2.responses.length < 2 then .panic
  else if idx ≥ p.vc2.responses.length - 2 then .err (.general "Message index")
  else Res.unwrap p.vc2.responses[2 + idx]?

/-- pok_sig.rs:388-432: the second relation -/
def SigProof.verify2 (p : SigProof F G1) (pk : PublicKey G1 G2) (revealed : List (Nat × F)) (challenge : F) :
    Res Error Status :=
  let terms := revealedTerms (mapGet revealed) 0 pk.h
  let pr := -(msm (P.g1 :: terms.map (·.1)) (1 :: terms.map (·.2)))
  match p.vc2.verify (p.d :: pk.h0 :: hiddenBases (fun i => (mapGet revealed i).isSome) 0 pk.h) pr challenge with
  | .ok true => .ok .success
  | .ok false => .ok .badRevealedMessage
  | .err _ => .ok .badRevealedMessage
  | .panic => .panic

/-- pok_sig.rs:342-430 `PoKOfSignatureProof::verify`.  (`Vec::with_capacity(2 + message_count - revealed_msgs.len())` does not
underflow: the keys are distinct and below `message_count`.) -/
def SigProof.verify (p : SigProof F G1) (pk : PublicKey G1 G2) (revealed : List (Nat × F)) (challenge : F) :
    Res Error Status := do
  pk.validate
  if revealed.any (fun q => decide (q.1 ≥ pk.h.length)) = true then .err (.general "Index")
  else if p.aPrime = 0 then .ok .badSignature
  else if P.e p.aPrime pk.w + P.e (-p.aBar) P.g2 ≠ 0 then .ok .badSignature
  else do
    let ok ← liftPoK (p.vc1.verify [p.aPrime, pk.h0] (p.aBar - p.d) challenge)
    if ok = true then p.verify2 P pk revealed challenge else .ok .badHiddenMessage

/-! ## Prover and verifier -/

/-- prover.rs:124-144 `create_challenge_hash` -/
def proverChallenge (poks : List (PoKSig F G1)) (claims : List Bytes) (nonce : F) : F :=
  P.hashFr ((poks.map (·.toBytes P)).flatten ++ P.encF.enc nonce ++ claims.flatten)

/-- prover.rs:147-158 `generate_signature_pok` -/
def generateSignaturePok (pok : PoKSig F G1) (challenge : F) : Res Error (SignatureProof F G1) := do
  let proof ← pok.genProof challenge
  pure ⟨pok.revealed, proof⟩

/-- `BTreeSet::insert` on an ascending list -/
def setInsert (i : Nat) : List Nat → List Nat
  | [] => [i]
  | j :: js => if i < j then i :: j :: js else if i = j then j :: js else j :: setInsert i js

/-- verifier.rs:20-40 `new_proof_request` -/
def newProofRequest (indices : List Nat) (pk : PublicKey G1 G2) : Res Error (ProofRequest G1 G2) :=
  let revealed := indices.foldl (fun s i => setInsert i s) []
  match revealed.find? (fun i => decide (i > pk.h.length)) with
  | some i => .err (.countMismatch i pk.h.length)
  | none => .ok ⟨revealed, pk⟩

/-- verifier.rs:43-69 `verify_signature_pok` -/
def verifySignaturePok (request : ProofRequest G1 G2) (sp : SignatureProof F G1) (nonce : F) : Res Error (List F) := do
  let challenge := P.hashFr (sp.proof.bytesForChallenge P request.revealed request.key ++ P.encF.enc nonce)
  match ← sp.proof.verify P request.key sp.revealed challenge with
  | .success => .ok (sp.revealed.map (·.2))
  | s => .err (.invalidProof s)

/-- verifier.rs:83-106 `create_challenge_hash` -/
def verifierChallenge (proofs : List (SignatureProof F G1)) (requests : List (ProofRequest G1 G2)) (nonce : F)
    (claims : List Bytes) : F :=
  P.hashFr ((List.zipWith (fun p r => p.proof.bytesForChallenge P r.revealed r.key) proofs requests).flatten ++
    P.encF.enc nonce ++ claims.flatten)

end
end Verif.BBS
