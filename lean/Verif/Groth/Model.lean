import Verif.Common
import Verif.PoKVC.Model
import Mathlib.LinearAlgebra.BilinearMap
/-!
# Groth signatures and delegation chains (libzmix/src/signatures/delg_cred_cdd/groth_sig.rs, issuer.rs)

`A` is the group of the messages and `B` the group of the verification keys: G1 and G2 for `Groth1`, G2 and G1 for `Groth2` (the
code instantiates the same macros twice).  `e` is the pairing as a bilinear map from `A` and `B`; for `Groth2` it is the flipped
pairing.  Groups are written additively, as `F`-modules; `ate_multi_pairing(..).is_one()` is "the sum of the pairings is 0".  Randomness
is an argument.  `FieldElement::inverse` of zero is taken to be zero.
-/
namespace Verif.Groth

/-- errors.rs:6-134 `DelgCredCDDErrorKind` (the kinds the modelled code returns) -/
inductive Error where
  | unsupportedNoOfMessages (expected given : Nat)
  | expectedEvenLevel (given : Nat)
  | expectedOddLevel (given : Nat)
  | unexpectedLevel (expected given : Nat)
  | moreAttributesThanExpected (expected given : Nat)
  | verkeyNotFoundInDelegationLink
  | chainEmpty
  | noOddLinksInChain
  | noEvenLinksInChain
  | noOddLinkInChainAtGivenIndex (idx size : Nat)
  | noEvenLinkInChainAtGivenIndex (idx size : Nat)
  | incorrectNumberOfVerkeys (expected given : Nat)
  | incorrectNumberOfOddLevelVerkeys (expected given : Nat)
  | incorrectNumberOfEvenLevelVerkeys (expected given : Nat)
  | chainIsShorterThanExpected (actual expected : Nat)
  | incorrectNumberOfSCommitments (expected given : Nat)
  | incorrectNumberOfTCommitments (expected given : Nat)
  | incorrectNumberOfBlindedR (expected given : Nat)
  | incorrectNumberOfRevealedAttributeSets (expected given : Nat)
  | moreUnrevealedAttributesThanExpected (expected given : Nat)
  | unequalNoOfCommitmentAndResponses (commitments responses : Nat) (entity : String)
  | incorrectNumberOfOddValues (expected given : Nat) (entity : String)
  | incorrectNumberOfEvenValues (expected given : Nat) (entity : String)
  | pokvc
  | general (msg : String)
  deriving DecidableEq

/-- groth_sig.rs:18-23 `Groth1SetupParams`, `Groth2SetupParams`: `ga` is the generator of the messages' group (`g1`, `g2`), `gb` that of
the keys' group (`g2`, `g1`) -/
structure Setup (A B : Type) where
  ga : A
  gb : B
  y : List A

/-- groth_sig.rs:28-33 `Groth1Sig`, `Groth2Sig` -/
structure Sig (A B : Type) where
  R : B
  S : A
  T : List A
  deriving DecidableEq

section
variable {F A B GT : Type} [Field F] [AddCommGroup A] [Module F A] [AddCommGroup B] [Module F B]
  [AddCommGroup GT] [Module F GT] [DecidableEq F] [DecidableEq A] [DecidableEq B] [DecidableEq GT]

/-! ## Keys and signatures -/

/-- groth_sig.rs:72-85 `setup`: the byte strings hashed to `g1`, `g2` and `y` -/
def setupInputs (label : Bytes) (count : Nat) : Bytes × Bytes × List Bytes :=
  (label ++ " : g1".toUTF8.data.toList, label ++ " : g2".toUTF8.data.toList,
    (List.range count).map (fun i => label ++ " : y".toUTF8.data.toList ++ (toString i).toUTF8.data.toList))

/-- groth_sig.rs:72-85 `GrothS1::setup`; `h1` and `h2` are `G1::from_msg_hash` and `G2::from_msg_hash` -/
@[reducible] def setup1 {G1 G2 : Type} (h1 : Bytes → G1) (h2 : Bytes → G2) (count : Nat) (label : Bytes) : Setup G1 G2 :=
  ⟨h1 (setupInputs label count).1, h2 (setupInputs label count).2.1, (setupInputs label count).2.2.map h1⟩

/-- groth_sig.rs:72-85 `GrothS2::setup` -/
@[reducible] def setup2 {G1 G2 : Type} (h1 : Bytes → G1) (h2 : Bytes → G2) (count : Nat) (label : Bytes) : Setup G2 G1 :=
  ⟨h2 (setupInputs label count).2.1, h1 (setupInputs label count).1, (setupInputs label count).2.2.map h2⟩

/-- groth_sig.rs:174-178, 346-350 `keygen`; `sk` is drawn at random -/
def keygen (p : Setup A B) (sk : F) : F × B := (sk, sk • p.gb)

/-- groth_sig.rs:40-46 `initiate_proof_of_knowledge_of_sigkey`; `b` is the blinding drawn at random -/
def initSigkeyProof (p : Setup A B) (b : F) : PoK.Committed F B := ((PoK.Committing.new.commit p.gb b).1).finish

/-- groth_sig.rs:48-54 `finish_proof_of_knowledge_of_sigkey` -/
def finishSigkeyProof (c : PoK.Committed F B) (sk challenge : F) : Res Error (PoK.Proof F B) :=
  match c.genProof challenge [sk] with
  | .ok p => .ok p
  | _ => .panic

/-- groth_sig.rs:56-64 `verify_proof_of_knowledge_of_sigkey` -/
def verifySigkeyProof (pf : PoK.Proof F B) (vk : B) (p : Setup A B) (challenge : F) : Res Error Bool :=
  match pf.verify [p.gb] vk challenge with
  | .ok b => .ok b
  | .err _ => .err .pokvc
  | .panic => .panic

/-- groth_sig.rs:89-109 `impl_GrothSig_new!`; `r` is drawn at random -/
def sign (messages : List A) (sk : F) (p : Setup A B) (r : F) : Res Error (Sig A B) :=
  if messages.length > p.y.length then .err (.unsupportedNoOfMessages p.y.length messages.length)
  else do
    let y0 ← Res.unwrap p.y.head?
    pure ⟨r • p.gb, r⁻¹ • (y0 + sk • p.ga), (List.zipWith (fun m y => m + sk • y) messages p.y).map (fun t => r⁻¹ • t)⟩

/-- groth_sig.rs:116-125 `randomize` -/
def randomize (s : Sig A B) (r : F) : Sig A B := ⟨r • s.R, r⁻¹ • s.S, s.T.map (fun t => r⁻¹ • t)⟩

variable (e : A →ₗ[F] B →ₗ[F] GT)

/-- groth_sig.rs:226-238, 398-409: the loop of `verify`; `self.T[i]` panics out of range -/
def verifyLoop (p : Setup A B) (vk R : B) : List A → List A → List A → Res Error Bool
  | [], _, _ => .ok true
  | m :: ms, y :: ys, t :: ts => if e m p.gb + e y vk + e t (-R) = 0 then verifyLoop p vk R ms ys ts else .ok false
  | _ :: _, _, _ => .panic

/-- groth_sig.rs:201-239, 373-410 `verify` -/
def Sig.verify (s : Sig A B) (messages : List A) (vk : B) (p : Setup A B) : Res Error Bool :=
  if messages.length > p.y.length then .err (.unsupportedNoOfMessages p.y.length messages.length)
  else do
    let y0 ← Res.unwrap p.y.head?
    if e y0 p.gb + e p.ga vk + e (-s.S) s.R = 0 then verifyLoop e p vk s.R messages p.y s.T else .ok false

end

/-! ## Batch verification, for the two schemes -/

section
variable {F G1 G2 GT : Type} [Field F] [AddCommGroup G1] [Module F G1] [AddCommGroup G2] [Module F G2]
  [AddCommGroup GT] [Module F GT] [DecidableEq F] [DecidableEq G1] [DecidableEq G2] [DecidableEq GT]
variable (e : G1 →ₗ[F] G2 →ₗ[F] GT)

/-- `FieldElementVector::new_vandermonde_vector` (amcl_wrapper): the powers of `r` from 0 on.  (For `r = 0` the library returns zeros;
entry 0 is never used by the code below.) -/
def vandermonde (r : F) (n : Nat) : List F := (List.range n).map (fun i => r ^ i)

/-- the multi-pairing of a list of pairs, written additively -/
def multiPairing (l : List (G1 × G2)) : GT := (l.map (fun q => e q.1 q.2)).sum

/-- groth_sig.rs:319-338: the loop of `prepare_for_pairing_checks` of `Groth1Sig`; `k` is `r_vec_offset + i + 1` -/
def prep1Loop (g2 vk R : G2) (rv : List F) : Nat → List G1 → List G1 → List G1 → Res Error (List (G1 × G2))
  | _, [], _, _ => .ok []
  | k, m :: ms, ys, ts => do
    let c ← Res.unwrap rv[k]?
    let y ← Res.unwrap ys.head?
    let t ← Res.unwrap ts.head?
    let rest ← prep1Loop g2 vk R rv (k + 1) ms ys.tail ts.tail
    pure ((c • m, g2) :: (c • y, vk) :: (c • t, -R) :: rest)

/-- groth_sig.rs:303-314, 471-482: the factor of the first equation, not looked up at offset 0 -/
def firstFactor (rv : List F) (off : Nat) : Res Error F := if off = 0 then .ok 1 else Res.unwrap rv[off]?

/-- groth_sig.rs:289-339 `Groth1Sig::prepare_for_pairing_checks` -/
def prepare1 (rv : List F) (off : Nat) (s : Sig G1 G2) (ms : List G1) (vk : G2) (p : Setup G1 G2) : Res Error (List (G1 × G2)) := do
  let y0 ← Res.unwrap p.y.head?
  let c ← firstFactor rv off
  let rest ← prep1Loop p.gb vk s.R rv (off + 1) ms p.y s.T
  pure ((c • y0, p.gb) :: (c • p.ga, vk) :: (c • -s.S, s.R) :: rest)

/-- groth_sig.rs:252-286 `Groth1Sig::verify_batch`; `r` is drawn at random -/
def verifyBatch1 (r : F) (s : Sig G1 G2) (ms : List G1) (vk : G2) (p : Setup G1 G2) : Res Error Bool :=
  if ms.length > p.y.length then .err (.unsupportedNoOfMessages p.y.length ms.length)
  else do
    let l ← prepare1 (vandermonde r (ms.length + 1)) 0 s ms vk p
    pure (decide (multiPairing e l = 0))

/-- groth_sig.rs:489-507: the loop of `prepare_for_pairing_checks` of `Groth2Sig`; `k` is `i + 1` (the offset is not added) -/
def prep2Loop (g1 vk R : G1) (rv : List F) : Nat → List G2 → List G2 → List G2 → Res Error (List (G1 × G2))
  | _, [], _, _ => .ok []
  | k, m :: ms, ys, ts => do
    let c ← Res.unwrap rv[k]?
    let y ← Res.unwrap ys.head?
    let t ← Res.unwrap ts.head?
    let rest ← prep2Loop g1 vk R rv (k + 1) ms ys.tail ts.tail
    pure ((c • g1, m) :: (c • vk, y) :: (c • -R, t) :: rest)

/-- groth_sig.rs:460-508 `Groth2Sig::prepare_for_pairing_checks` -/
def prepare2 (rv : List F) (off : Nat) (s : Sig G2 G1) (ms : List G2) (vk : G1) (p : Setup G2 G1) : Res Error (List (G1 × G2)) := do
  let c ← firstFactor rv off
  let y0 ← Res.unwrap p.y.head?
  let rest ← prep2Loop p.gb vk s.R rv 1 ms p.y s.T
  pure ((c • p.gb, y0) :: (c • vk, p.ga) :: (c • -s.R, s.S) :: rest)

/-- groth_sig.rs:423-457 `Groth2Sig::verify_batch` -/
def verifyBatch2 (r : F) (s : Sig G2 G1) (ms : List G2) (vk : G1) (p : Setup G2 G1) : Res Error Bool :=
  if ms.length > p.y.length then .err (.unsupportedNoOfMessages p.y.length ms.length)
  else do
    let l ← prepare2 (vandermonde r (ms.length + 1)) 0 s ms vk p
    pure (decide (multiPairing e l = 0))

end

/-! ## Delegation links -/

/-- issuer.rs:20-25 `CredLinkOdd`, `CredLinkEven` -/
structure Link (A B : Type) where
  level : Nat
  attributes : List A
  signature : Sig A B
  deriving DecidableEq

section
variable {F A B : Type} [Field F] [AddCommGroup A] [Module F A] [AddCommGroup B] [Module F B] [DecidableEq A]

/-- issuer.rs:32-34 `has_verkey`; `len() - 1` panics for a link without attributes -/
def Link.hasVerkey (l : Link A B) (vk : A) : Res Error Bool := do
  let a ← Res.unwrap l.attributes.getLast?
  pure (decide (a = vk))

/-- issuer.rs:50-66 `validate` -/
def Link.validate (l : Link A B) (delegatee : A) (p : Setup A B) : Res Error Unit :=
  if l.attributes.length > p.y.length then .err (.moreAttributesThanExpected p.y.length l.attributes.length)
  else do
    let b ← l.hasVerkey delegatee
    if b = true then .ok () else .err .verkeyNotFoundInDelegationLink

/-- issuer.rs:38-47 `verify`; `batch` is `verify_batch` of the scheme of the link -/
def Link.verify (batch : Sig A B → List A → B → Setup A B → Res Error Bool) (l : Link A B) (delegatee : A) (delegator : B)
    (p : Setup A B) : Res Error Bool := do
  l.validate delegatee p
  batch l.signature l.attributes delegator p

/-- issuer.rs:79-84 `EvenLevelIssuer::new`, `OddLevelIssuer::new` (`odd` is 0 and 1): the level -/
def newIssuer (odd level : Nat) : Res Error Nat :=
  if level % 2 ≠ odd then .err (if odd = 0 then .expectedEvenLevel level else .expectedOddLevel level) else .ok level

/-- issuer.rs:91-112 `delegate`, by an issuer of the given level -/
def delegate (level : Nat) (attributes : List A) (delegatee : A) (sk : F) (p : Setup A B) (r : F) : Res Error (Link A B) :=
  if attributes.length ≥ p.y.length then .err (.moreAttributesThanExpected p.y.length attributes.length)
  else do
    let s ← sign (attributes ++ [delegatee]) sk p r
    pure ⟨level + 1, attributes ++ [delegatee], s⟩

/-- issuer.rs:472-480 `RootIssuer::delegate` -/
def rootDelegate (attributes : List A) (delegatee : A) (sk : F) (p : Setup A B) (r : F) : Res Error (Link A B) := do
  let l ← newIssuer 0 0
  delegate l attributes delegatee sk p r

end

/-! ## Chains -/

/-- issuer.rs:135-139 `CredChain` -/
structure Chain (G1 G2 : Type) where
  odd : List (Link G1 G2)
  even : List (Link G2 G1)
  deriving DecidableEq

section
variable {G1 G2 : Type}

/-- issuer.rs:150-155 `CredChain::new` -/
def Chain.empty : Chain G1 G2 := ⟨[], []⟩

/-- issuer.rs:157-167 `size` -/
def Chain.size (c : Chain G1 G2) : Nat := c.odd.length + c.even.length

/-- issuer.rs:169-178 `get_odd_link` -/
def Chain.getOdd (c : Chain G1 G2) (i : Nat) : Res Error (Link G1 G2) :=
  match c.odd[i]? with
  | some l => .ok l
  | none => .err (.noOddLinkInChainAtGivenIndex i c.odd.length)

/-- issuer.rs:180-189 `get_even_link` -/
def Chain.getEven (c : Chain G1 G2) (i : Nat) : Res Error (Link G2 G1) :=
  match c.even[i]? with
  | some l => .ok l
  | none => .err (.noEvenLinkInChainAtGivenIndex i c.even.length)

/-- issuer.rs:191-212 `extend_with_odd`; `link.level - last.level` panics if negative (in a build with overflow checks) -/
def Chain.extendOdd (c : Chain G1 G2) (l : Link G1 G2) : Res Error (Chain G1 G2) :=
  if l.level % 2 = 0 then .err (.expectedOddLevel l.level)
  else match c.odd.getLast? with
    | none => if l.level ≠ 1 then .err (.unexpectedLevel 1 l.level) else .ok ⟨c.odd ++ [l], c.even⟩
    | some last =>
      if l.level < last.level then .panic
      else if l.level - last.level ≠ 2 then .err (.unexpectedLevel (last.level + 2) l.level)
      else .ok ⟨c.odd ++ [l], c.even⟩

/-- issuer.rs:214-235 `extend_with_even` -/
def Chain.extendEven (c : Chain G1 G2) (l : Link G2 G1) : Res Error (Chain G1 G2) :=
  if l.level % 2 ≠ 0 then .err (.expectedEvenLevel l.level)
  else match c.even.getLast? with
    | none => if l.level ≠ 2 then .err (.unexpectedLevel 2 l.level) else .ok ⟨c.odd, c.even ++ [l]⟩
    | some last =>
      if l.level < last.level then .panic
      else if l.level - last.level ≠ 2 then .err (.unexpectedLevel (last.level + 2) l.level)
      else .ok ⟨c.odd, c.even ++ [l]⟩

/-- issuer.rs:408-418: the loop of `get_truncated`, from link `i` on -/
def truncLoop (c : Chain G1 G2) : Nat → Nat → Chain G1 G2 → Res Error (Chain G1 G2)
  | 0, _, acc => .ok acc
  | n + 1, i, acc =>
    if i % 2 = 1 then do
      let l ← Res.unwrap c.odd[i / 2]?
      truncLoop c n (i + 1) ⟨acc.odd ++ [l], acc.even⟩
    else do
      let l ← Res.unwrap c.even[i / 2 - 1]?
      truncLoop c n (i + 1) ⟨acc.odd, acc.even ++ [l]⟩

/-- issuer.rs:400-419 `get_truncated` -/
def Chain.truncated (c : Chain G1 G2) (size : Nat) : Res Error (Chain G1 G2) :=
  if size > c.size then .err (.chainIsShorterThanExpected c.size size) else truncLoop c size 1 Chain.empty

/-- issuer.rs:422-464 `validate` -/
def Chain.validate (c : Chain G1 G2) (evenVks : List G2) (oddVks : List G1) : Res Error Unit :=
  if c.size = 0 then .err .chainEmpty
  else if evenVks.length + oddVks.length ≠ c.size + 1 then
    .err (.incorrectNumberOfVerkeys (c.size + 1) (evenVks.length + oddVks.length))
  else if evenVks.length ≠ c.size / 2 + 1 then .err (.incorrectNumberOfEvenLevelVerkeys (c.size / 2 + 1) evenVks.length)
  else if c.size % 2 = 1 then
    if oddVks.length ≠ c.size / 2 + 1 then .err (.incorrectNumberOfOddLevelVerkeys (c.size / 2 + 1) oddVks.length) else .ok ()
  else if oddVks.length ≠ c.size / 2 then .err (.incorrectNumberOfOddLevelVerkeys (c.size / 2) oddVks.length) else .ok ()

end

section
variable {F G1 G2 GT : Type} [Field F] [AddCommGroup G1] [Module F G1] [AddCommGroup G2] [Module F G2]
  [AddCommGroup GT] [Module F GT] [DecidableEq F] [DecidableEq G1] [DecidableEq G2] [DecidableEq GT]
variable (e : G1 →ₗ[F] G2 →ₗ[F] GT)

/-- issuer.rs:237-248 `verify_last_odd_delegation` -/
def Chain.verifyLastOdd (c : Chain G1 G2) (delegatee : G1) (delegator : G2) (p : Setup G1 G2) (r : F) : Res Error Bool :=
  match c.odd.getLast? with
  | none => .err .noOddLinksInChain
  | some l => l.verify (verifyBatch1 e r) delegatee delegator p

/-- issuer.rs:250-261 `verify_last_even_delegation` -/
def Chain.verifyLastEven (c : Chain G1 G2) (delegatee : G2) (delegator : G1) (p : Setup G2 G1) (r : F) : Res Error Bool :=
  match c.even.getLast? with
  | none => .err .noEvenLinksInChain
  | some l => l.verify (verifyBatch2 e r) delegatee delegator p

/-- issuer.rs:276-301: the check of link `i` in `verify_delegations`; `rnd i` is the value drawn by `verify_batch` -/
def checkLink (c : Chain G1 G2) (evenVks : List G2) (oddVks : List G1) (p1 : Setup G1 G2) (p2 : Setup G2 G1) (rnd : Nat → F)
    (i : Nat) : Res Error Bool :=
  if i % 2 = 1 then do
    let l ← Res.unwrap c.odd[i / 2]?
    if l.level ≠ i then .err (.unexpectedLevel i l.level)
    else do
      let d ← Res.unwrap oddVks[i / 2]?
      let k ← Res.unwrap evenVks[i / 2]?
      l.verify (verifyBatch1 e (rnd i)) d k p1
  else do
    let l ← Res.unwrap c.even[i / 2 - 1]?
    if l.level ≠ i then .err (.unexpectedLevel i l.level)
    else do
      let d ← Res.unwrap evenVks[i / 2]?
      let k ← Res.unwrap oddVks[i / 2 - 1]?
      l.verify (verifyBatch2 e (rnd i)) d k p2

/-- issuer.rs:275-306: the loop of `verify_delegations`, from link `i` on -/
def delegationLoop (c : Chain G1 G2) (evenVks : List G2) (oddVks : List G1) (p1 : Setup G1 G2) (p2 : Setup G2 G1) (rnd : Nat → F) :
    Nat → Nat → Res Error Bool
  | 0, _ => .ok true
  | n + 1, i => do
    let b ← checkLink e c evenVks oddVks p1 p2 rnd i
    if b = true then delegationLoop c evenVks oddVks p1 p2 rnd n (i + 1) else .ok false

/-- issuer.rs:266-307 `verify_delegations` -/
def Chain.verifyDelegations (c : Chain G1 G2) (evenVks : List G2) (oddVks : List G1) (p1 : Setup G1 G2) (p2 : Setup G2 G1)
    (rnd : Nat → F) : Res Error Bool := do
  c.validate evenVks oddVks
  delegationLoop e c evenVks oddVks p1 p2 rnd c.size 1

/-- issuer.rs:331-335: the number of attributes of link `i`, plus one -/
def countLink (c : Chain G1 G2) (i : Nat) : Res Error Nat :=
  if i % 2 = 1 then do
    let l ← Res.unwrap c.odd[i / 2]?
    pure (l.attributes.length + 1)
  else do
    let l ← Res.unwrap c.even[i / 2 - 1]?
    pure (l.attributes.length + 1)

/-- issuer.rs:328-336: the number of attributes of all links, plus one for each, from link `i` on -/
def countLoop (c : Chain G1 G2) : Nat → Nat → Res Error Nat
  | 0, _ => .ok 0
  | n + 1, i => do
    let k ← countLink c i
    let rest ← countLoop c n (i + 1)
    pure (k + rest)

/-- issuer.rs:343-388: one link of `verify_delegations_batched`: the pairs and the new offset -/
def batchLink (c : Chain G1 G2) (evenVks : List G2) (oddVks : List G1) (p1 : Setup G1 G2) (p2 : Setup G2 G1) (rv : List F)
    (i off : Nat) : Res Error (List (G1 × G2) × Nat) :=
  if i % 2 = 1 then do
    let l ← Res.unwrap c.odd[i / 2]?
    if l.level ≠ i then .err (.unexpectedLevel i l.level)
    else do
      let d ← Res.unwrap oddVks[i / 2]?
      l.validate d p1
      let k ← Res.unwrap evenVks[i / 2]?
      let ps ← prepare1 rv off l.signature l.attributes k p1
      pure (ps, off + (l.attributes.length + 1))
  else do
    let l ← Res.unwrap c.even[i / 2 - 1]?
    if l.level ≠ i then .err (.unexpectedLevel i l.level)
    else do
      let d ← Res.unwrap evenVks[i / 2]?
      l.validate d p2
      let k ← Res.unwrap oddVks[i / 2 - 1]?
      let ps ← prepare2 rv off l.signature l.attributes k p2
      pure (ps, off + (l.attributes.length + 1))

/-- issuer.rs:341-389: the loop of `verify_delegations_batched`, from link `i` on -/
def batchLoop (c : Chain G1 G2) (evenVks : List G2) (oddVks : List G1) (p1 : Setup G1 G2) (p2 : Setup G2 G1) (rv : List F) :
    Nat → Nat → Nat → Res Error (List (G1 × G2))
  | 0, _, _ => .ok []
  | n + 1, i, off => do
    let q ← batchLink c evenVks oddVks p1 p2 rv i off
    let rest ← batchLoop c evenVks oddVks p1 p2 rv n (i + 1) q.2
    pure (q.1 ++ rest)

/-- issuer.rs:313-397 `verify_delegations_batched`; `r` is drawn at random -/
def Chain.verifyDelegationsBatched (c : Chain G1 G2) (evenVks : List G2) (oddVks : List G1) (p1 : Setup G1 G2) (p2 : Setup G2 G1)
    (r : F) : Res Error Bool := do
  c.validate evenVks oddVks
  let n ← countLoop c c.size 1
  let l ← batchLoop c evenVks oddVks p1 p2 (vandermonde r n) c.size 1 0
  pure (decide (multiPairing e l = 0))

end
end Verif.Groth
