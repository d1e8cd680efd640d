import Verif.Groth.Model
/-!
# Attribute tokens over delegation chains (libzmix/src/signatures/delg_cred_cdd/attribute_token.rs)

The conventions of `Verif.Groth.Model` hold: groups and `GT` are written additively (`GT::pow` is scalar multiplication, a multi-pairing
is a sum of pairings, so the grouping of the products is not modelled), randomness is an argument and `&mut self` is state passing
(the state after a returned error is not modelled).  A `HashSet<usize>` is a list, a `HashMap<usize, _>` a list of pairs in the order
`iter` yields them.  A level is odd or even; what the code repeats for the two parities (with G1 and G2 swapped) is written once,
for the message group `A` and the key group `B`, as in `Verif.Groth.Model`.  Overflow checks are on.
-/
namespace Verif.Groth

/-- attribute_token.rs:34-42 `AttributeTokenComm` -/
structure Comm (G1 G2 GT : Type) where
  oddR : List G2
  evenR : List G1
  commsS : List GT
  commsT : List (List GT)
  oddRev : List (List (Nat × G1))
  evenRev : List (List (Nat × G2))
  deriving DecidableEq

/-- attribute_token.rs:44-55 `AttributeTokenResp` -/
structure Resp (F G1 G2 : Type) where
  csk : F
  oddVk : List G1
  evenVk : List G2
  oddS : List G1
  evenS : List G2
  oddT : List (List G1)
  evenT : List (List G2)
  oddA : List (List G1)
  evenA : List (List G2)
  deriving DecidableEq

/-- attribute_token.rs:18-32 `AttributeToken`: the fields that change (`blindings_sigs` is written and never read) -/
structure Token (F G1 G2 : Type) where
  oddSigs : List (Sig G1 G2)
  evenSigs : List (Sig G2 G1)
  bVk : List F
  bS : List F
  bT : List (List F)
  bA : List (List F)
  deriving DecidableEq

/-- attribute_token.rs:195-214 `AttributeToken::new` -/
def Token.new {F G1 G2 : Type} : Token F G1 G2 := ⟨[], [], [], [], [], []⟩

/-- attribute_token.rs:57-69 `PrecompOnSetupParams` -/
structure PreSetup (GT : Type) where
  inv1 : GT
  inv2 : GT
  negY1 : List GT
  negY2 : List GT

/-- attribute_token.rs:76-87 `PrecompForCommitmentReconstitution` -/
structure PreRecon (GT : Type) where
  inv1 : GT
  inv2 : GT
  y01 : GT
  y02 : GT
  g1ipk : GT
  yIpk : List GT

/-- attribute_token.rs:726-728, 770, 796, 828, 874, 901: the values drawn at one level: `rho_sig`, `rho_s`, `rho_vk`, and `rr_t`, `rr_a` of
attribute `j` -/
structure LevelRnd (F : Type) where
  sig : F
  s : F
  vk : F
  t : Nat → F
  a : Nat → F

/-- a `for i in start..start + n` loop over a state -/
def forLevels {σ : Type} (step : σ → Nat → Res Error σ) : Nat → Nat → σ → Res Error σ
  | 0, _, s => .ok s
  | n + 1, i, s => do
    let s' ← step s i
    forLevels step n (i + 1) s'

/-- a `for i in start..start + n` loop that pushes one result per round -/
def pushLevels {τ : Type} (step : Nat → Res Error τ) : Nat → Nat → Res Error (List τ)
  | 0, _ => .ok []
  | n + 1, i => do
    let x ← step i
    let rest ← pushLevels step n (i + 1)
    pure (x :: rest)

section
variable {F A B GT : Type} [Field F] [AddCommGroup A] [Module F A] [AddCommGroup B] [Module F B]
  [AddCommGroup GT] [Module F GT]

/-! ## One level of the commitment -/

/-- attribute_token.rs:773-783, 830-836, 876-878, 905-907: the factor for the blinded key of the issuer, absent at level 1 -/
def addPrev (prev : Option F) (negY : List GT) (j : Nat) (x : GT) : Res Error GT :=
  match prev with
  | none => .ok x
  | some b => do
    let n ← Res.unwrap negY[j]?
    pure (x + b • n)

/-- what one level adds to the commitment and to the token -/
structure LevelComm (F A GT : Type) where
  comS : GT
  comT : List GT
  rT : List F
  rA : List F
  rev : List (Nat × A)

/-- attribute_token.rs:767-801, 868-893: the attributes but the last, from attribute `j` on: the commitments, `r_t`, `r_a` and the revealed
attributes -/
def commitAttrs (gr inv : GT) (negY : List GT) (prev : Option F) (revealed : List Nat) (r : LevelRnd F) :
    Nat → List A → Res Error (List GT × List F × List F × List (Nat × A))
  | _, [] => .ok ([], [], [], [])
  | j, a :: as => do
    let c ← addPrev prev negY j ((r.sig * r.t j) • gr)
    let q ← commitAttrs gr inv negY prev revealed r (j + 1) as
    if revealed.contains j = true then pure (c :: q.1, r.t j :: q.2.1, q.2.2.1, (j, a) :: q.2.2.2)
    else pure ((c + r.a j • inv) :: q.1, r.t j :: q.2.1, r.a j :: q.2.2.1, q.2.2.2)

/-- attribute_token.rs:730-828, 829-915: one level, after the link was found.  `gr` is the pairing of the generator and `R`, `prev` is
`blindings_vk[i - 2]`, absent at level 1.  `attribute_count() - revealed.len()` and `attribute_count() - 1` panic if negative. -/
def commitLevel (gr inv : GT) (negY : List GT) (prev : Option F) (y : List A) (l : Link A B) (revealed : List Nat) (r : LevelRnd F) :
    Res Error (LevelComm F A GT) :=
  if revealed.length > y.length then .err (.moreAttributesThanExpected y.length revealed.length)
  else if l.attributes.length < revealed.length then .panic
  else if l.attributes.length = 0 then .panic
  else do
    let q ← commitAttrs gr inv negY prev revealed r 0 l.attributes.dropLast
    let v ← addPrev prev negY (l.attributes.length - 1) ((r.sig * r.t (l.attributes.length - 1)) • gr + r.vk • inv)
    pure ⟨(r.sig * r.s) • gr + (match prev with | none => 0 | some b => b • inv), q.1 ++ [v],
      q.2.1 ++ [r.t (l.attributes.length - 1)], q.2.2.1, q.2.2.2⟩

/-! ## One level of the response -/

/-- attribute_token.rs:284-304, 338-359: `resp_t` and `resp_a`, from attribute `j` on; out of range indices panic.  The `debug_assert` at
305 and 360 cannot fail here: `blindings_a` was checked to have this length, so a longer `resp_a` panics before. -/
def respAttrs (ga : A) (c : F) (rev : List (Nat × A)) : Nat → List A → List A → List F → List F → Res Error (List A × List A)
  | _, [], _, _, _ => .ok ([], [])
  | j, a :: as, ts, bts, bas => do
    let t ← Res.unwrap ts.head?
    let b ← Res.unwrap bts.head?
    if as.isEmpty = false && (rev.map Prod.fst).contains j = false then do
      let x ← Res.unwrap bas.head?
      let q ← respAttrs ga c rev (j + 1) as ts.tail bts.tail bas.tail
      pure ((b • ga + c • t) :: q.1, (x • ga + c • a) :: q.2)
    else do
      let q ← respAttrs ga c rev (j + 1) as ts.tail bts.tail bas
      pure ((b • ga + c • t) :: q.1, q.2)

/-- attribute_token.rs:168-192 `check_blindings_count!` -/
def checkBlindings (bt ba : List F) (l : Link A B) (unrevealed : Nat) : Res Error Unit :=
  if bt.length ≠ l.signature.T.length then .err (.general "t blindings count unequal to t count")
  else if l.attributes.length ≠ l.signature.T.length then .err (.general "attribute count unequal to t count")
  else if ba.length ≠ unrevealed then .err (.general "attribute blidnding count unequal to unrevealed attribute count")
  else .ok ()

/-- attribute_token.rs:254-309, 310-364: one level: `resp_t` and `resp_a` -/
def respLevel (ga : A) (c : F) (T' : List A) (bt ba : List F) (l : Link A B) (rev : List (Nat × A)) : Res Error (List A × List A) :=
  if l.attributes.length < rev.length + 1 then .panic
  else do
    checkBlindings bt ba l (l.attributes.length - rev.length - 1)
    respAttrs ga c rev 0 l.attributes T' bt ba

/-! ## One level of the reconstruction -/

/-- attribute_token.rs:436-451, 577-592, 961-976, 1100-1115: the checks of one level; `ra` is `resp_a[..]` of the level -/
def checkLevel (n revealed ys : Nat) (ra : Option (List A)) : Res Error Unit :=
  if n < revealed then .panic
  else if n > ys then .err (.moreAttributesThanExpected (ys + 1) n)
  else if n - revealed < 1 then .panic
  else match ra with
    | none => .panic
    | some l => if n - revealed - 1 > l.length then .err (.moreUnrevealedAttributesThanExpected l.length (n - revealed)) else .ok ()

variable (e : A →ₗ[F] B →ₗ[F] GT)

/-- attribute_token.rs:485-530, 619-652, 1009-1055, 1142-1175: the attributes but the last, from attribute `j` on; `iss` has the terms for the
key of the issuer from attribute `j` on.  `revealed_attributes[&j]` panics if the key is missing. -/
def reconAttrs (R gb : B) (c : F) (revealed : List Nat) (rev : List (Nat × A)) : Nat → Nat → List GT → List A → List A → Res Error (List GT)
  | 0, _, _, _, _ => .ok []
  | m + 1, j, iss, ts, as => do
    let t ← Res.unwrap ts.head?
    let s ← Res.unwrap iss.head?
    if revealed.contains j = true then do
      let a ← Res.unwrap (rev.lookup j)
      let rest ← reconAttrs R gb c revealed rev m (j + 1) iss.tail ts.tail as
      pure ((e t R + e a (-c • gb) + s) :: rest)
    else do
      let a ← Res.unwrap as.head?
      let rest ← reconAttrs R gb c revealed rev m (j + 1) iss.tail ts.tail as.tail
      pure ((e t R + e a (-gb) + s) :: rest)

/-- attribute_token.rs:480-572, 614-676, 1004-1094, 1137-1198: `comms_t` of one level; `own` is the term for the key of the level -/
def reconT (R gb : B) (c : F) (n : Nat) (revealed : List Nat) (rev : List (Nat × A)) (iss : List GT) (own : GT) (ts as : List A) :
    Res Error (List GT) := do
  let q ← reconAttrs e R gb c revealed rev (n - 1) 0 iss ts as
  let t ← Res.unwrap ts[n - 1]?
  let s ← Res.unwrap iss[n - 1]?
  pure (q ++ [e t R + own + s])

end

section
variable {F G1 G2 GT : Type} [Field F] [AddCommGroup G1] [Module F G1] [AddCommGroup G2] [Module F G2]
  [AddCommGroup GT] [Module F GT]

/-! ## Validation and the challenge -/

/-- attribute_token.rs:1213-1242 `check_odd_collection_length!` -/
def checkOdd (len L : Nat) (entity : String) : Res Error Unit :=
  if L % 2 = 1 then if len ≠ L / 2 + 1 then .err (.incorrectNumberOfOddValues (L / 2 + 1) len entity) else .ok ()
  else if len ≠ L / 2 then .err (.incorrectNumberOfOddValues (L / 2) len entity) else .ok ()

/-- attribute_token.rs:1244-1257 `check_even_collection_length!` -/
def checkEven (len L : Nat) (entity : String) : Res Error Unit :=
  if len ≠ L / 2 then .err (.incorrectNumberOfEvenValues (L / 2) len entity) else .ok ()

/-- attribute_token.rs:1260-1308 `AttributeTokenComm::validate` -/
def Comm.validate (k : Comm G1 G2 GT) (L : Nat) : Res Error Unit :=
  if k.commsT.length ≠ L then .err (.incorrectNumberOfTCommitments L k.commsT.length)
  else if k.commsS.length ≠ L then .err (.incorrectNumberOfSCommitments L k.commsS.length)
  else if k.oddRev.length + k.evenRev.length ≠ L then
    .err (.incorrectNumberOfRevealedAttributeSets L (k.oddRev.length + k.evenRev.length))
  else if k.oddR.length + k.evenR.length ≠ L then .err (.incorrectNumberOfBlindedR L (k.oddR.length + k.evenR.length))
  else do
    checkOdd k.oddRev.length L "revealed attributes"
    checkOdd k.oddR.length L "blinded r"
    checkEven k.evenRev.length L "revealed attributes"
    checkEven k.evenR.length L "blinded r"

/-- attribute_token.rs:1343-1362 `AttributeTokenResp::validate` -/
def Resp.validate (p : Resp F G1 G2) (L : Nat) : Res Error Unit :=
  if p.oddS.length + p.evenS.length ≠ L then
    .err (.unequalNoOfCommitmentAndResponses L (p.oddS.length + p.evenS.length) "s from signature")
  else if p.oddT.length + p.evenT.length ≠ L then
    .err (.unequalNoOfCommitmentAndResponses L (p.oddT.length + p.evenT.length) "t from signature")
  else .ok ()

/-- attribute_token.rs:1326-1331, 1332-1337: the bytes of a map of revealed attributes -/
def revBytes {A : Type} (enc : A → Bytes) (m : List (Nat × A)) : Bytes := m.flatMap (fun q => (toString q.1).toUTF8.data.toList ++ enc q.2)

/-- attribute_token.rs:1310-1339 `AttributeTokenComm::to_bytes` -/
def Comm.toBytes (enc1 : G1 → Bytes) (enc2 : G2 → Bytes) (encT : GT → Bytes) (k : Comm G1 G2 GT) : Bytes :=
  k.commsS.flatMap encT ++ k.oddR.flatMap enc2 ++ k.evenR.flatMap enc1 ++ k.commsT.flatMap (fun v => v.flatMap encT) ++
    k.oddRev.flatMap (revBytes enc1) ++ k.evenRev.flatMap (revBytes enc2)

/-- attribute_token.rs:379-389 `gen_challenge`; `H` is `FieldElement::from_msg_hash` -/
def genChallenge (enc1 : G1 → Bytes) (enc2 : G2 → Bytes) (encT : GT → Bytes) (H : Bytes → F) (k : Comm G1 G2 GT) (ipk : G2)
    (extra : Bytes) : F :=
  H (enc2 ipk ++ k.toBytes enc1 enc2 encT ++ extra)

/-! ## Commitment -/

variable (e : G1 →ₗ[F] G2 →ₗ[F] GT)

/-- attribute_token.rs:89-113 `PrecompOnSetupParams::new` -/
@[reducible] def preSetup (p1 : Setup G1 G2) (p2 : Setup G2 G1) : PreSetup GT :=
  ⟨e (-p1.ga) p1.gb, e (-p2.gb) p2.ga, p1.y.map (fun y => e y (-p1.gb)), p2.y.map (fun y => e (-p2.gb) y)⟩

/-- attribute_token.rs:124-134: one round of `PrecompOnCredChain::new` -/
def preChainStep (c : Chain G1 G2) (p1 : Setup G1 G2) (p2 : Setup G2 G1) (i : Nat) : Res Error GT :=
  if i % 2 = 1 then do
    let l ← c.getOdd (i / 2)
    pure (e p1.ga l.signature.R)
  else do
    let l ← c.getEven (i / 2 - 1)
    pure (e l.signature.R p2.ga)

/-- attribute_token.rs:117-137 `PrecompOnCredChain::new` -/
def preChain (c : Chain G1 G2) (p1 : Setup G1 G2) (p2 : Setup G2 G1) : Res Error (List GT) :=
  pushLevels (preChainStep e c p1 p2) c.size 1

/-- the local variables of `commitment_with_precomputation` and the token -/
structure CommitState (F G1 G2 GT : Type) where
  tok : Token F G1 G2
  commsS : List GT
  commsT : List (List GT)
  oddRev : List (List (Nat × G1))
  evenRev : List (List (Nat × G2))

/-- attribute_token.rs:742-753, 839-845: `blindings_vk[i - 2]`, not looked up at level 1 -/
def prevBlinding (tok : Token F G1 G2) (i : Nat) : Res Error (Option F) :=
  if i = 1 then .ok none
  else do
    let b ← Res.unwrap tok.bVk[i - 2]?
    pure (some b)

/-- attribute_token.rs:725-888: one round of `commitment_with_precomputation` -/
def commitStep (c : Chain G1 G2) (p1 : Setup G1 G2) (p2 : Setup G2 G1) (revealed : List (List Nat)) (ps : PreSetup GT)
    (pr : List GT) (rnd : Nat → LevelRnd F) (st : CommitState F G1 G2 GT) (i : Nat) : Res Error (CommitState F G1 G2 GT) :=
  if i % 2 = 1 then do
    let l ← c.getOdd (i / 2)
    let gr ← Res.unwrap pr[i - 1]?
    let prev ← prevBlinding st.tok i
    let rv ← Res.unwrap revealed[i - 1]?
    let q ← commitLevel gr ps.inv1 ps.negY1 prev p1.y l rv (rnd i)
    pure ⟨⟨st.tok.oddSigs ++ [randomize l.signature (rnd i).sig], st.tok.evenSigs, st.tok.bVk ++ [(rnd i).vk], st.tok.bS ++ [(rnd i).s],
      st.tok.bT ++ [q.rT], st.tok.bA ++ [q.rA]⟩, st.commsS ++ [q.comS], st.commsT ++ [q.comT], st.oddRev ++ [q.rev], st.evenRev⟩
  else do
    let l ← c.getEven (i / 2 - 1)
    let gr ← Res.unwrap pr[i - 1]?
    let prev ← prevBlinding st.tok i
    let rv ← Res.unwrap revealed[i - 1]?
    let q ← commitLevel gr ps.inv2 ps.negY2 prev p2.y l rv (rnd i)
    pure ⟨⟨st.tok.oddSigs, st.tok.evenSigs ++ [randomize l.signature (rnd i).sig], st.tok.bVk ++ [(rnd i).vk], st.tok.bS ++ [(rnd i).s],
      st.tok.bT ++ [q.rT], st.tok.bA ++ [q.rA]⟩, st.commsS ++ [q.comS], st.commsT ++ [q.comT], st.oddRev, st.evenRev ++ [q.rev]⟩

/-- attribute_token.rs:702-924 `commitment_with_precomputation`: the token and the commitment; `rnd i` are the values drawn at level `i` -/
def commitWith (c : Chain G1 G2) (p1 : Setup G1 G2) (p2 : Setup G2 G1) (tok : Token F G1 G2) (revealed : List (List Nat))
    (ps : PreSetup GT) (pr : List GT) (rnd : Nat → LevelRnd F) : Res Error (Token F G1 G2 × Comm G1 G2 GT) :=
  if revealed.length ≠ c.size then .err (.incorrectNumberOfRevealedAttributeSets c.size revealed.length)
  else do
    let st ← forLevels (commitStep c p1 p2 revealed ps pr rnd) c.size 1 ⟨tok, [], [], [], []⟩
    pure (st.tok, ⟨st.tok.oddSigs.map Sig.R, st.tok.evenSigs.map Sig.R, st.commsS, st.commsT, st.oddRev, st.evenRev⟩)

/-- attribute_token.rs:692-700 `commitment_with_precomputation_on_setup_params` -/
def commitWithSetup (c : Chain G1 G2) (p1 : Setup G1 G2) (p2 : Setup G2 G1) (tok : Token F G1 G2) (revealed : List (List Nat))
    (ps : PreSetup GT) (rnd : Nat → LevelRnd F) : Res Error (Token F G1 G2 × Comm G1 G2 GT) := do
  let pr ← preChain e c p1 p2
  commitWith c p1 p2 tok revealed ps pr rnd

/-- attribute_token.rs:218-231 `commitment` -/
def commitment (c : Chain G1 G2) (p1 : Setup G1 G2) (p2 : Setup G2 G1) (tok : Token F G1 G2) (revealed : List (List Nat))
    (rnd : Nat → LevelRnd F) : Res Error (Token F G1 G2 × Comm G1 G2 GT) := do
  let pr ← preChain e c p1 p2
  commitWith c p1 p2 tok revealed (preSetup e p1 p2) pr rnd

/-! ## Response -/

/-- attribute_token.rs:264-272, 320-329: the response for the key of level `i`: a group element, or the scalar at the last level -/
def respKey {A : Type} [AddCommGroup A] [Module F A] (ga : A) (c b sk : F) (vk : Option A) (last : Bool) (csk : F) (out : List A) :
    Res Error (F × List A) :=
  if last = true then .ok (b + c * sk, out)
  else do
    let v ← Res.unwrap vk
    pure (csk, out ++ [b • ga + c • v])

/-- attribute_token.rs:254-365: one round of `response` -/
def respStep (c : Chain G1 G2) (p1 : Setup G1 G2) (p2 : Setup G2 G1) (tok : Token F G1 G2) (k : Comm G1 G2 GT) (sk ch : F)
    (evenVks : List G2) (oddVks : List G1) (p : Resp F G1 G2) (i : Nat) : Res Error (Resp F G1 G2) :=
  if i % 2 = 1 then do
    let l ← c.getOdd (i / 2)
    let s ← Res.unwrap tok.oddSigs[i / 2]?
    let bs ← Res.unwrap tok.bS[i - 1]?
    let bv ← Res.unwrap tok.bVk[i - 1]?
    let v ← respKey p1.ga ch bv sk oddVks[i / 2]? (i == c.size) p.csk p.oddVk
    let rv ← Res.unwrap k.oddRev[i / 2]?
    let bt ← Res.unwrap tok.bT[i - 1]?
    let ba ← Res.unwrap tok.bA[i - 1]?
    let q ← respLevel p1.ga ch s.T bt ba l rv
    pure ⟨v.1, v.2, p.evenVk, p.oddS ++ [bs • p1.ga + ch • s.S], p.evenS, p.oddT ++ [q.1], p.evenT, p.oddA ++ [q.2], p.evenA⟩
  else do
    let l ← c.getEven (i / 2 - 1)
    let s ← Res.unwrap tok.evenSigs[i / 2 - 1]?
    let bs ← Res.unwrap tok.bS[i - 1]?
    let bv ← Res.unwrap tok.bVk[i - 1]?
    let v ← respKey p2.ga ch bv sk evenVks[i / 2 - 1]? (i == c.size) p.csk p.evenVk
    let rv ← Res.unwrap k.evenRev[i / 2 - 1]?
    let bt ← Res.unwrap tok.bT[i - 1]?
    let ba ← Res.unwrap tok.bA[i - 1]?
    let q ← respLevel p2.ga ch s.T bt ba l rv
    pure ⟨v.1, p.oddVk, v.2, p.oddS, p.evenS ++ [bs • p2.ga + ch • s.S], p.oddT, p.evenT ++ [q.1], p.oddA, p.evenA ++ [q.2]⟩

/-- attribute_token.rs:234-376 `response`; `evenVks` does not have the key of the root -/
def response (c : Chain G1 G2) (p1 : Setup G1 G2) (p2 : Setup G2 G1) (tok : Token F G1 G2) (k : Comm G1 G2 GT) (sk ch : F)
    (evenVks : List G2) (oddVks : List G1) : Res Error (Resp F G1 G2) := do
  k.validate c.size
  forLevels (respStep c p1 p2 tok k sk ch evenVks oddVks) c.size 1 ⟨0, [], [], [], [], [], [], [], []⟩

/-! ## Reconstruction -/

/-- the terms that the two reconstructions compute in different ways: what is added to the first pairing at level 1 and at the other odd and
even levels, the terms for the root's key and the `y`, and the terms for the secret key of the last level -/
structure ReconVals (GT : Type) where
  rootS : GT
  y0odd : GT
  y0even : GT
  rootIss : List GT
  lastOdd : GT
  lastEven : GT

/-- attribute_token.rs:408-432, 456-468, 496, 516, 536-555, 667: the terms of `reconstruct_commitment`; `y[0]` panics for empty parameters -/
def plainVals (p1 : Setup G1 G2) (p2 : Setup G2 G1) (ipk : G2) (ch csk : F) : Res Error (ReconVals GT) := do
  let y1 ← Res.unwrap p1.y.head?
  let y2 ← Res.unwrap p2.y.head?
  pure ⟨e p1.ga (-ch • ipk) + e y1 (-ch • p1.gb), e y1 (-ch • p1.gb), e (-ch • p2.gb) y2, p1.y.map (fun y => e y (-ch • ipk)),
    e (csk • p1.ga) (-p1.gb), e (csk • -p2.gb) p2.ga⟩

/-- attribute_token.rs:141-165 `PrecompForCommitmentReconstitution::new` -/
def preRecon (ipk : G2) (p1 : Setup G1 G2) (p2 : Setup G2 G1) : Res Error (PreRecon GT) := do
  let y1 ← Res.unwrap p1.y.head?
  let y2 ← Res.unwrap p2.y.head?
  pure ⟨e (-p1.ga) p1.gb, e (-p2.gb) p2.ga, e y1 p1.gb, e p2.gb y2, e p1.ga ipk, p1.y.map (fun y => e y ipk)⟩

/-- attribute_token.rs:948-957, 980-990, 1018, 1035, 1058-1078, 1191: the terms of `reconstruct_commitment_with_precomputed_vals` -/
def precompVals (q : PreRecon GT) (ch csk : F) : ReconVals GT :=
  ⟨-ch • (q.g1ipk + q.y01), -ch • q.y01, -ch • q.y02, q.yIpk.map (fun x => -ch • x), csk • q.inv1, csk • q.inv2⟩

/-- attribute_token.rs:456-478, 485-560: the terms for the key of the issuer of an odd level: added to the first pairing, and for each `y` -/
def issuerOdd (p1 : Setup G1 G2) (q : Resp F G1 G2) (v : ReconVals GT) (i : Nat) : Res Error (GT × List GT) :=
  if i = 1 then .ok (v.rootS, v.rootIss)
  else do
    let r ← Res.unwrap q.evenVk[i / 2 - 1]?
    pure (e (-p1.ga) r + v.y0odd, p1.y.map (fun y => e (-y) r))

/-- attribute_token.rs:533-570: the term for the key of an odd level -/
def ownOdd (L : Nat) (p1 : Setup G1 G2) (q : Resp F G1 G2) (v : ReconVals GT) (i : Nat) : Res Error GT :=
  if i = L then .ok v.lastOdd
  else do
    let r ← Res.unwrap q.oddVk[i / 2]?
    pure (e r (-p1.gb))

/-- attribute_token.rs:654-675: the term for the key of an even level -/
def ownEven (L : Nat) (p2 : Setup G2 G1) (q : Resp F G1 G2) (v : ReconVals GT) (i : Nat) : Res Error GT :=
  if i = L then .ok v.lastEven
  else do
    let r ← Res.unwrap q.evenVk[i / 2 - 1]?
    pure (e (-p2.gb) r)

/-- attribute_token.rs:434-684, 959-1204: one round of the two reconstructions: the entries of `comms_s` and `comms_t` -/
def reconStep (L : Nat) (k : Comm G1 G2 GT) (q : Resp F G1 G2) (ch : F) (revealed : List (List Nat)) (p1 : Setup G1 G2)
    (p2 : Setup G2 G1) (v : ReconVals GT) (i : Nat) : Res Error (GT × List GT) :=
  if i % 2 = 1 then do
    let ct ← Res.unwrap k.commsT[i - 1]?
    let rv ← Res.unwrap revealed[i - 1]?
    checkLevel ct.length rv.length p1.y.length q.oddA[i / 2]?
    let s ← Res.unwrap q.oddS[i / 2]?
    let R ← Res.unwrap k.oddR[i / 2]?
    let is ← issuerOdd e p1 q v i
    let ts ← Res.unwrap q.oddT[i / 2]?
    let as ← Res.unwrap q.oddA[i / 2]?
    let ra ← Res.unwrap k.oddRev[i / 2]?
    let own ← ownOdd e L p1 q v i
    let t ← reconT e R p1.gb ch ct.length rv ra is.2 own ts as
    pure (e s R + is.1, t)
  else do
    let ct ← Res.unwrap k.commsT[i - 1]?
    let rv ← Res.unwrap revealed[i - 1]?
    checkLevel ct.length rv.length p2.y.length q.evenA[i / 2 - 1]?
    let s ← Res.unwrap q.evenS[i / 2 - 1]?
    let R ← Res.unwrap k.evenR[i / 2 - 1]?
    let r ← Res.unwrap q.oddVk[i / 2 - 1]?
    let ts ← Res.unwrap q.evenT[i / 2 - 1]?
    let as ← Res.unwrap q.evenA[i / 2 - 1]?
    let ra ← Res.unwrap k.evenRev[i / 2 - 1]?
    let own ← ownEven e L p2 q v i
    let t ← reconT e.flip R p2.gb ch ct.length rv ra (p2.y.map (fun y => e r (-y))) own ts as
    pure (e R s + (e r (-p2.ga) + v.y0even), t)

/-- attribute_token.rs:434-690, 959-1210: the loop of the two reconstructions and the result: the given commitment with `comms_s` and
`comms_t` replaced -/
def reconFrom (L : Nat) (k : Comm G1 G2 GT) (q : Resp F G1 G2) (ch : F) (revealed : List (List Nat)) (p1 : Setup G1 G2)
    (p2 : Setup G2 G1) (v : ReconVals GT) : Res Error (Comm G1 G2 GT) := do
  let l ← pushLevels (reconStep e L k q ch revealed p1 p2 v) L 1
  pure { k with commsS := l.map Prod.fst, commsT := l.map Prod.snd }

/-- attribute_token.rs:392-690 `reconstruct_commitment` -/
def reconstruct (L : Nat) (k : Comm G1 G2 GT) (q : Resp F G1 G2) (ch : F) (revealed : List (List Nat)) (ipk : G2)
    (p1 : Setup G1 G2) (p2 : Setup G2 G1) : Res Error (Comm G1 G2 GT) := do
  k.validate L
  q.validate L
  let v ← plainVals e p1 p2 ipk ch q.csk
  reconFrom e L k q ch revealed p1 p2 v

/-- attribute_token.rs:926-1210 `reconstruct_commitment_with_precomputed_vals` -/
def reconstructPre (L : Nat) (k : Comm G1 G2 GT) (q : Resp F G1 G2) (ch : F) (revealed : List (List Nat))
    (p1 : Setup G1 G2) (p2 : Setup G2 G1) (pre : PreRecon GT) : Res Error (Comm G1 G2 GT) := do
  k.validate L
  q.validate L
  reconFrom e L k q ch revealed p1 p2 (precompVals pre ch q.csk)

end
end Verif.Groth
