import Verif.Common
import Mathlib.Algebra.Module.Basic
import Mathlib.Algebra.BigOperators.Group.List.Basic
/-!
# Proof of knowledge of the values in a vector Pedersen commitment

Model of libzmix/src/commitments/pok_vc.rs (macro `impl_PoK_VC`, instantiated for G1 and G2) and of
libzmix/bbs/src/pok_vc.rs (G1 only), which are the same algorithm.  `F` is the scalar field, `G` the group (an `F`-module,
written additively).  Randomly drawn blinding factors are arguments.
-/
namespace Verif.PoK

variable {F G : Type} [Field F] [AddCommGroup G] [Module F G]

/-- errors of both crates -/
inductive Error where
  | unequalNoOfBasesExponents (bases exponents : Nat)
  | general (msg : String)
  deriving DecidableEq

/-- `multi_scalar_mul_const_time_g1` (bbs/src/lib.rs:365-381), `multi_scalar_mul_var_time_g1` (383-421), and amcl_wrapper's
`multi_scalar_mul_*`: pairwise products, summed -/
def msm (bases : List G) (scalars : List F) : G := (List.zipWith (fun b s => s • b) bases scalars).sum

/-- pok_vc.rs:84-89 (libzmix), 149-152 (bbs) -/
structure Committing (F G : Type) where
  bases : List G
  blindings : List F

/-- pok_vc.rs:91-97 (libzmix), 156-163 (bbs) -/
structure Committed (F G : Type) where
  bases : List G
  blindings : List F
  commitment : G

/-- pok_vc.rs:99-103 (libzmix), 167-172 (bbs) -/
structure Proof (F G : Type) where
  commitment : G
  responses : List F

/-- pok_vc.rs:106-111 (libzmix), 176-181 (bbs) `new` -/
def Committing.new : Committing F G := ⟨[], []⟩

/-- pok_vc.rs:114-127 (libzmix) `commit`, 185-203 (bbs) `commit`, `commit_with` -/
def Committing.commit (c : Committing F G) (base : G) (blinding : F) : Committing F G × Nat :=
  (⟨c.bases ++ [base], c.blindings ++ [blinding]⟩, c.bases.length)

/-- pok_vc.rs:130-140 (libzmix), 206-213 (bbs) `finish` -/
def Committing.finish (c : Committing F G) : Committed F G := ⟨c.bases, c.blindings, msm c.bases c.blindings⟩

/-- pok_vc.rs:142-153 (libzmix), 216-227 (bbs) `get_index` -/
def Committing.getIndex (c : Committing F G) (idx : Nat) : Res Error (G × F) :=
  if c.bases.length ≤ idx then .err (.general "index greater than size") else do
    let b ← Res.unwrap c.bases[idx]?
    let r ← Res.unwrap c.blindings[idx]?
    pure (b, r)

/-- pok_vc.rs:163-170 (libzmix), 238-245 (bbs) `to_bytes` -/
def Committed.toBytes (enc : G → Bytes) (c : Committed F G) : Bytes := (c.bases.map enc).flatten ++ enc c.commitment

/-- pok_vc.rs:173-177 (libzmix), 248-252 (bbs) `gen_challenge` -/
def Committed.genChallenge (enc : G → Bytes) (hash : Bytes → F) (c : Committed F G) (extra : Bytes) : F :=
  hash (c.toBytes enc ++ extra)

/-- pok_vc.rs:180-200 (libzmix), 255-279 (bbs) `gen_proof` -/
def Committed.genProof (c : Committed F G) (challenge : F) (secrets : List F) : Res Error (Proof F G) :=
  if secrets.length ≠ c.bases.length then .err (.unequalNoOfBasesExponents c.bases.length secrets.length)
  else .ok ⟨c.commitment, List.zipWith (fun b s => b - challenge * s) c.blindings secrets⟩

/-- bbs pok_vc.rs:286-309 `get_challenge_contribution` (inlined in libzmix `verify`, 209-222) -/
def Proof.challengeContribution (p : Proof F G) (bases : List G) (commitment : G) (challenge : F) : Res Error G :=
  if bases.length ≠ p.responses.length then .err (.unequalNoOfBasesExponents bases.length p.responses.length)
  else .ok (msm (bases ++ [commitment]) (p.responses ++ [challenge]))

variable [DecidableEq G] [DecidableEq F]

/-- pok_vc.rs:205-230 (libzmix), 313-322 (bbs) `verify` -/
def Proof.verify (p : Proof F G) (bases : List G) (commitment : G) (challenge : F) : Res Error Bool := do
  let pr ← p.challengeContribution bases commitment challenge
  pure (decide (pr - p.commitment = 0))

/-- pok_vc.rs:228-264 (libzmix), 325-357 (bbs) `verify_complete_proof` -/
def Proof.verifyComplete (enc : G → Bytes) (hash : Bytes → F) (p : Proof F G) (bases : List G) (commitment : G) (challenge : F)
    (nonce : Bytes) : Res Error Bool := do
  let pr ← p.challengeContribution bases commitment challenge
  let h := hash ((bases.map enc).flatten ++ enc pr ++ enc commitment ++ nonce)
  pure (decide (pr - p.commitment = 0) && decide (h - challenge = 0))

/-! ## Wire format -/

/-- Read one element of fixed size from a cursor (`SerDes::deserialize`; libzmix slices the data instead). -/
def readElem {R : Type} (c : Codec R) (b : Bytes) : Option (R × Bytes) :=
  if b.length < c.size then none else (c.dec (b.take c.size)).map (fun r => (r, b.drop c.size))

/-- Read `n` elements. -/
def readMany {R : Type} (c : Codec R) : Nat → Bytes → Option (List R × Bytes)
  | 0, b => some ([], b)
  | n + 1, b => do
    let (r, b) ← readElem c b
    let (rs, b) ← readMany c n b
    pure (r :: rs, b)

/-- pok_vc.rs:267-275 (libzmix), 360-369 (bbs) `to_bytes` -/
def Proof.toBytes (cG : Codec G) (cF : Codec F) (p : Proof F G) : Bytes :=
  cG.enc p.commitment ++ beU32 p.responses.length ++ (p.responses.map cF.enc).flatten

/-- pok_vc.rs:277-319 (libzmix), 372-409 (bbs) `from_bytes` -/
def Proof.fromBytes (cG : Codec G) (cF : Codec F) (data : Bytes) : Res Error (Proof F G) :=
  if data.length < cG.size + 4 then .err (.general "Invalid length")
  else do
    let (commitment, rest) ← Res.ofOption (.general "Bad data") (readElem cG data)
    let length := ofBe (rest.take 4)
    if data.length < cG.size + 4 + length * cF.size then .err (.general "Invalid length")
    else do
      let (responses, _) ← Res.ofOption (.general "Bad data") (readMany cF length (rest.drop 4))
      pure ⟨commitment, responses⟩

end Verif.PoK
