import Verif.CL.Helpers
import Mathlib.Data.Finset.Sort
import Mathlib.Order.Interval.Finset.Nat
import Mathlib.Algebra.Module.LinearMap.Basic
import Mathlib.Algebra.Module.BigOperators
import Mathlib.Algebra.Field.Defs
import Mathlib.LinearAlgebra.BilinearMap
/-!
# Model of the revocation registry of the CL scheme
(libursa/src/cl/mod.rs, libursa/src/cl/issuer.rs, libursa/src/cl/prover.rs)

`F` is the field of group-order elements, `G1`, `G2`, `GT` the pairing groups, all written additively (the Rust writes
`GT` multiplicatively: `Pair::mul` is `+`, `Pair::pow` is `•`, `Pair::inverse` is `-`).  `e` is the pairing.
-/
namespace Verif.CL.Rev

open Verif

/-- the `u32` result of an arithmetic operation whose exact value is `x` -/
def u32 (m : Overflow) (x : Int) : Res String Nat :=
  if 0 ≤ x ∧ x < 2 ^ 32 then .ok x.toNat
  else match m with
    | .checked => .panic
    | .wrapping => .ok (x % 2 ^ 32).toNat

/-- mod.rs:406-418 `CredentialRevocationPublicKey` -/
structure PubKey (G1 G2 : Type) where
  g : G1
  gDash : G2
  h : G1
  h0 : G1
  h1 : G1
  h2 : G1
  htilde : G1
  hCap : G2
  u : G2
  pk : G1
  y : G2

/-- mod.rs:423-426 `CredentialRevocationPrivateKey` -/
structure PrivKey (F : Type) where
  x : F
  sk : F

/-- mod.rs:452-462 `RevocationRegistryDelta`.  `HashSet<u32>` is a finite set of naturals. -/
structure Delta (G2 : Type) where
  prevAccum : Option G2
  accum : G2
  issued : Finset Nat
  revoked : Finset Nat

/-- mod.rs:465-477 `from_parts` (a `RevocationRegistry` is its accumulator, mod.rs:435-437) -/
def Delta.fromParts {G2 : Type} (regFrom : Option G2) (regTo : G2) (issued revoked : Finset Nat) : Delta G2 :=
  { prevAccum := regFrom, accum := regTo, issued := issued, revoked := revoked }

/-- mod.rs:479-504 `merge`; the result is the new value of `self` -/
def Delta.merge {G2 : Type} [DecidableEq G2] (self other : Delta G2) : Res String (Delta G2) :=
  match other.prevAccum with
  | none => .err "Deltas can not be merged."
  | some p =>
    if self.accum ≠ p then .err "Deltas can not be merged."
    else
      let issued := self.issued ∪ (other.issued \ self.revoked)
      let revoked := self.revoked ∪ (other.revoked \ issued)
      .ok { prevAccum := self.prevAccum, accum := other.accum,
            issued := issued \ other.revoked, revoked := revoked \ other.issued }

section
variable {F G1 G2 GT : Type} [Field F] [AddCommGroup G1] [Module F G1] [AddCommGroup G2] [Module F G2]
  [AddCommGroup GT] [Module F GT]

/-- issuer.rs:834-875 `_new_credential_revocation_keys`; the random points and exponents are arguments -/
def newRevocationKeys (g h h0 h1 h2 htilde : G1) (u hCap gDash : G2) (x sk : F) : PubKey G1 G2 × PrivKey F :=
  ({ g := g, gDash := gDash, h := h, h0 := h0, h1 := h1, h2 := h2, htilde := htilde, hCap := hCap, u := u,
     pk := sk • g, y := x • hCap }, { x := x, sk := sk })

/-- mod.rs:526-531 `Tail::new_tail`.  The exponent `index < 2^32` is far below the group order, so
`gamma.pow_mod` is the natural-number power. -/
def newTail (index : Nat) (gDash : G2) (gamma : F) : G2 := (gamma ^ index) • gDash

/-- mod.rs:537-542 `RevocationTailsGenerator` -/
structure TailsGen (F G2 : Type) where
  size : Nat
  currentIndex : Nat
  gDash : G2
  gamma : F

/-- mod.rs:545-552 `RevocationTailsGenerator::new` -/
def TailsGen.new (m : Overflow) (maxCredNum : Nat) (gamma : F) (gDash : G2) : Res String (TailsGen F G2) := do
  let a ← u32 m (2 * maxCredNum)
  let size ← u32 m (a + 1)
  pure { size := size, currentIndex := 0, gDash := gDash, gamma := gamma }

/-- mod.rs:554-556 `count` -/
def TailsGen.count (t : TailsGen F G2) : Nat := t.size - t.currentIndex

/-- mod.rs:558-568 `try_next` -/
def TailsGen.tryNext (t : TailsGen F G2) : Option G2 × TailsGen F G2 :=
  if t.currentIndex ≥ t.size then (none, t)
  else (some (newTail t.currentIndex t.gDash t.gamma), { t with currentIndex := t.currentIndex + 1 })

/-- mod.rs:589-597 `SimpleTailsAccessor::new`: `while let Some(tail) = gen.try_next()? { tails.push(tail) }`.
`fuel` bounds the loop; the accessor is built with `fuel = gen.count() + 1`, and `tails_generator_spec` shows the
loop ends by `None` before the fuel does. -/
def collectFrom : Nat → TailsGen F G2 → List G2 → List G2 × TailsGen F G2
  | 0, t, acc => (acc, t)
  | fuel + 1, t, acc =>
    match t.tryNext with
    | (none, t') => (acc, t')
    | (some x, t') => collectFrom fuel t' (acc ++ [x])

/-- mod.rs:589-597 -/
def collectTails (t : TailsGen F G2) : List G2 := (collectFrom (t.count + 1) t []).1

/-- mod.rs:581-586 `SimpleTailsAccessor::access_tail`: slice indexing panics out of range -/
def accessTail (tails : List G2) (i : Nat) : Res String G2 := Res.unwrap tails[i]?

/-- issuer.rs:1295-1297 `_get_index` -/
def getIndex (m : Overflow) (maxCredNum revIdx : Nat) : Res String Nat := do
  let a ← u32 m (maxCredNum + 1)
  u32 m (a - revIdx)

/-- issuer.rs:960-969: `for i in 1..=max_cred_num { accum += new_tail(_get_index(max,i)) }`, `k` iterations left -/
def initialAccum (m : Overflow) (maxCredNum : Nat) (gDash : G2) (gamma : F) : Nat → G2 → Res String G2
  | 0, acc => .ok acc
  | k + 1, acc => do
    let index ← getIndex m maxCredNum (maxCredNum - k)
    initialAccum m maxCredNum gDash gamma k (acc + newTail index gDash gamma)

/-- issuer.rs:949-979 `_new_revocation_registry` -/
def newRevocationRegistry (m : Overflow) (pk : PubKey G1 G2) (gamma : F) (maxCredNum : Nat) (byDefault : Bool) :
    Res String G2 :=
  if byDefault then initialAccum m maxCredNum pk.gDash gamma maxCredNum 0 else .ok 0

/-- issuer.rs:981-1009 `_new_revocation_registry_keys`, public part `z` -/
def newRevocationRegistryKeys (m : Overflow) (e : G1 →ₗ[F] G2 →ₗ[F] GT) (pk : PubKey G1 G2) (maxCredNum : Nat)
    (gamma : F) : Res String GT := do
  let p ← u32 m (maxCredNum + 1)
  pure ((gamma ^ p) • e pk.g pk.gDash)

/-- issuer.rs:132-173 `new_revocation_registry_def`; `gamma` is the random private key.  Simplification: the caller
passes the revocation part of the credential key (the Rust returns an error if there is none). -/
def newRevocationRegistryDef (m : Overflow) (e : G1 →ₗ[F] G2 →ₗ[F] GT) (pk : PubKey G1 G2) (maxCredNum : Nat)
    (byDefault : Bool) (gamma : F) : Res String (GT × G2 × TailsGen F G2) := do
  let z ← newRevocationRegistryKeys m e pk maxCredNum gamma
  let reg ← newRevocationRegistry m pk gamma maxCredNum byDefault
  let gen ← TailsGen.new m maxCredNum gamma pk.gDash
  pure (z, reg, gen)

/-- issuer.rs:522-559 `revoke_credential`: new registry and published delta -/
def revokeCredential (m : Overflow) (reg : G2) (maxCredNum revIdx : Nat) (tails : List G2) :
    Res String (G2 × Delta G2) := do
  let index ← getIndex m maxCredNum revIdx
  let tail ← accessTail tails index
  let reg' := reg - tail
  pure (reg', { prevAccum := some reg, accum := reg', issued := ∅, revoked := {revIdx} })

/-- issuer.rs:623-661 `recovery_credential` -/
def recoveryCredential (m : Overflow) (reg : G2) (maxCredNum revIdx : Nat) (tails : List G2) :
    Res String (G2 × Delta G2) := do
  let index ← getIndex m maxCredNum revIdx
  let tail ← accessTail tails index
  let reg' := reg + tail
  pure (reg', { prevAccum := some reg, accum := reg', issued := {revIdx}, revoked := ∅ })

/-- issuer.rs:743-748 loop adding the tails of the issued indices (in the set's order) -/
def addTails (m : Overflow) (maxCredNum : Nat) (tails : List G2) : List Nat → G2 → Res String G2
  | [], acc => .ok acc
  | i :: is, acc => do
    let index ← getIndex m maxCredNum i
    let tail ← accessTail tails index
    addTails m maxCredNum tails is (acc + tail)

/-- issuer.rs:749-754 loop subtracting the tails of the revoked indices -/
def subTails (m : Overflow) (maxCredNum : Nat) (tails : List G2) : List Nat → G2 → Res String G2
  | [], acc => .ok acc
  | i :: is, acc => do
    let index ← getIndex m maxCredNum i
    let tail ← accessTail tails index
    subTails m maxCredNum tails is (acc - tail)

/-- issuer.rs:727-772 `update_revocation_registry` -/
def updateRevocationRegistry (m : Overflow) (reg : G2) (maxCredNum : Nat) (issued revoked : Finset Nat)
    (tails : List G2) : Res String (G2 × Delta G2) := do
  let a ← addTails m maxCredNum tails (issued.sort (· ≤ ·)) reg
  let b ← subTails m maxCredNum tails (revoked.sort (· ≤ ·)) a
  pure (b, { prevAccum := some reg, accum := b, issued := issued, revoked := revoked })

/-- issuer.rs:1371-1390, the part of `_new_non_revocation_credential` that touches the registry -/
def registerIssued (m : Overflow) (reg : G2) (maxCredNum revIdx : Nat) (byDefault : Bool) (tails : List G2) :
    Res String (G2 × Option (Delta G2)) := do
  let index ← getIndex m maxCredNum revIdx
  if byDefault then pure (reg, none)
  else do
    let tail ← accessTail tails index
    let reg' := reg + tail
    pure (reg', some { prevAccum := some reg, accum := reg', issued := {revIdx}, revoked := ∅ })

/-- mod.rs:645-653 `NonRevocationCredentialSignature` with its `WitnessSignature` (mod.rs:768-773) inlined as
`sigmaI, uI, wgI` -/
structure NonRevSig (F G1 G2 : Type) where
  sigma : G1
  c : F
  vr : F
  sigmaI : G2
  uI : G2
  wgI : G1
  gI : G1
  i : Nat
  m2 : F

/-- issuer.rs:1299-1411 `_new_non_revocation_credential`; `vr''`, `c` are the random values, `ur` the holder's
blinded secret, `m2` the credential context.  Simplifications: presence checks of the optional revocation parts are
left to the caller; `GroupOrderElement::inverse` is the field inverse (the AMCL routine does not terminate on 0). -/
def newNonRevocationCredential (m : Overflow) (revIdx : Nat) (m2 : F) (ur : G1) (pub : PubKey G1 G2) (priv : PrivKey F)
    (maxCredNum : Nat) (byDefault : Bool) (reg : G2) (gamma : F) (tails : List G2) (vr c : F) :
    Res String (NonRevSig F G1 G2 × G2 × Option (Delta G2)) := do
  let gI := (gamma ^ revIdx) • pub.g
  let sigma := (priv.x + c)⁻¹ • (pub.h0 + m2 • pub.h1 + ur + gI + vr • pub.h2)
  let sigmaI := (priv.sk + gamma ^ revIdx)⁻¹ • pub.gDash
  let uI := (gamma ^ revIdx) • pub.u
  let (reg', delta) ← registerIssued m reg maxCredNum revIdx byDefault tails
  pure ({ sigma := sigma, c := c, vr := vr, sigmaI := sigmaI, uI := uI, wgI := gI, gI := gI, i := revIdx, m2 := m2 },
    reg', delta)

/-- prover.rs:470-490 `_generate_blinded_revocation_credential_secrets`: `ur = h2 * vr'` -/
def blindedRevocationSecret (pub : PubKey G1 G2) (vrPrime : F) : G1 := vrPrime • pub.h2

/-- mod.rs:702 and 741, 753: `max_cred_num + 1 - j + rev_idx` in `u32` -/
def witnessIndex (m : Overflow) (maxCredNum j revIdx : Nat) : Res String Nat := do
  let a ← u32 m (maxCredNum + 1)
  let b ← u32 m (a - j)
  u32 m (b + revIdx)

/-- mod.rs:701-706 and 735-757: loop adding the tails of the indices of a set to a running sum -/
def witnessSum (m : Overflow) (maxCredNum revIdx : Nat) (tails : List G2) : List Nat → G2 → Res String G2
  | [], acc => .ok acc
  | j :: js, acc => do
    let index ← witnessIndex m maxCredNum j revIdx
    let tail ← accessTail tails index
    witnessSum m maxCredNum revIdx tails js (acc + tail)

/-- mod.rs:678-714 `Witness::new` -/
def witnessNew (m : Overflow) (revIdx maxCredNum : Nat) (byDefault : Bool) (delta : Delta G2) (tails : List G2) :
    Res String G2 :=
  let issued := if byDefault then (Finset.Icc 1 maxCredNum).filter (fun i => i ∉ delta.revoked) else delta.issued
  witnessSum m maxCredNum revIdx tails ((issued.erase revIdx).sort (· ≤ ·)) 0

/-- mod.rs:716-764 `Witness::update`.  The `HashSet` iteration order is unspecified; the model iterates in increasing
order, and `witnessSum_perm` shows the order is irrelevant. -/
def witnessUpdate (m : Overflow) (omega : G2) (revIdx maxCredNum : Nat) (delta : Delta G2) (tails : List G2) :
    Res String G2 := do
  let denom ← witnessSum m maxCredNum revIdx tails ((delta.revoked.filter (· ≠ revIdx)).sort (· ≤ ·)) 0
  let num ← witnessSum m maxCredNum revIdx tails ((delta.issued.filter (· ≠ revIdx)).sort (· ≤ ·)) 0
  pure (omega + (num - denom))

/-- prover.rs:779-839 `_test_witness_signature` -/
def testWitnessSignature [DecidableEq GT] (e : G1 →ₗ[F] G2 →ₗ[F] GT) (r : NonRevSig F G1 G2) (pub : PubKey G1 G2)
    (z : GT) (reg : G2) (omega : G2) : Res String Unit :=
  if e r.wgI reg + -(e pub.g omega) ≠ z then .err "Issuer is sending incorrect data"
  else if e (pub.pk + r.gI) r.sigmaI ≠ e pub.g pub.gDash then .err "Issuer is sending incorrect data"
  else if e r.sigma (pub.y + r.c • pub.hCap) ≠ e (pub.h0 + r.m2 • pub.h1 + r.vr • pub.h2 + r.gI) pub.hCap then
    .err "Issuer is sending incorrect data"
  else .ok ()

/-- prover.rs:641-666 `_process_non_revocation_credential`: the first component is the value the signature object is
left with (it is mutated before the checks), the second the result. -/
def processNonRevocationCredential [DecidableEq GT] (e : G1 →ₗ[F] G2 →ₗ[F] GT) (r : NonRevSig F G1 G2) (vrPrime : F)
    (pub : PubKey G1 G2) (z : GT) (reg : G2) (omega : G2) : NonRevSig F G1 G2 × Res String Unit :=
  let r' := { r with vr := vrPrime + r.vr }
  (r', testWitnessSignature e r' pub z reg omega)

/-! ## Registry histories -/

/-- operations of the issuer on a registry -/
inductive Op where
  /-- `sign_credential_with_revoc` for an index -/
  | sign (idx : Nat)
  /-- `revoke_credential` -/
  | revoke (idx : Nat)
  /-- `recovery_credential` -/
  | recover (idx : Nat)
  /-- `update_revocation_registry` -/
  | update (issued revoked : Finset Nat)

/-- one issuer call: new registry and published delta, if any -/
def Op.run (m : Overflow) (maxCredNum : Nat) (byDefault : Bool) (tails : List G2) (reg : G2) :
    Op → Res String (G2 × Option (Delta G2))
  | .sign idx => registerIssued m reg maxCredNum idx byDefault tails
  | .revoke idx => do let (r, d) ← revokeCredential m reg maxCredNum idx tails; pure (r, some d)
  | .recover idx => do let (r, d) ← recoveryCredential m reg maxCredNum idx tails; pure (r, some d)
  | .update I R => do let (r, d) ← updateRevocationRegistry m reg maxCredNum I R tails; pure (r, some d)

/-- a sequence of issuer calls: final registry and the published deltas in order -/
def runOps (m : Overflow) (maxCredNum : Nat) (byDefault : Bool) (tails : List G2) :
    List Op → G2 → Res String (G2 × List (Delta G2))
  | [], reg => .ok (reg, [])
  | op :: ops, reg => do
    let (reg1, d) ← op.run m maxCredNum byDefault tails reg
    let (reg2, ds) ← runOps m maxCredNum byDefault tails ops reg1
    pure (reg2, d.toList ++ ds)

/-- folding `merge` over later deltas -/
def mergeAll [DecidableEq G2] : Delta G2 → List (Delta G2) → Res String (Delta G2)
  | d, [] => .ok d
  | d, d' :: ds => do
    let m ← d.merge d'
    mergeAll m ds

/-- folding `Witness::update` over a list of deltas -/
def updateAll (m : Overflow) (revIdx maxCredNum : Nat) (tails : List G2) : G2 → List (Delta G2) → Res String G2
  | w, [] => .ok w
  | w, d :: ds => do
    let w' ← witnessUpdate m w revIdx maxCredNum d tails
    updateAll m revIdx maxCredNum tails w' ds

end
end Verif.CL.Rev
