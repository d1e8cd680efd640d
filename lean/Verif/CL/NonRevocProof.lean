import Verif.CL.Revocation
/-!
# Model of the non-revocation proof of the CL scheme
(libursa/src/cl/mod.rs, libursa/src/cl/helpers.rs, libursa/src/cl/prover.rs, libursa/src/cl/verifier.rs)

Same conventions as `Verif.CL.Revocation`: all groups are written additively, `e` is the pairing.
-/
namespace Verif.CL.Rev

open Verif

/-- mod.rs:1182-1197 `NonRevocProofXList` -/
structure XList (F : Type) where
  rho : F
  r : F
  r' : F
  r'' : F
  r''' : F
  o : F
  o' : F
  m : F
  m' : F
  t : F
  t' : F
  m2 : F
  s : F
  c : F

/-- mod.rs:1200-1217 `as_list` -/
def XList.asList {F : Type} (x : XList F) : List F :=
  [x.rho, x.o, x.c, x.o', x.m, x.m', x.t, x.t', x.m2, x.s, x.r, x.r', x.r'', x.r''']

/-- mod.rs:1219-1236 `from_list`: slice indexing panics on a short list -/
def XList.fromList {F : Type} (l : List F) : Res String (XList F) := do
  let rho ← Res.unwrap l[0]?
  let r ← Res.unwrap l[10]?
  let r' ← Res.unwrap l[11]?
  let r'' ← Res.unwrap l[12]?
  let r''' ← Res.unwrap l[13]?
  let o ← Res.unwrap l[1]?
  let o' ← Res.unwrap l[3]?
  let m ← Res.unwrap l[4]?
  let m' ← Res.unwrap l[5]?
  let t ← Res.unwrap l[6]?
  let t' ← Res.unwrap l[7]?
  let m2 ← Res.unwrap l[8]?
  let s ← Res.unwrap l[9]?
  let c ← Res.unwrap l[2]?
  pure ⟨rho, r, r', r'', r''', o, o', m, m', t, t', m2, s, c⟩

/-- mod.rs:1241-1249 `NonRevocProofCList` -/
structure CList (G1 G2 : Type) where
  e : G1
  d : G1
  a : G1
  g : G1
  w : G2
  s : G2
  u : G2

/-- mod.rs:1266-1275 `NonRevocProofTauList` -/
@[ext] structure TauList (G1 GT : Type) where
  t1 : G1
  t2 : G1
  t3 : GT
  t4 : GT
  t5 : G1
  t6 : G1
  t7 : GT
  t8 : GT

section
variable {F G1 G2 GT : Type} [Field F] [AddCommGroup G1] [Module F G1] [AddCommGroup G2] [Module F G2]
  [AddCommGroup GT] [Module F GT]

/-- helpers.rs:547-589 `create_tau_list_expected_values` -/
def tauExpected (e : G1 →ₗ[F] G2 →ₗ[F] GT) (pub : PubKey G1 G2) (acc : G2) (z : GT) (p : CList G1 G2) : TauList G1 GT where
  t1 := p.e
  t2 := 0
  t3 := e (pub.h0 + p.g) pub.hCap + -(e p.a pub.y)
  t4 := e p.g acc + -(e pub.g p.w + z)
  t5 := p.d
  t6 := 0
  t7 := e (pub.pk + p.g) p.s + -(e pub.g pub.gDash)
  t8 := e p.g pub.u + -(e pub.g p.u)

/-- helpers.rs:591-665 `create_tau_list_values`.  The replacement of a `t2`/`t6` at infinity by `PointG1::new_inf()` only
normalises the internal representation. -/
def tauValues (e : G1 →ₗ[F] G2 →ₗ[F] GT) (pub : PubKey G1 G2) (acc : G2) (x : XList F) (p : CList G1 G2) : TauList G1 GT where
  t1 := x.rho • pub.h + x.o • pub.htilde
  t2 := x.c • p.e + (-x.m) • pub.h + (-x.t) • pub.htilde
  t3 := x.c • e p.a pub.hCap + x.r • e pub.htilde pub.hCap +
    -(x.rho • e pub.htilde pub.y + x.m • e pub.htilde pub.hCap + x.m2 • e pub.h1 pub.hCap + x.s • e pub.h2 pub.hCap)
  t4 := x.r • e pub.htilde acc + x.r' • e (-pub.g) pub.hCap
  t5 := x.r • pub.g + x.o' • pub.htilde
  t6 := x.r'' • p.d + (-x.m') • pub.g + (-x.t') • pub.htilde
  t7 := x.r'' • e (pub.pk + p.g) pub.hCap + (-x.m') • e pub.htilde pub.hCap + x.r • e pub.htilde p.s
  t8 := x.r • e pub.htilde pub.u + x.r''' • e (-pub.g) pub.hCap

/-- prover.rs:1743-1785 `_gen_c_list_params`; the seven random elements are arguments -/
def genCListParams (sig : NonRevSig F G1 G2) (rho r r' r'' r''' o o' : F) : XList F where
  rho := rho
  r := r
  r' := r'
  r'' := r''
  r''' := r'''
  o := o
  o' := o'
  m := rho * sig.c
  m' := r * r''
  t := o * sig.c
  t' := o' * r''
  m2 := sig.m2
  s := sig.vr
  c := sig.c

/-- prover.rs:1787-1841 `_create_c_list_values` -/
def createCListValues (sig : NonRevSig F G1 G2) (x : XList F) (pub : PubKey G1 G2) (omega : G2) : CList G1 G2 where
  e := x.rho • pub.h + x.o • pub.htilde
  d := x.r • pub.g + x.o' • pub.htilde
  a := sig.sigma + x.rho • pub.htilde
  g := sig.gI + x.r • pub.htilde
  w := omega + x.r' • pub.hCap
  s := sig.sigmaI + x.r'' • pub.hCap
  u := sig.uI + x.r''' • pub.hCap

/-- mod.rs:1115-1120 `NonRevocInitProof` -/
structure NonRevocInit (F G1 G2 GT : Type) where
  cParams : XList F
  tauParams : XList F
  cList : CList G1 G2
  tauList : TauList G1 GT

/-- prover.rs:1277-1310 `_init_non_revocation_proof`; the random elements are arguments (`tau` is the random list of
`_gen_tau_list_params`, prover.rs:1843-1868) -/
def initNonRevocProof (e : G1 →ₗ[F] G2 →ₗ[F] GT) (sig : NonRevSig F G1 G2) (acc : G2) (pub : PubKey G1 G2) (omega : G2)
    (rho r r' r'' r''' o o' : F) (tau : XList F) : NonRevocInit F G1 G2 GT :=
  let cp := genCListParams sig rho r r' r'' r''' o o'
  let cl := createCListValues sig cp pub omega
  { cParams := cp, tauParams := tau, cList := cl, tauList := tauValues e pub acc tau cl }

/-- prover.rs:1870-1903 `_finalize_non_revocation_proof`; `ch` is the challenge as a group order element -/
def finalizeNonRevocProof (ini : NonRevocInit F G1 G2 GT) (ch : F) : Res String (XList F × CList G1 G2) := do
  let xs := (ini.tauParams.asList.zip ini.cParams.asList).map (fun (x, y) => x + -(ch * y))
  let x ← XList.fromList xs
  pure (x, ini.cList)

/-- verifier.rs:583-641 `_verify_non_revocation_proof`: the list the verifier feeds to the hash -/
def verifyNonRevocProof (e : G1 →ₗ[F] G2 →ₗ[F] GT) (pub : PubKey G1 G2) (acc : G2) (z : GT) (ch : F)
    (proof : XList F × CList G1 G2) : TauList G1 GT :=
  let ex := tauExpected e pub acc z proof.2
  let ca := tauValues e pub acc proof.1 proof.2
  { t1 := ch • ex.t1 + ca.t1, t2 := ch • ex.t2 + ca.t2, t3 := ch • ex.t3 + ca.t3, t4 := ch • ex.t4 + ca.t4,
    t5 := ch • ex.t5 + ca.t5, t6 := ch • ex.t6 + ca.t6, t7 := ch • ex.t7 + ca.t7, t8 := ch • ex.t8 + ca.t8 }

end
end Verif.CL.Rev
