import Verif.Common
import Mathlib.Algebra.Field.Basic
import Mathlib.Algebra.Module.Basic
import Mathlib.Data.List.Basic
/-!
# Bulletproofs: transcript and inner product argument (libzmix/bulletproofs_amcl/src/{transcript,ipp}.rs)

`FieldElement` is an arbitrary field `F` (the scalars of the curve), `G1` an `F`-module `V`.  A Merlin transcript is the list of the operations performed
on it; the value of a challenge is an arbitrary function `O` of that list (the bytes of `challenge_bytes` turned into a field element).  The inverse of 0
is 0.  `amcl_wrapper` is not in the repository: its vector operations are modelled by what they document (they return `Err` on vectors of different
lengths, which the callers `unwrap`).
-/
namespace Verif.BP
variable {F V : Type} [Field F] [AddCommGroup V] [Module F V] [DecidableEq F] [DecidableEq V]

/-- errors.rs:8-66 and 115-141: the kinds of errors that the modelled code returns -/
inductive Err where
  | ipp
  | generators (length expected : Nat)
  | verification
  | format
  | missing
  | gadget (description : String)
  | merkleInputs (found expected : Nat)
  | width (width expected : Nat)
  | hashNotFound
  | badWidth (width : Nat)
  | roundConstants (found expected : Nat)
  | mdsRows (found expected : Nat)
  | mdsCols (found expected : Nat)
  deriving DecidableEq, Repr

/-- transcript.rs:12-27 (and `append_u64` of Merlin): an operation on a transcript.  Messages are kept with their label and value: Merlin frames both,
and `to_bytes` of scalars and points is injective. -/
inductive Msg (F V : Type) where
  | domSep (s : String)
  | u64 (label : String) (n : Nat)
  | scalar (label : String) (x : F)
  | point (label : String) (P : V)
  | challenge (label : String)
  deriving DecidableEq

/-- merlin `Transcript` -/
abbrev Transcript (F V : Type) := List (Msg F V)

/-- transcript.rs:30-33 `innerproduct_domain_sep` -/
def ippDomSep (n : Nat) (tr : Transcript F V) : Transcript F V := tr ++ [.domSep "ipp v1", .u64 "n" n]

/-- transcript.rs:51-53 `commit_point` -/
def commitPoint (label : String) (P : V) (tr : Transcript F V) : Transcript F V := tr ++ [.point label P]

/-- transcript.rs:47-49 `commit_scalar` -/
def commitScalar (label : String) (x : F) (tr : Transcript F V) : Transcript F V := tr ++ [.scalar label x]

/-- transcript.rs:55-60 `challenge_scalar`: the value, and the transcript after it -/
def challengeScalar (O : Transcript F V → F) (label : String) (tr : Transcript F V) : F × Transcript F V :=
  (O (tr ++ [.challenge label]), tr ++ [.challenge label])

/-- `FieldElementVector::inner_product` on vectors of the same length -/
def inner (a b : List F) : F := (List.zipWith (· * ·) a b).sum

/-- `FieldElementVector::hadamard_product` on vectors of the same length -/
def hadamard (a b : List F) : List F := List.zipWith (· * ·) a b

/-- `G1Vector::inner_product_var_time_with_ref_vecs`, `multi_scalar_mul_var_time` on vectors of the same length -/
def msm (a : List F) (G : List V) : V := (List.zipWith (· • ·) a G).sum

/-- the same followed by `unwrap`: different lengths panic -/
def msmUnwrap (a : List F) (G : List V) : Res Err V := if a.length = G.length then .ok (msm a G) else .panic

/-- ipp.rs:19-24 `InnerProductArgumentProof` -/
structure IppProof (F V : Type) where
  L : List V
  R : List V
  a : F
  b : F
  deriving DecidableEq

/-- ipp.rs:109-120, 136-147: the exponents of the halves of `G` and `H`: multiplied by the factors in the first round only -/
def withFactors (f : Option (List F)) (a : List F) : List F :=
  match f with
  | some f => hadamard a f
  | none => a

/-- ipp.rs:170-192: the bases for the next round: `xl`, `xr` are the multiplicands of the two halves -/
def foldBases (f : Option (List F × List F)) (xl xr : F) (GL GR : List V) : List V :=
  match f with
  | some (fL, fR) => List.zipWith (fun (g : V × V) (f : F × F) => (xl * f.1) • g.1 + (xr * f.2) • g.2) (GL.zip GR) (fL.zip fR)
  | none => List.zipWith (fun gl gr => xl • gl + xr • gr) GL GR

/-- ipp.rs:94-199: the loop with `k` rounds to go (`n = 2^k`), then 201-206.  All vectors have `2^k` entries (the assertions of `create_ipp` and the
halving), so no `unwrap` of the loop fails.  The factors are there in the first round only. -/
def ippLoop (O : Transcript F V → F) (u : V) :
    Nat → Transcript F V → Option (List F × List F) → List V → List V → List F → List F → IppProof F V × Transcript F V
  | 0, tr, _, _, _, a, b => (⟨[], [], a.headD 0, b.headD 0⟩, tr)
  | k + 1, tr, f, G, H, a, b =>
    let n := 2 ^ k
    let aL := a.take n
    let aR := a.drop n
    let bL := b.take n
    let bR := b.drop n
    let GL := G.take n
    let GR := G.drop n
    let HL := H.take n
    let HR := H.drop n
    let gf := f.map fun f => (f.1.take n, f.1.drop n)
    let hf := f.map fun f => (f.2.take n, f.2.drop n)
    let L := msm (withFactors (gf.map Prod.snd) aL ++ withFactors (hf.map Prod.fst) bR ++ [inner aL bR]) (GR ++ HL ++ [u])
    let R := msm (withFactors (gf.map Prod.fst) aR ++ withFactors (hf.map Prod.snd) bL ++ [inner aR bL]) (GL ++ HR ++ [u])
    let c := challengeScalar O "x" (commitPoint "R" R (commitPoint "L" L tr))
    let x := c.1
    let xInv := x⁻¹
    let a' := List.zipWith (fun l r => l * x + xInv * r) aL aR
    let b' := List.zipWith (fun l r => l * xInv + x * r) bL bR
    let G' := foldBases gf xInv x GL GR
    let H' := foldBases hf x xInv HL HR
    let q := ippLoop O u k c.2 none G' H' a' b'
    (⟨L :: q.1.L, R :: q.1.R, q.1.a, q.1.b⟩, q.2)

/-- ipp.rs:44-207 `create_ipp`: the proof and the transcript after it; a failed assertion is a panic.  (`is_power_of_two` is stated with the binary
logarithm.) -/
def createIpp (O : Transcript F V → F) (tr : Transcript F V) (u : V) (gf hf : List F) (G H : List V) (a b : List F) :
    Res Err (IppProof F V × Transcript F V) :=
  let n := G.length
  if n ≠ 2 ^ Nat.log2 n then .panic
  else if H.length ≠ n then .panic
  else if a.length ≠ n then .panic
  else if b.length ≠ n then .panic
  else if gf.length ≠ n then .panic
  else if hf.length ≠ n then .panic
  else .ok (ippLoop O u (Nat.log2 n) (ippDomSep n tr) (some (gf, hf)) G H a b)

/-- ipp.rs:296-302: the challenges, for the pairs of the two vectors -/
def ippChallenges (O : Transcript F V → F) : Transcript F V → List V → List V → List F × Transcript F V
  | tr, L :: Ls, R :: Rs =>
    let c := challengeScalar O "x" (commitPoint "R" R (commitPoint "L" L tr))
    let q := ippChallenges O c.2 Ls Rs
    (c.1 :: q.1, q.2)
  | tr, _, _ => ([], tr)

/-- ipp.rs:326-338: the rest of the vector `s`, `s` being what is there so far.  `(i as f32).log2() as usize` is modelled by the binary logarithm: the two
agree for `i < 2^21 - 1`; from there on the `f32` result is rounded up to the next integer for some `i`, which is not modelled. -/
def sLoop (lgN : Nat) (sq : List F) : Nat → List F → Res Err (List F)
  | 0, s => .ok s
  | r + 1, s => do
    let i := s.length
    let lgI := Nat.log2 i
    if lgN < 1 + lgI then .panic
    else do
      let x ← Res.unwrap sq[(lgN - 1) - lgI]?
      let p ← Res.unwrap s[i - 2 ^ lgI]?
      sLoop lgN sq r (s ++ [p * x])

/-- ipp.rs:273-341 `verification_scalars`: the squares of the challenges, of their inverses, the vector `s`, and the transcript after it.
`batch_invert` of no element panics. -/
def verificationScalars (O : Transcript F V → F) (L R : List V) (n : Nat) (tr : Transcript F V) :
    Res Err ((List F × List F × List F) × Transcript F V) :=
  let lgN := L.length
  if lgN ≥ 32 then .err .ipp
  else if n ≠ 2 ^ lgN then .err .ipp
  else do
    let c := ippChallenges O (ippDomSep n tr) L R
    if lgN > 0 ∧ c.1 = [] then .panic
    else do
      let prod := if lgN > 0 then (c.1.map (·⁻¹)).prod else 1
      let sq := c.1.map fun x => x * x
      let invSq := c.1.map fun x => x⁻¹ * x⁻¹
      let s ← sLoop lgN sq (n - 1) [prod]
      pure ((sq, invSq, s), c.2)

/-- ipp.rs:211-270 `verify_ipp`.  `verification_scalars(..).unwrap()` turns its error into a panic, and so does a wrong number of bases. -/
def verifyIpp (O : Transcript F V → F) (n : Nat) (tr : Transcript F V) (gf hf : List F) (P u : V) (G H : List V) (a b : F) (L R : List V) :
    Res Err Unit :=
  match verificationScalars O L R n tr with
  | .err _ => .panic
  | .panic => .panic
  | .ok ((sq, invSq, s), _) => do
    let gs := (List.zipWith (fun g s => a * s * g) gf s).take G.length
    let hs := List.zipWith (fun h s => b * s * h) hf s.reverse
    let e ← msmUnwrap ([a * b] ++ gs ++ hs ++ sq.map (fun x => -x) ++ invSq.map (fun x => -x)) ([u] ++ G ++ H ++ L ++ R)
    if e = P then .ok () else .err .ipp

end Verif.BP
