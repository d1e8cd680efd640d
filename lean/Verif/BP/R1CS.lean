import Verif.BP.Ipp
import Mathlib.Data.Nat.Log
/-!
# Bulletproofs: constraint systems (libzmix/bulletproofs_amcl/src/r1cs/{linear_combination,constraint_system,prover,verifier,proof}.rs, utils/vector_poly.rs)

Code that is generic over `ConstraintSystem` (a gadget) is a program `Prog` of calls of the methods of that trait; `runP` executes it on a `Prover`, `runV`
on a `Verifier`.  Random values are arguments.
-/
namespace Verif.BP
variable {F V : Type} [Field F] [AddCommGroup V] [Module F V] [DecidableEq F] [DecidableEq V]

/-- r1cs/linear_combination.rs:12-23 `Variable` -/
inductive Var where
  | committed (i : Nat)
  | left (i : Nat)
  | right (i : Nat)
  | out (i : Nat)
  | one
  deriving DecidableEq, Repr

/-- r1cs/linear_combination.rs:35-37 `LinearCombination` -/
abbrev LC (F : Type) := List (Var × F)

/-- r1cs/linear_combination.rs:74-81 `LinearCombination::from(Variable)` -/
def LC.ofVar (x : Var) : LC F := [(x, 1)]

/-- r1cs/linear_combination.rs:83-89 `LinearCombination::from(FieldElement)` -/
def LC.ofScalar (s : F) : LC F := [(.one, s)]

/-- r1cs/linear_combination.rs:128-139 `FieldElement * LinearCombination` -/
def LC.scale (s : F) (l : LC F) : LC F := l.map fun t => (t.1, t.2 * s)

/-- r1cs/linear_combination.rs:141-150 `-LinearCombination` -/
def LC.neg (l : LC F) : LC F := l.map fun t => (t.1, -t.2)

/-- r1cs/linear_combination.rs:152-159 `LinearCombination + _` -/
def LC.add (l r : LC F) : LC F := l ++ r

/-- r1cs/linear_combination.rs:161-173 `LinearCombination - _` -/
def LC.sub (l r : LC F) : LC F := l ++ r.map fun t => (t.1, -t.2)

/-- A computation that calls the methods of `ConstraintSystem` (r1cs/constraint_system.rs:30-117): `fail` is an error that is passed on with `?`, `panic` a
panic.  `ext` stands for the methods outside that trait: `challenge_scalar` in the second phase, `commit` and `specify_randomized_constraints` in the
first one. -/
inductive Prog (F T R α : Type) where
  | pure (a : α)
  | fail (e : Err)
  | panic
  | multiply (l r : LC F) (k : Var × Var × Var → Prog F T R α)
  | allocate (a : Option F) (k : Var → Prog F T R α)
  | allocMult (a : Option (F × F)) (k : Var × Var × Var → Prog F T R α)
  | constrain (lc : LC F) (k : Unit → Prog F T R α)
  | evalLc (lc : LC F) (k : Option F → Prog F T R α)
  | ext (t : T) (k : R → Prog F T R α)

/-- sequencing of two computations (`;` and `?`) -/
def Prog.bind {T R α β : Type} : Prog F T R α → (α → Prog F T R β) → Prog F T R β
  | .pure a, f => f a
  | .fail e, _ => .fail e
  | .panic, _ => .panic
  | .multiply l r k, f => .multiply l r fun x => (k x).bind f
  | .allocate a k, f => .allocate a fun x => (k x).bind f
  | .allocMult a k, f => .allocMult a fun x => (k x).bind f
  | .constrain lc k, f => .constrain lc fun x => (k x).bind f
  | .evalLc lc k, f => .evalLc lc fun x => (k x).bind f
  | .ext t k, f => .ext t fun x => (k x).bind f

instance {T R : Type} : Monad (Prog F T R) where
  pure := Prog.pure
  bind := Prog.bind

/-- a callback given to `specify_randomized_constraints`: it can ask for challenges, by label -/
abbrev Callback (F : Type) := Prog F String F Unit

/-- what can be done with a `Prover` or `Verifier` in the first phase besides the methods of `ConstraintSystem`; `C` is what `commit` takes -/
inductive Top (F C : Type) where
  | commit (c : C)
  | specify (p : Callback F)

/-- r1cs/prover.rs:39-62 `Prover`, without `g`, `h`, which are passed along -/
structure PState (F V : Type) where
  tr : Transcript F V
  cons : List (LC F)
  aL : List F
  aR : List F
  aO : List F
  v : List F
  vb : List F
  deferred : List (Callback F)
  pending : Option Nat

/-- r1cs/verifier.rs:36-58 `Verifier` -/
structure VState (F V : Type) where
  tr : Transcript F V
  cons : List (LC F)
  numVars : Nat
  V : List V
  deferred : List (Callback F)
  pending : Option Nat

/-- r1cs/prover.rs:90-106 `Prover::new`, transcript.rs:35-37 -/
def PState.new (tr : Transcript F V) : PState F V := ⟨tr ++ [.domSep "r1cs v1"], [], [], [], [], [], [], [], none⟩

/-- r1cs/verifier.rs:103-114 `Verifier::new`, transcript.rs:35-37 -/
def VState.new (tr : Transcript F V) : VState F V := ⟨tr ++ [.domSep "r1cs v1"], [], 0, [], [], none⟩

/-- r1cs/prover.rs:293-299: the value of a variable; an index out of range panics -/
def varVal (aL aR aO v : List F) : Var → Res Err F
  | .left i => Res.unwrap aL[i]?
  | .right i => Res.unwrap aR[i]?
  | .out i => Res.unwrap aO[i]?
  | .committed i => Res.unwrap v[i]?
  | .one => .ok 1

/-- r1cs/prover.rs:289-302 `eval`, from the sum so far -/
def evalFrom (aL aR aO v : List F) : F → LC F → Res Err F
  | sum, [] => .ok sum
  | sum, (x, c) :: t => do
    let val ← varVal aL aR aO v x
    evalFrom aL aR aO v (sum + c * val) t

/-- r1cs/prover.rs:289-302 `eval` -/
def PState.eval (s : PState F V) (lc : LC F) : Res Err F := evalFrom s.aL s.aR s.aO s.v 0 lc

/-- r1cs/prover.rs:716-732 `_allocate_vars` -/
def PState.allocVars (s : PState F V) (l r o : F) : (Var × Var × Var) × PState F V :=
  ((.left s.aL.length, .right s.aR.length, .out s.aO.length), { s with aL := s.aL ++ [l], aR := s.aR ++ [r], aO := s.aO ++ [o] })

/-- r1cs/prover.rs:628-647 `multiply` -/
def PState.multiply (s : PState F V) (l r : LC F) : Res Err ((Var × Var × Var) × PState F V) := do
  let lv ← s.eval l
  let rv ← s.eval r
  let q := s.allocVars lv rv (lv * rv)
  pure (q.1, { q.2 with cons := q.2.cons ++ [l ++ [(q.1.1, -1)]] ++ [r ++ [(q.1.2.1, -1)]] })

/-- r1cs/prover.rs:649-668 `allocate` -/
def PState.allocate (s : PState F V) : Option F → Res Err (Var × PState F V)
  | none => .err .missing
  | some x =>
    match s.pending with
    | none => .ok (.left s.aL.length, { s with pending := some s.aL.length, aL := s.aL ++ [x], aR := s.aR ++ [0], aO := s.aO ++ [0] })
    | some i =>
      if i < s.aR.length then do
        let aR := s.aR.set i x
        let l ← Res.unwrap s.aL[i]?
        let r ← Res.unwrap aR[i]?
        if i < s.aO.length then .ok (.right i, { s with pending := none, aR := aR, aO := s.aO.set i (l * r) }) else .panic
      else .panic

/-- r1cs/prover.rs:670-678 `allocate_multiplier` -/
def PState.allocMult (s : PState F V) : Option (F × F) → Res Err ((Var × Var × Var) × PState F V)
  | none => .err .missing
  | some (l, r) => .ok (s.allocVars l r (l * r))

/-- run a computation on a `Prover` (r1cs/prover.rs:625-712): `ext` is the implementation of the other methods.  r1cs/prover.rs:680-684 `constrain`,
694-696 `evaluate_lc`. -/
def Prog.runP {T R α : Type} (ext : T → PState F V → Res Err (R × PState F V)) : Prog F T R α → PState F V → Res Err (α × PState F V)
  | .pure a, s => .ok (a, s)
  | .fail e, _ => .err e
  | .panic, _ => .panic
  | .multiply l r k, s => do
    let q ← s.multiply l r
    (k q.1).runP ext q.2
  | .allocate a k, s => do
    let q ← s.allocate a
    (k q.1).runP ext q.2
  | .allocMult a k, s => do
    let q ← s.allocMult a
    (k q.1).runP ext q.2
  | .constrain lc k, s => (k ()).runP ext { s with cons := s.cons ++ [lc] }
  | .evalLc lc k, s => do
    let x ← s.eval lc
    (k (some x)).runP ext s
  | .ext t k, s => do
    let q ← ext t s
    (k q.1).runP ext q.2

/-- r1cs/prover.rs:780-784 `challenge_scalar` of a `RandomizingProver` -/
def PState.challenge (O : Transcript F V → F) (label : String) (s : PState F V) : Res Err (F × PState F V) :=
  let c := challengeScalar O label s.tr
  .ok (c.1, { s with tr := c.2 })

/-- r1cs/prover.rs:125-135 `commit`: the commitment and the prover after it -/
def PState.commit (g h : V) (s : PState F V) (v vb : F) : V × PState F V :=
  let C := v • g + vb • h
  (C, { s with v := s.v ++ [v], vb := s.vb ++ [vb], tr := commitPoint "V" C s.tr })

/-- the methods of the first phase: r1cs/prover.rs:125-135 `commit`, 686-692 `specify_randomized_constraints` (its result is not used) -/
def PState.top (g h : V) : Top F (F × F) → PState F V → Res Err (Var × PState F V)
  | .commit (v, vb), s => .ok (.committed s.v.length, (s.commit g h v vb).2)
  | .specify p, s => .ok (.one, { s with deferred := s.deferred ++ [p] })

/-- r1cs/prover.rs:320-322: the callbacks, one after the other -/
def runCallbacksP (O : Transcript F V → F) : List (Callback F) → PState F V → Res Err (PState F V)
  | [], s => .ok s
  | p :: ps, s => do
    let q ← p.runP (PState.challenge O) s
    runCallbacksP O ps q.2

/-- r1cs/prover.rs:306-325 `create_randomized_constraints`, transcript.rs:39-45 -/
def PState.createRandomized (O : Transcript F V → F) (s : PState F V) : Res Err (PState F V) :=
  if s.deferred.length = 0 then .ok { s with pending := none, tr := s.tr ++ [.domSep "r1cs-1phase"] }
  else runCallbacksP O s.deferred { s with pending := none, tr := s.tr ++ [.domSep "r1cs-2phase"], deferred := [] }

/-- r1cs/verifier.rs:547-557 `_allocate_vars` -/
def VState.allocVars (s : VState F V) : (Var × Var × Var) × VState F V :=
  ((.left s.numVars, .right s.numVars, .out s.numVars), { s with numVars := s.numVars + 1 })

/-- r1cs/verifier.rs:472-486 `multiply` -/
def VState.multiply (s : VState F V) (l r : LC F) : (Var × Var × Var) × VState F V :=
  let q := s.allocVars
  (q.1, { q.2 with cons := q.2.cons ++ [l ++ [(q.1.1, -1)]] ++ [r ++ [(q.1.2.1, -1)]] })

/-- r1cs/verifier.rs:488-501 `allocate` -/
def VState.allocate (s : VState F V) : Var × VState F V :=
  match s.pending with
  | none => (.left s.numVars, { s with numVars := s.numVars + 1, pending := some s.numVars })
  | some i => (.right i, { s with pending := none })

/-- run a computation on a `Verifier` (r1cs/verifier.rs:469-543): 503-508 `allocate_multiplier`, 510-515 `constrain`, 525-527 `evaluate_lc` -/
def Prog.runV {T R α : Type} (ext : T → VState F V → Res Err (R × VState F V)) : Prog F T R α → VState F V → Res Err (α × VState F V)
  | .pure a, s => .ok (a, s)
  | .fail e, _ => .err e
  | .panic, _ => .panic
  | .multiply l r k, s => (k (s.multiply l r).1).runV ext (s.multiply l r).2
  | .allocate _ k, s => (k s.allocate.1).runV ext s.allocate.2
  | .allocMult _ k, s => (k s.allocVars.1).runV ext s.allocVars.2
  | .constrain lc k, s => (k ()).runV ext { s with cons := s.cons ++ [lc] }
  | .evalLc _ k, s => (k none).runV ext s
  | .ext t k, s => do
    let q ← ext t s
    (k q.1).runV ext q.2

/-- r1cs/verifier.rs:605-609 `challenge_scalar` of a `RandomizingVerifier` -/
def VState.challenge (O : Transcript F V → F) (label : String) (s : VState F V) : Res Err (F × VState F V) :=
  let c := challengeScalar O label s.tr
  .ok (c.1, { s with tr := c.2 })

/-- the methods of the first phase: r1cs/verifier.rs:130-138 `commit`, 517-523 `specify_randomized_constraints` (its result is not used) -/
def VState.top : Top F V → VState F V → Res Err (Var × VState F V)
  | .commit C, s => .ok (.committed s.V.length, { s with V := s.V ++ [C], tr := commitPoint "V" C s.tr })
  | .specify p, s => .ok (.one, { s with deferred := s.deferred ++ [p] })

/-- r1cs/verifier.rs:266-268: the callbacks, one after the other -/
def runCallbacksV (O : Transcript F V → F) : List (Callback F) → VState F V → Res Err (VState F V)
  | [], s => .ok s
  | p :: ps, s => do
    let q ← p.runV (VState.challenge O) s
    runCallbacksV O ps q.2

/-- r1cs/verifier.rs:252-271 `create_randomized_constraints`, transcript.rs:39-45 -/
def VState.createRandomized (O : Transcript F V → F) (s : VState F V) : Res Err (VState F V) :=
  if s.deferred.length = 0 then .ok { s with pending := none, tr := s.tr ++ [.domSep "r1cs-1phase"] }
  else runCallbacksV O s.deferred { s with pending := none, tr := s.tr ++ [.domSep "r1cs-2phase"], deferred := [] }

/-- the weights `wL`, `wR`, `wO`, `wV` and `wc` -/
structure Weights (F : Type) where
  wL : List F
  wR : List F
  wO : List F
  wV : List F
  wc : F

/-- `w[i] += c`: an index out of range panics -/
def addAt (w : List F) (i : Nat) (c : F) : Res Err (List F) :=
  if i < w.length then .ok (w.modify i (· + c)) else .panic

/-- r1cs/verifier.rs:176-194: the terms of a constraint, `e` is the power of `z` -/
def flatTerms (e : F) : LC F → Weights F → Res Err (Weights F)
  | [], W => .ok W
  | (.left i, c) :: t, W => do flatTerms e t { W with wL := ← addAt W.wL i (e * c) }
  | (.right i, c) :: t, W => do flatTerms e t { W with wR := ← addAt W.wR i (e * c) }
  | (.out i, c) :: t, W => do flatTerms e t { W with wO := ← addAt W.wO i (e * c) }
  | (.committed i, c) :: t, W => do flatTerms e t { W with wV := ← addAt W.wV i (-(e * c)) }
  | (.one, c) :: t, W => flatTerms e t { W with wc := W.wc - e * c }

/-- r1cs/verifier.rs:175-196: the constraints -/
def flatLoop (z : F) : F → List (LC F) → Weights F → Res Err (Weights F)
  | _, [], W => .ok W
  | e, lc :: t, W => do
    let W ← flatTerms e lc W
    flatLoop z (e * z) t W

/-- r1cs/prover.rs:148-190 and r1cs/verifier.rs:155-199 `flattened_constraints`: `n` multipliers, `m` commitments.  The prover's does the same without
`wc`, which it does not use. -/
def flatten (n m : Nat) (cons : List (LC F)) (z : F) : Res Err (Weights F) :=
  flatLoop z z cons ⟨List.replicate n 0, List.replicate n 0, List.replicate n 0, List.replicate m 0, 0⟩

/-- `l[i..j]` -/
def slice {α : Type} (l : List α) (i j : Nat) : Res Err (List α) :=
  if i ≤ j ∧ j ≤ l.length then .ok ((l.drop i).take (j - i)) else .panic

/-- `commit_to_field_element_vectors(..).unwrap()` of amcl_wrapper -/
def commitVectors (G H : List V) (h : V) (a b : List F) (r : F) : Res Err V := do
  let p ← msmUnwrap a G
  let q ← msmUnwrap b H
  pure (p + q + r • h)

/-- `FieldElementVector::new_vandermonde_vector` -/
def powers (y : F) (n : Nat) : List F := (List.range n).map fun i => y ^ i

/-- `usize::next_power_of_two` -/
def nextPow2 (n : Nat) : Nat := 2 ^ Nat.clog 2 n

/-- utils/vector_poly.rs:8-13 `VecPoly3` -/
structure VecPoly3 (F : Type) where
  c0 : List F
  c1 : List F
  c2 : List F
  c3 : List F

/-- utils/vector_poly.rs:16-23 `Poly6` -/
structure Poly6 (F : Type) where
  t1 : F
  t2 : F
  t3 : F
  t4 : F
  t5 : F
  t6 : F

/-- utils/vector_poly.rs:40-58 `special_inner_product`, on vectors of the same length -/
def specialInner (l r : VecPoly3 F) : Poly6 F :=
  ⟨inner l.c1 r.c0, inner l.c1 r.c1 + inner l.c2 r.c0, inner l.c2 r.c1 + inner l.c3 r.c0, inner l.c1 r.c3 + inner l.c3 r.c1, inner l.c2 r.c3,
    inner l.c3 r.c3⟩

/-- utils/vector_poly.rs:61-69 `VecPoly3::eval`, on vectors of the same length -/
def VecPoly3.eval (p : VecPoly3 F) (x : F) : List F :=
  List.zipWith (fun a b => a + x * b) p.c0 (List.zipWith (fun a b => a + x * b) p.c1 (List.zipWith (fun a b => a + x * b) p.c2 p.c3))

/-- utils/vector_poly.rs:73-80 `Poly6::eval` -/
def Poly6.eval (p : Poly6 F) (x : F) : F := x * (p.t1 + x * (p.t2 + x * (p.t3 + x * (p.t4 + x * (p.t5 + x * p.t6)))))

/-- r1cs/proof.rs:26-58 `R1CSProof` -/
structure R1CSProof (F V : Type) where
  AI1 : V
  AO1 : V
  S1 : V
  AI2 : V
  AO2 : V
  S2 : V
  T1 : V
  T3 : V
  T4 : V
  T5 : V
  T6 : V
  tx : F
  txb : F
  eb : F
  ipp : IppProof F V

/-- the random values of `prove`: r1cs/prover.rs:346-352, 403-419, 509-513 (vectors are given by functions) -/
structure Rand (F : Type) where
  i1 : F
  o1 : F
  s1 : F
  sL1 : Nat → F
  sR1 : Nat → F
  i2 : F
  o2 : F
  s2 : F
  sL2 : Nat → F
  sR2 : Nat → F
  t1 : F
  t3 : F
  t4 : F
  t5 : F
  t6 : F

/-- `FieldElementVector::random(n)` -/
def randVec (n : Nat) (f : Nat → F) : List F := (List.range n).map f

/-- r1cs/prover.rs:476-505: `l_poly` -/
def lPoly (aL aO sL wR yInv : List F) (n : Nat) : VecPoly3 F :=
  ⟨List.replicate n 0, List.zipWith (· + ·) aL (List.zipWith (· * ·) yInv wR), aO, sL⟩

/-- r1cs/prover.rs:478-505: `r_poly` -/
def rPoly (aR sR wL wO yPow : List F) (n : Nat) : VecPoly3 F :=
  ⟨List.zipWith (· - ·) wO yPow, List.zipWith (· + ·) (List.zipWith (· * ·) yPow aR) wL, List.replicate n 0, List.zipWith (· * ·) yPow sR⟩

/-- r1cs/prover.rs:403-447: the blindings and commitments of the second phase: none if no multiplier was added -/
def secondPhase (ρ : Rand F) (s : PState F V) (n1 : Nat) (G H : List V) (h : V) : Res Err ((F × F × F) × (V × V × V)) :=
  let n := s.aL.length
  let n2 := n - n1
  if n2 > 0 then do
    let G2 ← slice G n1 n
    let H2 ← slice H n1 n
    let aL2 := s.aL.drop n1
    let aR2 := s.aR.drop n1
    let aO2 := s.aO.drop n1
    let AI2 ← commitVectors G2 H2 h aL2 aR2 ρ.i2
    let AO2 ← msmUnwrap aO2 G2
    let S2 ← commitVectors G2 H2 h (randVec n2 ρ.sL2) (randVec n2 ρ.sR2) ρ.s2
    pure ((ρ.i2, ρ.o2, ρ.s2), (AI2, AO2 + ρ.o2 • h, S2))
  else .ok ((0, 0, 0), (0, 0, 0))

/-- r1cs/prover.rs:328-614 `prove`, from 453 on: `s` is the prover after the second phase, with `A_I2`, `A_O2`, `S2` on the transcript -/
def proveRest (O : Transcript F V → F) (g h : V) (ρ : Rand F) (s : PState F V) (n1 : Nat) (G H : List V) (AI1 AO1 S1 : V)
    (b2 : (F × F × F) × (V × V × V)) : Res Err (R1CSProof F V × PState F V) := do
  let n := s.aL.length
  let n2 := n - n1
  let pn := nextPow2 n
  let pad := pn - n
  let cy := challengeScalar O "y" s.tr
  let cz := challengeScalar O "z" cy.2
  let y := cy.1
  let z := cz.1
  let W ← flatten n s.v.length s.cons z
  let yInv := powers y⁻¹ pn
  let yPow := powers y n
  let sL := randVec n1 ρ.sL1 ++ randVec n2 ρ.sL2
  let sR := randVec n1 ρ.sR1 ++ randVec n2 ρ.sR2
  let l := lPoly s.aL s.aO sL W.wR yInv n
  let r := rPoly s.aR sR W.wL W.wO yPow n
  let t := specialInner l r
  let T1 := t.t1 • g + ρ.t1 • h
  let T3 := t.t3 • g + ρ.t3 • h
  let T4 := t.t4 • g + ρ.t4 • h
  let T5 := t.t5 • g + ρ.t5 • h
  let T6 := t.t6 • g + ρ.t6 • h
  let trT := commitPoint "T_6" T6 (commitPoint "T_5" T5 (commitPoint "T_4" T4 (commitPoint "T_3" T3 (commitPoint "T_1" T1 cz.2))))
  let cu := challengeScalar O "u" trT
  let cx := challengeScalar O "x" cu.2
  let u := cu.1
  let x := cx.1
  let tb : Poly6 F := ⟨ρ.t1, inner W.wV s.vb, ρ.t3, ρ.t4, ρ.t5, ρ.t6⟩
  let tx := t.eval x
  let txb := tb.eval x
  let lv := l.eval x ++ List.replicate pad 0
  let rv := r.eval x ++ (List.range pad).map fun i => -(y ^ (n + i))
  let ib := ρ.i1 + u * b2.1.1
  let ob := ρ.o1 + u * b2.1.2.1
  let sb := ρ.s1 + u * b2.1.2.2
  let eb := x * (ib + x * (ob + x * sb))
  let trE := commitScalar "e_blinding" eb (commitScalar "t_x_blinding" txb (commitScalar "t_x" tx cx.2))
  let cw := challengeScalar O "w" trE
  let Q := cw.1 • g
  let gf := List.replicate n1 (1 : F) ++ List.replicate (n2 + pad) u
  let hf := List.zipWith (· * ·) yInv gf
  let Gp ← slice G 0 pn
  let Hp ← slice H 0 pn
  let ipp ← createIpp O cw.2 Q gf hf Gp Hp lv rv
  pure (⟨AI1, AO1, S1, b2.2.1, b2.2.2.1, b2.2.2.2, T1, T3, T4, T5, T6, tx, txb, eb, ipp.1⟩, { s with tr := ipp.2 })

/-- r1cs/prover.rs:328-614 `prove`: the proof, and the state of the prover at the end (which is dropped, but for the transcript) -/
def prove (O : Transcript F V → F) (g h : V) (ρ : Rand F) (s : PState F V) (G H : List V) : Res Err (R1CSProof F V × PState F V) := do
  let tr := s.tr ++ [.u64 "m" s.v.length]
  let n1 := s.aL.length
  if G.length < n1 then .err (.generators G.length n1)
  else do
    let G1 ← slice G 0 n1
    let H1 ← slice H 0 n1
    let AI1 ← commitVectors G1 H1 h s.aL s.aR ρ.i1
    let AO1' ← msmUnwrap s.aO G1
    let AO1 := AO1' + ρ.o1 • h
    let S1 ← commitVectors G1 H1 h (randVec n1 ρ.sL1) (randVec n1 ρ.sR1) ρ.s1
    let s ← PState.createRandomized O { s with tr := commitPoint "S1" S1 (commitPoint "A_O1" AO1 (commitPoint "A_I1" AI1 tr)) }
    let pn := nextPow2 s.aL.length
    if G.length < pn then .err (.generators G.length pn)
    else do
      let b2 ← secondPhase ρ s n1 G H h
      let tr2 := commitPoint "S2" b2.2.2.2 (commitPoint "A_O2" b2.2.2.1 (commitPoint "A_I2" b2.2.1 s.tr))
      proveRest O g h ρ { s with tr := tr2 } n1 G H AI1 AO1 S1 b2

/-- the challenges of the verifier -/
structure Chal (F : Type) where
  y : F
  z : F
  u : F
  x : F
  w : F

/-- r1cs/verifier.rs:312-334: the challenges, and the transcript after them -/
def verifierChallenges (O : Transcript F V → F) (p : R1CSProof F V) (tr : Transcript F V) : Chal F × Transcript F V :=
  let tr := commitPoint "S2" p.S2 (commitPoint "A_O2" p.AO2 (commitPoint "A_I2" p.AI2 tr))
  let cy := challengeScalar O "y" tr
  let cz := challengeScalar O "z" cy.2
  let tr := commitPoint "T_6" p.T6 (commitPoint "T_5" p.T5 (commitPoint "T_4" p.T4 (commitPoint "T_3" p.T3 (commitPoint "T_1" p.T1 cz.2))))
  let cu := challengeScalar O "u" tr
  let cx := challengeScalar O "x" cu.2
  let tr := commitScalar "e_blinding" p.eb (commitScalar "t_x_blinding" p.txb (commitScalar "t_x" p.tx cx.2))
  let cw := challengeScalar O "w" tr
  (⟨cy.1, cz.1, cu.1, cx.1, cw.1⟩, cw.2)

/-- r1cs/verifier.rs:374-441: the scalars of the final check; `ipp` are the results of `verification_scalars` -/
def verifierScalars (c : Chal F) (n n1 : Nat) (W : Weights F) (p : R1CSProof F V) (r : F) (ipp : List F × List F × List F) : List F :=
  let pn := nextPow2 n
  let pad := pn - n
  let a := p.ipp.a
  let b := p.ipp.b
  let x := c.x
  let yInv := powers c.y⁻¹ pn
  let yInvWR := List.zipWith (· * ·) W.wR yInv ++ List.replicate pad 0
  let delta := inner (yInvWR.take n) W.wL
  let us := List.replicate n1 (1 : F) ++ List.replicate (n - n1 + pad) c.u
  let s := ipp.2.2
  let gs := List.zipWith (fun (q : F × F) s => q.2 * (x * q.1 - a * s)) (yInvWR.zip us) (s.take pn)
  let hs := List.zipWith (fun (q : (F × F) × F) (t : F × F) => q.1.2 * (q.1.1 * (x * t.1 + t.2 - b * q.2) - 1))
    ((yInv.zip us).zip (s.reverse.take pn)) ((W.wL ++ List.replicate pad 0).zip (W.wO ++ List.replicate pad 0))
  let xx := x * x
  let xxx := x * xx
  let w := c.w * (p.tx - a * b) + r * (xx * (W.wc + delta) - p.tx)
  [x, xx, xxx, c.u * x, c.u * xx, c.u * xxx] ++ W.wV.map (fun v => v * (r * xx)) ++
    [r * x, r * xxx, r * xxx * x, r * xxx * x * x, r * xxx * x * x * x] ++ [w, -(p.eb + r * p.txb)] ++ gs ++ hs ++ ipp.1 ++ ipp.2.1

/-- r1cs/verifier.rs:296-465: the rest of `verify`: `s` is the verifier after the second phase, `n1` the number of multipliers of the first one -/
def verifyRest (O : Transcript F V → F) (s : VState F V) (n1 : Nat) (p : R1CSProof F V) (g h : V) (G H : List V) (r : F) : Res Err Unit :=
  let n := s.numVars
  let pn := nextPow2 n
  if G.length < pn then .err (.generators G.length pn)
  else do
    let c := verifierChallenges O p s.tr
    let W ← flatten n s.V.length s.cons c.1.z
    match verificationScalars O p.ipp.L p.ipp.R pn c.2 with
    | .err _ => .err .verification
    | .panic => .panic
    | .ok (ipp, _) => do
      let Gp ← slice G 0 pn
      let Hp ← slice H 0 pn
      let res ← msmUnwrap (verifierScalars c.1 n n1 W p r ipp)
        ([p.AI1, p.AO1, p.S1, p.AI2, p.AO2, p.S2] ++ s.V ++ [p.T1, p.T3, p.T4, p.T5, p.T6] ++ [g, h] ++ Gp ++ Hp ++ p.ipp.L ++ p.ipp.R)
      if res = 0 then .ok () else .err .verification

/-- r1cs/verifier.rs:274-466 `verify`; `r` is the random value of line 404 -/
def verify (O : Transcript F V → F) (s : VState F V) (p : R1CSProof F V) (g h : V) (G H : List V) (r : F) : Res Err Unit := do
  let tr := s.tr ++ [.u64 "m" s.V.length]
  let s' ← VState.createRandomized O { s with tr := commitPoint "S1" p.S1 (commitPoint "A_O1" p.AO1 (commitPoint "A_I1" p.AI1 tr)) }
  verifyRest O s' s.numVars p g h G H r

end Verif.BP
