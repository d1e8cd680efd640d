import Verif.BP.R1CS
/-!
# Bulletproofs: gadgets (libzmix/bulletproofs_amcl/src/r1cs/gadgets)

Every gadget is a computation `Prog` that the prover and the verifier execute; the prover's quantities carry their values.  Random values are arguments.
`FieldElement::from(u64)` is the cast of a natural number, `rep` the canonical representative of a field element (`to_bignum`).  Arithmetic on `u64` that
underflows panics (a build with overflow checks).
-/
namespace Verif.BP
variable {F V : Type} [Field F] [AddCommGroup V] [Module F V] [DecidableEq F] [DecidableEq V]
variable {T R : Type}

/-- r1cs/constraint_system.rs:36-52 `multiply` -/
def csMultiply (l r : LC F) : Prog F T R (Var × Var × Var) := .multiply l r .pure

/-- r1cs/constraint_system.rs:54-64 `allocate` -/
def csAllocate (a : Option F) : Prog F T R Var := .allocate a .pure

/-- r1cs/constraint_system.rs:66-76 `allocate_multiplier` -/
def csAllocMult (a : Option (F × F)) : Prog F T R (Var × Var × Var) := .allocMult a .pure

/-- r1cs/constraint_system.rs:78-82 `constrain` -/
def csConstrain (lc : LC F) : Prog F T R Unit := .constrain lc .pure

/-- r1cs/constraint_system.rs:107-108 `evaluate_lc` -/
def csEvalLc (lc : LC F) : Prog F T R (Option F) := .evalLc lc .pure

/-- r1cs/prover.rs:698-711 and r1cs/verifier.rs:529-542 `allocate_single` -/
def csAllocSingle (a : Option F) : Prog F T R (Var × Option Var) := .allocate a fun
  | .left i => .pure (.left i, none)
  | .right i => .pure (.right i, some (.out i))
  | _ => .fail .format

/-- `Prover::commit`, with the commitment: r1cs/prover.rs:125-135 -/
def commitP (g h : V) (v vb : F) : Prog F (Top F (F × F)) Var (V × Var) := .ext (.commit (v, vb)) fun x => .pure (v • g + vb • h, x)

/-- `Verifier::commit`: r1cs/verifier.rs:130-138 -/
def commitV (C : V) : Prog F (Top F V) Var Var := .ext (.commit C) .pure

/-- `verifier.commit(commitments.remove(0))`: the variable and the commitments that remain; `remove` panics if there is none -/
def commitFirst : List V → Prog F (Top F V) Var (Var × List V)
  | [] => .panic
  | C :: Cs => do
    let x ← commitV C
    pure (x, Cs)

/-- r1cs/linear_combination.rs:25-29 `AllocatedQuantity` -/
structure Quantity (F : Type) where
  var : Var
  asg : Option F

/-- errors.rs:202-215 `check_for_blindings_or_rng!`, and then `blinding.unwrap_or_else(|| random_using_rng(rng.unwrap()))`: `rng` is what the generator
gives, if there is one -/
def blindingOr {α : Type} (blinding rng : Option α) : Prog F T R α :=
  match blinding, rng with
  | some b, _ => .pure b
  | none, some r => .pure r
  | none, none => .fail (.gadget "Since blindings is None, provide")

/-- `a - b` on `u64` -/
def subU64 (a b : Nat) : Prog F T R Nat := if b ≤ a then .pure (a - b) else .panic

/-- gadgets/helper_constraints/mod.rs:18-25 `constrain_lc_with_scalar` -/
def constrainScalar (lc : LC F) (s : F) : Prog F T R Unit := csConstrain (LC.sub lc (LC.ofScalar s))

/-! ## Bits and bounds -/

/-- gadgets/helper_constraints/bit.rs:6-33 `bit_gadget` -/
def bitGadget (v : Quantity F) : Prog F T R Unit := do
  let x ← csAllocMult (v.asg.map fun bit => (1 - bit, bit))
  csConstrain (LC.add (LC.ofVar x.2.1) [(v.var, -1)])
  csConstrain (LC.ofVar x.2.2)
  csConstrain (LC.add (LC.ofVar x.1) (LC.sub (LC.ofVar x.2.1) (LC.ofScalar 1)))

/-- gadgets/helper_constraints/positive_no.rs:17-34: rounds `i`, `i+1`, …, with `e = 2^i` and the constraint so far -/
def positiveLoop (rep : F → Nat) (q : Option F) : Nat → Nat → F → LC F → Prog F T R (LC F)
  | 0, _, _, cv => pure cv
  | k + 1, i, e, cv => do
    let x ← csAllocMult (q.map fun q => if (rep q >>> i) % 2 = 1 then (0, 1) else (1, 0))
    csConstrain (LC.ofVar x.2.2)
    csConstrain (LC.add (LC.ofVar x.1) (LC.sub (LC.ofVar x.2.1) (LC.ofScalar 1)))
    positiveLoop rep q k (i + 1) (e + e) (cv ++ [(x.2.1, e)])

/-- gadgets/helper_constraints/positive_no.rs:9-40 `positive_no_gadget` -/
def positiveNoGadget (rep : F → Nat) (v : Quantity F) (n : Nat) : Prog F T R Unit := do
  let cv ← positiveLoop rep v.asg n 0 1 [(v.var, -1)]
  csConstrain cv

/-- gadgets/bound_check.rs:11-43 `bound_check_gadget` -/
def boundCheckGadget (rep : F → Nat) (v a b : Quantity F) (max min n : Nat) : Prog F T R Unit := do
  csConstrain (LC.sub (LC.sub (LC.ofVar v.var) (LC.ofScalar (min : F))) (LC.ofVar a.var))
  csConstrain (LC.sub (LC.sub (LC.ofScalar (max : F)) (LC.ofVar v.var)) (LC.ofVar b.var))
  let d ← subU64 max min
  constrainScalar (LC.add (LC.ofVar a.var) (LC.ofVar b.var)) (d : F)
  positiveNoGadget rep a n
  positiveNoGadget rep b n

/-- gadgets/bound_check.rs:45-94 `prove_bounded_num`: `ra`, `rb` are the random blindings of `a` and `b` -/
def proveBounded (rep : F → Nat) (g h : V) (val : Nat) (blinding rng : Option F) (lower upper n : Nat) (ra rb : F) :
    Prog F (Top F (F × F)) Var (List V) := do
  let bl ← blindingOr blinding rng
  let a ← subU64 val lower
  let b ← subU64 upper val
  let cv ← commitP g h (val : F) bl
  let ca ← commitP g h (a : F) ra
  let cb ← commitP g h (b : F) rb
  boundCheckGadget rep ⟨cv.2, some (val : F)⟩ ⟨ca.2, some (a : F)⟩ ⟨cb.2, some (b : F)⟩ upper lower n
  pure [cv.1, ca.1, cb.1]

/-- gadgets/bound_check.rs:96-132 `verify_bounded_num` -/
def verifyBounded (rep : F → Nat) (lower upper n : Nat) (commitments : List V) : Prog F (Top F V) Var Unit := do
  let v ← commitFirst commitments
  let a ← commitFirst v.2
  let b ← commitFirst a.2
  boundCheckGadget rep ⟨v.1, none⟩ ⟨a.1, none⟩ ⟨b.1, none⟩ upper lower n

/-! ## Values that are not zero -/

/-- gadgets/helper_constraints/non_zero.rs:11-32 `is_nonzero_gadget` -/
def isNonzeroGadget (x xInv : Var) : Prog F T R Unit := do
  let o1 ← csMultiply (LC.ofVar x) (LC.sub (LC.ofVar .one) (LC.ofScalar 1))
  csConstrain (LC.ofVar o1.2.2)
  let o2 ← csMultiply (LC.ofVar x) [(xInv, 1)]
  csConstrain (LC.sub (LC.ofVar o2.2.2) (LC.ofScalar 1))

/-- gadgets/non_zero.rs:9-34 `prove_non_zero_val`; the inverse of 0 is 0 -/
def proveNonZero (g h : V) (value : F) (blinding rng : Option F) (r : F) : Prog F (Top F (F × F)) Var (List V) := do
  let bl ← blindingOr blinding rng
  let cv ← commitP g h value bl
  let ci ← commitP g h value⁻¹ r
  isNonzeroGadget cv.2 ci.2
  pure [cv.1, ci.1]

/-- gadgets/non_zero.rs:36-47 `verify_non_zero_val` -/
def verifyNonZero (commitments : List V) : Prog F (Top F V) Var Unit := do
  let v ← commitFirst commitments
  let i ← commitFirst v.2
  isNonzeroGadget v.1 i.1

/-! ## Sets -/

/-- gadgets/set_membership.rs:28-34: the loop; `diff_vars[i]` panics if there are too few -/
def setMemLoop (v : Var) : List F → List Var → LC F → Prog F T R (LC F)
  | [], _, prod => pure prod
  | _ :: _, [], _ => .panic
  | a :: set, d :: ds, prod => do
    constrainScalar (LC.add (LC.ofVar d) (LC.ofVar v)) a
    let x ← csMultiply prod (LC.ofVar d)
    setMemLoop v set ds (LC.ofVar x.2.2)

/-- gadgets/set_membership.rs:18-40 `set_membership_gadget` -/
def setMembershipGadget (v : Var) (diffs : List Var) (set : List F) : Prog F T R Unit := do
  let prod ← setMemLoop v set diffs (LC.ofVar .one)
  csConstrain prod

/-- gadgets/set_membership.rs:64-71: commit to the differences; `bl i` are the random blindings -/
def commitDiffs (g h : V) (value : F) (bl : Nat → F) : Nat → List F → Prog F (Top F (F × F)) Var (List V × List Var)
  | _, [] => pure ([], [])
  | i, a :: set => do
    let c ← commitP g h (a - value) (bl i)
    let q ← commitDiffs g h value bl (i + 1) set
    pure (c.1 :: q.1, c.2 :: q.2)

/-- gadgets/set_membership.rs:42-76 `prove_set_membership` -/
def proveSetMembership (g h : V) (value : F) (randomness : Option F) (set : List F) (rng : Option F) (bl : Nat → F) :
    Prog F (Top F (F × F)) Var (List V) := do
  let r ← blindingOr randomness rng
  let c ← commitP g h value r
  let q ← commitDiffs g h value bl 0 set
  setMembershipGadget c.2 q.2 set
  pure (c.1 :: q.1)

/-- `n` times `verifier.commit(commitments.remove(0))`: gadgets/set_membership.rs:90-93 -/
def commitMany : Nat → List V → Prog F (Top F V) Var (List Var × List V)
  | 0, Cs => pure ([], Cs)
  | n + 1, Cs => do
    let c ← commitFirst Cs
    let q ← commitMany n c.2
    pure (c.1 :: q.1, q.2)

/-- gadgets/set_membership.rs:78-98 `verify_set_membership` -/
def verifySetMembership (set : List F) (commitments : List V) : Prog F (Top F V) Var Unit := do
  let v ← commitFirst commitments
  let q ← commitMany set.length v.2
  setMembershipGadget v.1 q.1 set

/-- gadgets/set_non_membership.rs:19-37 `set_non_membership_gadget` -/
def setNonMembershipGadget (v : Var) : List F → List Var → List Var → Prog F T R Unit
  | [], _, _ => pure ()
  | _ :: _, [], _ => .panic
  | a :: set, d :: ds, is => do
    constrainScalar (LC.add (LC.ofVar d) (LC.ofVar v)) a
    match is with
    | [] => .panic
    | i :: is => do
      isNonzeroGadget d i
      setNonMembershipGadget v set ds is

/-- gadgets/set_non_membership.rs:61-74: commit to the differences and their inverses -/
def commitDiffsInv (g h : V) (value : F) (bl : Nat → F) : Nat → List F → Prog F (Top F (F × F)) Var (List V × List Var × List Var)
  | _, [] => pure ([], [], [])
  | i, a :: set => do
    let c ← commitP g h (a - value) (bl (2 * i))
    let d ← commitP g h (a - value)⁻¹ (bl (2 * i + 1))
    let q ← commitDiffsInv g h value bl (i + 1) set
    pure (c.1 :: d.1 :: q.1, c.2 :: q.2.1, d.2 :: q.2.2)

/-- gadgets/set_non_membership.rs:39-79 `prove_set_non_membership` -/
def proveSetNonMembership (g h : V) (value : F) (randomness : Option F) (set : List F) (rng : Option F) (bl : Nat → F) :
    Prog F (Top F (F × F)) Var (List V) := do
  let r ← blindingOr randomness rng
  let c ← commitP g h value r
  let q ← commitDiffsInv g h value bl 0 set
  setNonMembershipGadget c.2 set q.2.1 q.2.2
  pure (c.1 :: q.1)

/-- gadgets/set_non_membership.rs:93-99: the pairs of commitments -/
def commitPairs : Nat → List V → Prog F (Top F V) Var (List Var × List Var)
  | 0, _ => pure ([], [])
  | n + 1, Cs => do
    let c ← commitFirst Cs
    let d ← commitFirst c.2
    let q ← commitPairs n d.2
    pure (c.1 :: q.1, d.1 :: q.2)

/-- gadgets/set_non_membership.rs:81-104 `verify_set_non_membership` -/
def verifySetNonMembership (set : List F) (commitments : List V) : Prog F (Top F V) Var Unit := do
  let v ← commitFirst commitments
  let q ← commitPairs set.length v.2
  setNonMembershipGadget v.1 set q.1 q.2

/-- gadgets/helper_constraints/vector_sum.rs:5-11 `vector_sum_constraints` -/
def vectorSum (vs : List Var) (sum : Nat) : Prog F T R Unit :=
  csConstrain ((.one, -(sum : F)) :: vs.map fun x => (x, 1))

/-- gadgets/set_membership_alt.rs:52-69: the loop; `toggles[i]` panics if there are too few -/
def vectorProductLoop (value : Var) : List Nat → List (Quantity F) → LC F → Prog F T R (LC F)
  | [], _, cs => pure cs
  | _ :: _, [], _ => .panic
  | item :: items, t :: ts, cs => do
    let x ← csAllocMult (t.asg.map fun bit => (bit, (item : F)))
    constrainScalar (LC.ofVar x.2.1) (item : F)
    let y ← csMultiply (LC.ofVar x.1) (LC.ofVar value)
    csConstrain (LC.sub (LC.ofVar x.2.2) (LC.ofVar y.2.2))
    vectorProductLoop value items ts (cs ++ [(x.2.2, 1)])

/-- gadgets/set_membership_alt.rs:44-75 `vector_product_gadget` -/
def vectorProductGadget (items : List Nat) (toggles : List (Quantity F)) (value : Quantity F) : Prog F T R Unit := do
  let cs ← vectorProductLoop value.var items toggles [(value.var, -1)]
  csConstrain cs

/-- gadgets/set_membership_alt.rs:91-110: the toggles -/
def commitToggles (g h : V) (value : Nat) (bl : Nat → F) : Nat → List Nat → Prog F (Top F (F × F)) Var (List V × List (Quantity F))
  | _, [] => pure ([], [])
  | i, e :: set => do
    let bit : F := ((if e = value then 1 else 0 : Nat) : F)
    let c ← commitP g h bit (bl i)
    bitGadget ⟨c.2, some bit⟩
    let q ← commitToggles g h value bl (i + 1) set
    pure (c.1 :: q.1, ⟨c.2, some bit⟩ :: q.2)

/-- gadgets/set_membership_alt.rs:77-130 `prove_set_membership_alt` -/
def proveSetMembershipAlt (g h : V) (value : Nat) (randomness : Option F) (set : List Nat) (rng : Option F) (bl : Nat → F) :
    Prog F (Top F (F × F)) Var (List V) := do
  let r ← blindingOr randomness rng
  let q ← commitToggles g h value bl 0 set
  vectorSum (q.2.map (·.var)) 1
  let c ← commitP g h (value : F) r
  vectorProductGadget set q.2 ⟨c.2, some (value : F)⟩
  pure (q.1 ++ [c.1])

/-- gadgets/set_membership_alt.rs:143-152: the toggles -/
def commitBits : Nat → List V → Prog F (Top F V) Var (List (Quantity F) × List V)
  | 0, Cs => pure ([], Cs)
  | n + 1, Cs => do
    let c ← commitFirst Cs
    bitGadget (F := F) ⟨c.1, none⟩
    let q ← commitBits n c.2
    pure (⟨c.1, none⟩ :: q.1, q.2)

/-- gadgets/set_membership_alt.rs:132-165 `verify_set_membership_alt` -/
def verifySetMembershipAlt (set : List Nat) (commitments : List V) : Prog F (Top F V) Var Unit := do
  let q ← commitBits set.length commitments
  vectorSum (q.1.map (·.var)) 1
  let v ← commitFirst q.2
  vectorProductGadget (F := F) set q.1 ⟨v.1, none⟩

/-! ## MiMC -/

/-- gadgets/helper_constraints/mimc.rs:9-22 `mimc` -/
def mimc : F → F → List F → F
  | xl, _, [] => xl
  | xl, xr, c :: cs => mimc ((xl + c) * (xl + c) * (xl + c) + xr) xl cs

/-- gadgets/helper_constraints/mimc.rs:38-63 `enforce_mimc_2_inputs` -/
def enforceMimc : LC F → LC F → List F → Prog F T R (LC F)
  | l, _, [] => pure l
  | l, r, c :: cs => do
    let x ← csMultiply (LC.add l [(.one, c)]) (LC.add l [(.one, c)])
    let y ← csMultiply (LC.ofVar x.2.2) (LC.ofVar x.1)
    enforceMimc (LC.add (LC.ofVar y.2.2) r) l cs

/-- gadgets/helper_constraints/mimc.rs:24-35 `mimc_gadget` -/
def mimcGadget (l r : LC F) (constants : List F) (image : F) : Prog F T R Unit := do
  let v ← enforceMimc l r constants
  constrainScalar v image

/-- gadgets/mimc.rs:10-38 `prove_mimc_preimage`, errors.rs:217-228 `check_for_input_and_blindings_length!` (its description is shortened) -/
def proveMimc (g h : V) (preimage : List F) (blindings : Option (List F)) (image : F) (constants : List F) (rng : Option (F × F)) :
    Prog F (Top F (F × F)) Var (List V) := do
  let rands ← blindingOr blindings (rng.map fun r => [r.1, r.2])
  match preimage, rands with
  | [a, b], [ra, rb] => do
    let l ← commitP g h a ra
    let r ← commitP g h b rb
    mimcGadget (LC.ofVar l.2) (LC.ofVar r.2) constants image
    pure [l.1, r.1]
  | _, _ => .fail (.gadget "Both input and blindings should be of the same size")

/-- gadgets/mimc.rs:40-53 `verify_mimc_preimage` -/
def verifyMimc (image : F) (constants : List F) (commitments : List V) : Prog F (Top F V) Var Unit := do
  let l ← commitFirst commitments
  let r ← commitFirst l.2
  mimcGadget (LC.ofVar l.1) (LC.ofVar r.1) constants image

end Verif.BP
