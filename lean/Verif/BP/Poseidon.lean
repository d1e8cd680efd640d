import Verif.BP.Gadgets
/-!
# Bulletproofs: Poseidon (libzmix/bulletproofs_amcl/src/r1cs/gadgets/helper_constraints/poseidon.rs and poseidon_hash.rs)

The functions for 2, 4 and 8 inputs are the same except for the number of inputs and the capacity constant; they are modelled as one function of the number
of inputs `k`.
-/
namespace Verif.BP
variable {F V : Type} [Field F] [AddCommGroup V] [Module F V] [DecidableEq F] [DecidableEq V]
variable {T R : Type}

/-- r1cs/linear_combination.rs:58-60: add the coefficient of a variable -/
def LC.insert (x : Var) (c : F) : LC F → LC F
  | [] => [(x, 0 + c)]
  | t :: l => if t.1 = x then (x, t.2 + c) :: l else t :: LC.insert x c l

/-- r1cs/linear_combination.rs:50-67 `simplify`.  The iteration order of the hash map is arbitrary in the code; here it is the order of insertion (the order
of the terms of a constraint does not matter to the verifier: `verify_perm`). -/
def LC.simplify (l : LC F) : LC F := l.foldl (fun m t => LC.insert t.1 t.2 m) []

/-- gadgets/helper_constraints/poseidon.rs:12-23 `PoseidonParams` -/
structure PoseidonParams (F : Type) where
  width : Nat
  fullBeginning : Nat
  fullEnd : Nat
  partialRounds : Nat
  roundKeys : List F
  mds : List (List F)

/-- gadgets/helper_constraints/poseidon.rs:28-140 `PoseidonParams::new`, `get_round_keys`, `get_MDS_matrix`: `consts` and `entries` are the parsed tables of poseidon_constants.rs for the
width (which is 3, 5 or 9); parsing of the hexadecimal strings is not modelled -/
def PoseidonParams.new (consts : Nat → List F) (entries : Nat → List (List F)) (width fullBeginning fullEnd partialRounds : Nat) :
    Res Err (PoseidonParams F) :=
  if width ≠ 3 ∧ width ≠ 5 ∧ width ≠ 9 then .err (.badWidth width)
  else
    let cap := (fullBeginning + partialRounds + fullEnd) * width
    if (consts width).length < cap then .err (.roundConstants (consts width).length cap)
    else if (entries width).length ≠ width then .err (.mdsRows (entries width).length width)
    else match (entries width).find? fun row => row.length ≠ width with
      | some row => .err (.mdsCols row.length width)
      | none => .ok ⟨width, fullBeginning, fullEnd, partialRounds, (consts width).take cap, entries width⟩

/-- `params.round_keys[i]`: an index that is too large panics; parameters made by `new` have enough keys (`new_keys`), others are not modelled -/
def PoseidonParams.key (p : PoseidonParams F) (i : Nat) : F := p.roundKeys.getD i 0

/-- `params.MDS_matrix[j][i]`, with the same remark -/
def PoseidonParams.entry (p : PoseidonParams F) (j i : Nat) : F := (p.mds.getD j []).getD i 0

/-- gadgets/helper_constraints/poseidon.rs:164-169 `SboxType` -/
inductive Sbox where
  | cube
  | inverse
  | quint
  deriving DecidableEq

/-- gadgets/helper_constraints/poseidon.rs:172-188 `apply_sbox`; the inverse of 0 is 0 -/
def Sbox.apply : Sbox → F → F
  | .cube, x => x * x * x
  | .inverse, x => x⁻¹
  | .quint, x => (x * x) * (x * x) * x

/-! ## The permutation and the hash functions -/

/-- gadgets/helper_constraints/poseidon.rs:294-298: one element of the linear layer -/
def PoseidonParams.mix (p : PoseidonParams F) (s : List F) (i : Nat) : F := (s.zipIdx.map fun q => q.1 * p.entry q.2 i).sum

/-- gadgets/helper_constraints/poseidon.rs:293-304: the linear layer -/
def PoseidonParams.linear (p : PoseidonParams F) (s : List F) : List F := (List.range s.length).map (p.mix s)

/-- gadgets/helper_constraints/poseidon.rs:287-291: the S-boxes of a full round; `off` is `round_keys_offset`, and `f off x` is what is computed from
the element `x` when the offset is `off` (in the code always `sbox(x + round_keys[off])`, see `permute`) -/
def fullSboxF (f : Nat → F → F) (off : Nat) (s : List F) : List F := (s.zipIdx off).map fun q => f q.2 q.1

/-- gadgets/helper_constraints/poseidon.rs:277-306 `apply_full_rounds` -/
def PoseidonParams.full (p : PoseidonParams F) (f : Nat → F → F) : Nat → Nat → List F → List F
  | 0, _, s => s
  | n + 1, off, s => p.full f n (off + s.length) (p.linear (fullSboxF f off s))

/-- gadgets/helper_constraints/poseidon.rs:320-328: the S-box of a partial round, on the last element -/
def PoseidonParams.partialSbox (p : PoseidonParams F) (f : Nat → F → F) : Nat → List F → List F
  | _, [] => []
  | off, [x] => [f off x]
  | off, x :: y :: s => (x + p.key off) :: p.partialSbox f (off + 1) (y :: s)

/-- gadgets/helper_constraints/poseidon.rs:319-342: the partial rounds -/
def PoseidonParams.partials (p : PoseidonParams F) (f : Nat → F → F) : Nat → Nat → List F → List F
  | 0, _, s => s
  | n + 1, off, s => p.partials f n (off + s.length) (p.linear (p.partialSbox f off s))

/-- gadgets/helper_constraints/poseidon.rs:254-356: all rounds -/
def PoseidonParams.rounds (p : PoseidonParams F) (f : Nat → F → F) (s : List F) : List F :=
  p.full f p.fullEnd ((p.fullBeginning + p.partialRounds) * p.width)
    (p.partials f p.partialRounds (p.fullBeginning * p.width) (p.full f p.fullBeginning 0 s))

/-- gadgets/helper_constraints/poseidon.rs:254-356 `Poseidon_permutation`, after the check of the length -/
def PoseidonParams.permute (p : PoseidonParams F) (sb : Sbox) (s : List F) : List F := p.rounds (fun off x => sb.apply (x + p.key off)) s

/-- gadgets/helper_constraints/poseidon.rs:254-356 `Poseidon_permutation` -/
def poseidonPermutation (p : PoseidonParams F) (sb : Sbox) (s : List F) : Res Err (List F) :=
  if s.length = p.width then .ok (p.permute sb s) else .panic

/-- gadgets/helper_constraints/poseidon.rs:519-524 `CAP_CONST_W_3`, `CAP_CONST_W_5`, `CAP_CONST_W_9`, for 2, 4 and 8 inputs -/
def capConst (k : Nat) : Nat := if k = 2 then 3 else if k = 4 then 31 else 511

/-- gadgets/helper_constraints/poseidon.rs:535-558 `Poseidon_hash_2`, 604-626 `Poseidon_hash_4`, 676-697 `Poseidon_hash_8` -/
def poseidonHash (k : Nat) (p : PoseidonParams F) (sb : Sbox) (inputs : List F) : Res Err F :=
  if inputs.length ≠ k then .err (.width k inputs.length)
  else do
    let out ← poseidonPermutation p sb ((capConst k : F) :: inputs)
    Res.unwrap out[1]?

/-! ## Constraints -/

/-- gadgets/helper_constraints/poseidon.rs:191-250 `synthesize_sbox` and `synthesize_{cube,quint,inverse}_sbox` -/
def synthSbox : Sbox → LC F → F → Prog F T R Var
  | .cube, l, c => do
    let x ← csMultiply (LC.add l (LC.ofScalar c)) (LC.add l (LC.ofScalar c))
    let y ← csMultiply (LC.ofVar x.2.2) (LC.ofVar x.1)
    pure y.2.2
  | .quint, l, c => do
    let x ← csMultiply (LC.add l (LC.ofScalar c)) (LC.add l (LC.ofScalar c))
    let y ← csMultiply (LC.ofVar x.2.2) (LC.ofVar x.2.2)
    let z ← csMultiply (LC.ofVar y.2.2) (LC.ofVar x.1)
    pure z.2.2
  | .inverse, l, c => do
    let v ← csEvalLc (LC.add l (LC.ofScalar c))
    let a ← csAllocSingle v
    let b ← csAllocSingle (v.map fun x => x⁻¹)
    isNonzeroGadget a.1 b.1
    match b.2 with
    | none => .panic
    | some o => do
      constrainScalar (LC.ofVar o) 1
      pure b.1

/-- gadgets/helper_constraints/poseidon.rs:370-381 `apply_linear_layer` -/
def linearLC (p : PoseidonParams F) (outs : List (LC F)) : List (LC F) :=
  (List.range outs.length).map fun i => outs.zipIdx.foldl (fun acc q => LC.add acc (LC.scale (p.entry q.2 i) q.1)) []

/-- gadgets/helper_constraints/poseidon.rs:405-412: the S-boxes of a full round; `syn off l` are the calls for one S-box (in the code always
`synthesize_sbox(l, round_keys[off])`, see `permutationConstraints`) -/
def fullSboxes (syn : Nat → LC F → Prog F T R Var) : Nat → List (LC F) → Prog F T R (List (LC F))
  | _, [] => pure []
  | off, l :: ls => do
    let v ← syn off l
    let vs ← fullSboxes syn (off + 1) ls
    pure (LC.ofVar v :: vs)

/-- gadgets/helper_constraints/poseidon.rs:392-425 `apply_full_rounds` -/
def fullRounds (p : PoseidonParams F) (syn : Nat → LC F → Prog F T R Var) : Nat → Nat → List (LC F) → Prog F T R (List (LC F))
  | 0, _, ls => pure ls
  | n + 1, off, ls => do
    let vs ← fullSboxes syn off ls
    fullRounds p syn n (off + ls.length) (linearLC p vs)

/-- gadgets/helper_constraints/poseidon.rs:446-460: the S-box of a partial round -/
def partialSboxes (p : PoseidonParams F) (syn : Nat → LC F → Prog F T R Var) : Nat → List (LC F) → Prog F T R (List (LC F))
  | _, [] => pure []
  | off, [l] => do
    let v ← syn off l
    pure [LC.ofVar v]
  | off, l :: l' :: ls => do
    let vs ← partialSboxes p syn (off + 1) (l' :: ls)
    pure (LC.add l (LC.ofScalar (p.key off)) :: vs)

/-- gadgets/helper_constraints/poseidon.rs:442-472: the partial rounds -/
def partialRoundsLC (p : PoseidonParams F) (syn : Nat → LC F → Prog F T R Var) : Nat → Nat → List (LC F) → Prog F T R (List (LC F))
  | 0, _, ls => pure ls
  | n + 1, off, ls => do
    let vs ← partialSboxes p syn off ls
    partialRoundsLC p syn n (off + ls.length) ((linearLC p vs).map LC.simplify)

/-- gadgets/helper_constraints/poseidon.rs:358-490: all rounds -/
def roundsConstraints (p : PoseidonParams F) (syn : Nat → LC F → Prog F T R Var) (input : List (LC F)) : Prog F T R (List (LC F)) :=
  if input.length = p.width then do
    let s1 ← fullRounds p syn p.fullBeginning 0 input
    let s2 ← partialRoundsLC p syn p.partialRounds (p.fullBeginning * p.width) s1
    fullRounds p syn p.fullEnd ((p.fullBeginning + p.partialRounds) * p.width) s2
  else .panic

/-- gadgets/helper_constraints/poseidon.rs:358-490 `Poseidon_permutation_constraints` -/
def permutationConstraints (p : PoseidonParams F) (sb : Sbox) (input : List (LC F)) : Prog F T R (List (LC F)) :=
  roundsConstraints p (fun off l => synthSbox sb l (p.key off)) input

/-- gadgets/helper_constraints/poseidon.rs:509-511: constrain each output -/
def constrainAll : List (LC F) → List F → Prog F T R Unit
  | l :: ls, x :: xs => do
    constrainScalar l x
    constrainAll ls xs
  | _, _ => pure ()

/-- gadgets/helper_constraints/poseidon.rs:492-514 `Poseidon_permutation_gadget` -/
def permutationGadget (p : PoseidonParams F) (sb : Sbox) (input : List Var) (output : List F) : Prog F T R Unit :=
  if output.length = p.width then do
    let o ← permutationConstraints p sb (input.map LC.ofVar)
    constrainAll o output
  else .panic

/-- gadgets/helper_constraints/poseidon.rs:560-576 `Poseidon_hash_2_constraints`, 628-646 `Poseidon_hash_4_constraints`, 699-715
`Poseidon_hash_8_constraints`; `perm` are the calls for the permutation -/
def hashConstraints (k : Nat) (perm : List (LC F) → Prog F T R (List (LC F))) (inputs : List (LC F)) (cap : LC F) : Prog F T R (LC F) :=
  if inputs.length = k then do
    let out ← perm (cap :: inputs)
    match out[1]? with
    | some o => pure o
    | none => .panic
  else .panic

/-- gadgets/helper_constraints/poseidon.rs:578-602 `Poseidon_hash_2_gadget`, 648-674 `Poseidon_hash_4_gadget`, 717-742 `Poseidon_hash_8_gadget` -/
def hashGadget (k : Nat) (perm : List (LC F) → Prog F T R (List (LC F))) (inputs : List Var) (cap : Var) (image : F) : Prog F T R Unit := do
  let h ← hashConstraints k perm (inputs.map LC.ofVar) (LC.ofVar cap)
  constrainScalar h image

/-- gadgets/poseidon_hash.rs:16-20 `allocate_capacity_const_for_prover` -/
def allocCapP (g h : V) (c : Nat) : Prog F (Top F (F × F)) Var Var := do
  let q ← commitP g h (c : F) 0
  pure q.2

/-- gadgets/poseidon_hash.rs:22-38 `allocate_capacity_const_for_verifier` -/
def allocCapV (g h : V) (c : Nat) : Prog F (Top F V) Var Var := commitV ((c : F) • g + (0 : F) • h)

/-- gadgets/poseidon_hash.rs:209-213: commit to the inputs, with their blindings -/
def commitAllP (g h : V) : List (F × F) → Prog F (Top F (F × F)) Var (List V × List Var)
  | [] => pure ([], [])
  | w :: ws => do
    let c ← commitP g h w.1 w.2
    let q ← commitAllP g h ws
    pure (c.1 :: q.1, c.2 :: q.2)

/-- gadgets/poseidon_hash.rs:40-84 `prove_knowledge_of_preimage_of_Poseidon_2`, 182-227 (4 inputs), 332-380 (8 inputs); `rng` are the random blindings (the
error's description is shortened) -/
def provePoseidon (k : Nat) (p : PoseidonParams F) (sb : Sbox) (g h : V) (preimage : List F) (blindings : Option (List F)) (image : F)
    (rng : Option (List F)) : Prog F (Top F (F × F)) Var (List V) := do
  let rands ← blindingOr blindings rng
  if preimage.length ≠ k ∨ rands.length ≠ k then .fail (.gadget "Both input and blindings should be of the same size")
  else do
    let q ← commitAllP g h (preimage.zip rands)
    let cap ← allocCapP g h (capConst k)
    hashGadget k (permutationConstraints p sb) q.2 cap image
    pure q.1

/-- gadgets/poseidon_hash.rs:86-110 `verify_knowledge_of_preimage_of_Poseidon_2`, 229-258 (4 inputs), 382-410 (8 inputs) -/
def verifyPoseidon (k : Nat) (p : PoseidonParams F) (sb : Sbox) (g h : V) (image : F) (commitments : List V) : Prog F (Top F V) Var Unit := do
  let q ← commitMany k commitments
  let cap ← allocCapV g h (capConst k)
  hashGadget k (permutationConstraints p sb) q.1 cap image

end Verif.BP
