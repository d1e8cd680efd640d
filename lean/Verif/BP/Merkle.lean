import Verif.BP.Poseidon
/-!
# Bulletproofs: sparse Merkle trees (libzmix/bulletproofs_amcl/src/r1cs/gadgets: merkle_tree_hash.rs, sparse_merkle_tree_{4,8}_ary.rs,
helper_constraints/sparse_merkle_tree_{4,8}_ary.rs; src/utils/hash_db.rs)

`VanillaSparseMerkleTree4` and `VanillaSparseMerkleTree8` are the same code except for the arity; they are modelled as one tree with arity `2 ^ b`, `b` = 2 or
3.  `rep` is the canonical representative of a field element (`to_bignum`).  Arrays of children and siblings are lists; in the code their types fix their
lengths.
-/
namespace Verif.BP
variable {F V : Type} [Field F] [AddCommGroup V] [Module F V] [DecidableEq F] [DecidableEq V]
variable {T R : Type}

/-- src/utils/hash_db.rs:13-16 `InMemoryHashDb`; a key is the bytes of a field element, which determine the element -/
abbrev HashDb (F : Type) := F → Option (List F)

/-- src/utils/hash_db.rs:19-21 `insert` -/
def HashDb.insert (db : HashDb F) (k : F) (v : List F) : HashDb F := fun x => if x = k then some v else db x

/-- src/utils/hash_db.rs:23-31 `get` -/
def HashDb.get (db : HashDb F) (k : F) : Res Err (List F) :=
  match db k with
  | some v => .ok v
  | none => .err .hashNotFound

/-- src/utils/hash_db.rs:34-39 `new` -/
def HashDb.new : HashDb F := fun _ => none

/-- gadgets/helper_constraints/mod.rs:53-60: the digits of `s` in base `2 ^ b`, the lowest first, filled up with zeros -/
def digitsLow (b : Nat) : Nat → Nat → List Nat
  | _, 0 => []
  | s, n + 1 => if s = 0 then List.replicate (n + 1) 0 else s % 2 ^ b :: digitsLow b (s >>> b) n

/-- gadgets/helper_constraints/mod.rs:46-64 `get_repr_in_power_2_base` (for `b ≤ 8`) -/
def reprPow2 (b s n : Nat) : List Nat := (digitsLow b s n).reverse

/-- gadgets/merkle_tree_hash.rs:146-151 `PoseidonHash4::hash` (and 31-42 `is_num_inputs_correct`), 153-158 `PoseidonHash8::hash`, 139-144 `PoseidonHash2::hash` -/
def merkleHash (k : Nat) (p : PoseidonParams F) (sb : Sbox) (inputs : List F) : Res Err F :=
  if inputs.length ≠ k then .err (.merkleInputs inputs.length k) else poseidonHash k p sb inputs

/-- gadgets/merkle_tree_hash.rs:133-137 `Mimc2::hash` -/
def mimc2Hash (constants : List F) (inputs : List F) : Res Err F := do
  let a ← Res.unwrap inputs[0]?
  let b ← Res.unwrap inputs[1]?
  .ok (mimc a b constants)

/-! ## The tree -/

section Tree
variable (b : Nat) (hash : List F → Res Err F)

/-- gadgets/helper_constraints/sparse_merkle_tree_4_ary.rs:49-65: the levels of an empty tree, from `prev` on -/
def treeNewLoop : Nat → F → HashDb F → Res Err (F × HashDb F)
  | 0, prev, db => .ok (prev, db)
  | n + 1, prev, db => do
    let new ← hash (List.replicate (2 ^ b) prev)
    treeNewLoop n new (db.insert new (List.replicate (2 ^ b) prev))

/-- gadgets/helper_constraints/sparse_merkle_tree_4_ary.rs:40-74 `new`, sparse_merkle_tree_8_ary.rs:35-71: the root and the database (what was inserted before
an error of `hash` is not modelled) -/
def treeNew (depth : Nat) (db : HashDb F) : Res Err (F × HashDb F) := treeNewLoop b hash depth 0 db

/-- gadgets/helper_constraints/sparse_merkle_tree_4_ary.rs:131-151, sparse_merkle_tree_8_ary.rs:129-156: follow the path from the node `cur`; the value at its
end and the siblings on it, from the root to the leaf -/
def treeGetLoop (db : HashDb F) : List Nat → F → Res Err (F × List (List F))
  | [], cur => .ok (cur, [])
  | d :: ds, cur => do
    let children ← db.get cur
    let c ← Res.unwrap children[d]?
    let q ← treeGetLoop db ds c
    .ok (q.1, children.eraseIdx d :: q.2)

/-- gadgets/helper_constraints/sparse_merkle_tree_4_ary.rs:119-161 `get`, sparse_merkle_tree_8_ary.rs:117-166: the value, and what is appended to `proof` (if
it is given) -/
def treeGet (rep : F → Nat) (depth : Nat) (root idx : F) (db : HashDb F) : Res Err (F × List (List F)) :=
  treeGetLoop db (reprPow2 b (rep idx) depth) root

/-- gadgets/helper_constraints/sparse_merkle_tree_4_ary.rs:96-111, sparse_merkle_tree_8_ary.rs:91-109: from the leaf to the root; the siblings are given from
the leaf to the root -/
def treeUpdateLoop : List Nat → List (List F) → F → HashDb F → Res Err (F × HashDb F)
  | [], _, cur, db => .ok (cur, db)
  | _ :: _, [], _, _ => .panic
  | d :: ds, sib :: sibs, cur, db => do
    let h ← hash (sib.insertIdx d cur)
    treeUpdateLoop ds sibs h (db.insert h (sib.insertIdx d cur))

/-- gadgets/helper_constraints/sparse_merkle_tree_4_ary.rs:77-116 `update`, sparse_merkle_tree_8_ary.rs:74-114: the new root and the database (what was inserted
before an error of `hash` is not modelled) -/
def treeUpdate (rep : F → Nat) (depth : Nat) (root idx val : F) (db : HashDb F) : Res Err (F × HashDb F) := do
  let q ← treeGet b rep depth root idx db
  treeUpdateLoop hash (reprPow2 b (rep idx) depth).reverse q.2.reverse val db

/-- gadgets/helper_constraints/sparse_merkle_tree_4_ary.rs:175-179, sparse_merkle_tree_8_ary.rs:180-184: the loop of `verify_proof`, from round `i` on;
`proof[depth - 1 - i]` panics if there is no such node -/
def treeVerifyLoop (proof : List (List F)) (depth : Nat) : Nat → List Nat → F → Res Err F
  | _, [], cur => .ok cur
  | i, d :: ds, cur => do
    let p ← Res.unwrap proof[depth - 1 - i]?
    let h ← hash (p.insertIdx d cur)
    treeVerifyLoop proof depth (i + 1) ds h

/-- gadgets/helper_constraints/sparse_merkle_tree_4_ary.rs:164-186 `verify_proof`, sparse_merkle_tree_8_ary.rs:169-191, for a tree with root `current`; `root` is
the argument -/
def treeVerify (rep : F → Nat) (depth : Nat) (current idx val : F) (proof : List (List F)) (root : Option F) : Res Err Bool := do
  let c ← treeVerifyLoop hash proof depth 0 (reprPow2 b (rep idx) depth).reverse val
  match root with
  | some r => .ok (decide (c = r))
  | none => .ok (decide (c = current))

end Tree

/-! ## The constraints of one level -/

/-- gadgets/helper_constraints/sparse_merkle_tree_4_ary.rs:283-288 (and 290-295; sparse_merkle_tree_8_ary.rs:313-323): a bit and its complement -/
def allocBit (bit : Option Nat) : Prog F T R (Var × Var) := do
  let x ← csAllocMult (bit.map fun x => ((Nat.cast x : F), (Nat.cast (1 - x : Nat) : F)))
  csConstrain (LC.ofVar x.2.2)
  csConstrain (LC.add (LC.ofVar x.1) (LC.sub (LC.ofVar x.2.1) (LC.ofScalar 1)))
  pure (x.1, x.2.1)

/-- gadgets/helper_constraints/sparse_merkle_tree_4_ary.rs:311-356: the children of a node; `b0'` and `b1'` are the complements of the bits, `N` is the node
on the path -/
def children4 (b0 b0' b1 b1' : Var) (N1 N2 N3 N : LC F) : Prog F T R (List (LC F)) := do
  let b0'b1' ← csMultiply (LC.ofVar b0') (LC.ofVar b1')
  let b0'b1 ← csMultiply (LC.ofVar b0') (LC.ofVar b1)
  let b0b1' ← csMultiply (LC.ofVar b0) (LC.ofVar b1')
  let b0b1 ← csMultiply (LC.ofVar b0) (LC.ofVar b1)
  let c01 ← csMultiply (LC.ofVar b0'b1'.2.2) N
  let c02 ← csMultiply (LC.sub (LC.ofVar .one) (LC.ofVar b0'b1'.2.2)) N1
  let c12 ← csMultiply (LC.ofVar b0b1'.2.2) N
  let c13 ← csMultiply (LC.ofVar b1) N2
  let c22 ← csMultiply (LC.ofVar b0'b1.2.2) N
  let c23 ← csMultiply (LC.ofVar b0b1.2.2) N3
  let c31 ← csMultiply (LC.ofVar b0b1.2.2) N
  pure [LC.add (LC.ofVar c01.2.2) (LC.ofVar c02.2.2),
    LC.add (LC.add (LC.sub N1 (LC.ofVar c02.2.2)) (LC.ofVar c12.2.2)) (LC.ofVar c13.2.2),
    LC.add (LC.add (LC.sub N2 (LC.ofVar c13.2.2)) (LC.ofVar c22.2.2)) (LC.ofVar c23.2.2),
    LC.add (LC.ofVar c31.2.2) (LC.sub N3 (LC.ofVar c23.2.2))]

/-- gadgets/helper_constraints/sparse_merkle_tree_8_ary.rs:343-456: the children of a node -/
def children8 (b0 b0' b1 b1' b2 b2' : Var) (N1 N2 N3 N4 N5 N6 N7 N : LC F) : Prog F T R (List (LC F)) := do
  let b0'b1' ← csMultiply (LC.ofVar b0') (LC.ofVar b1')
  let b1'b2' ← csMultiply (LC.ofVar b1') (LC.ofVar b2')
  let b0b1 ← csMultiply (LC.ofVar b0) (LC.ofVar b1)
  let b1b2 ← csMultiply (LC.ofVar b1) (LC.ofVar b2)
  let b0b1b2 ← csMultiply (LC.ofVar b0b1.2.2) (LC.ofVar b2)
  let b0'b1'b2' ← csMultiply (LC.ofVar b0'b1'.2.2) (LC.ofVar b2')
  let b01'b2' ← csMultiply (LC.sub (LC.ofVar .one) (LC.ofVar b0b1.2.2)) (LC.ofVar b2')
  let c01 ← csMultiply (LC.ofVar b0'b1'b2'.2.2) N
  let c02 ← csMultiply (LC.sub (LC.ofVar .one) (LC.ofVar b0'b1'b2'.2.2)) N1
  let c11 ← csMultiply (LC.sub (LC.ofVar .one) (LC.ofVar b1'b2'.2.2)) N2
  let c12 ← csMultiply (LC.ofVar b1'b2'.2.2) (LC.ofVar b0)
  let c13 ← csMultiply (LC.ofVar c12.2.2) N
  let c22 ← csMultiply (LC.ofVar b0') (LC.ofVar b2')
  let c23 ← csMultiply (LC.ofVar c22.2.2) (LC.ofVar b1)
  let c24 ← csMultiply (LC.ofVar c23.2.2) N
  let c25 ← csMultiply (LC.sub (LC.ofVar .one) (LC.ofVar b01'b2'.2.2)) N3
  let c32 ← csMultiply (LC.ofVar b2') (LC.ofVar b0b1.2.2)
  let c33 ← csMultiply (LC.ofVar c32.2.2) N
  let c34 ← csMultiply (LC.ofVar b2) N4
  let c42 ← csMultiply (LC.ofVar b2) (LC.ofVar b0'b1'.2.2)
  let c43 ← csMultiply (LC.ofVar c42.2.2) N
  let c44 ← csMultiply (LC.ofVar b2) (LC.sub (LC.ofVar .one) (LC.ofVar b0'b1'.2.2))
  let c45 ← csMultiply (LC.ofVar c44.2.2) N5
  let c52 ← csMultiply (LC.ofVar b1b2.2.2) N6
  let c53 ← csMultiply (LC.ofVar b2) (LC.ofVar b1')
  let c54 ← csMultiply (LC.ofVar c53.2.2) (LC.ofVar b0)
  let c55 ← csMultiply (LC.ofVar c54.2.2) N
  let c61 ← csMultiply (LC.ofVar b0b1b2.2.2) N7
  let c62 ← csMultiply (LC.ofVar b1b2.2.2) (LC.ofVar b0')
  let c63 ← csMultiply (LC.ofVar c62.2.2) N
  let c71 ← csMultiply (LC.ofVar b0b1b2.2.2) N
  pure [LC.add (LC.ofVar c01.2.2) (LC.ofVar c02.2.2),
    LC.add (LC.add (LC.ofVar c11.2.2) (LC.ofVar c13.2.2)) (LC.sub N1 (LC.ofVar c02.2.2)),
    LC.add (LC.add (LC.sub N2 (LC.ofVar c11.2.2)) (LC.ofVar c24.2.2)) (LC.ofVar c25.2.2),
    LC.add (LC.add (LC.sub N3 (LC.ofVar c25.2.2)) (LC.ofVar c33.2.2)) (LC.ofVar c34.2.2),
    LC.add (LC.add (LC.sub N4 (LC.ofVar c34.2.2)) (LC.ofVar c43.2.2)) (LC.ofVar c45.2.2),
    LC.add (LC.add (LC.sub N5 (LC.ofVar c45.2.2)) (LC.ofVar c52.2.2)) (LC.ofVar c55.2.2),
    LC.add (LC.add (LC.ofVar c61.2.2) (LC.ofVar c63.2.2)) (LC.sub N6 (LC.ofVar c52.2.2)),
    LC.add (LC.ofVar c71.2.2) (LC.sub N7 (LC.ofVar c61.2.2))]

/-- a level: from the prover's digit, the power of the arity, the siblings and the node on the path, the terms that are added to the constraint of the index
and the children -/
abbrev Level (F T R : Type) := Option Nat → F → List Var → LC F → Prog F T R (LC F × List (LC F))

/-- gadgets/helper_constraints/sparse_merkle_tree_4_ary.rs:282-356; `proof_nodes.pop().unwrap()` panics if there are too few nodes -/
def level4 : Level F T R := fun digit e nodes N => do
  let b0 ← allocBit (digit.map fun d => d % 2)
  let b1 ← allocBit (digit.map fun d => (d >>> 1) % 2)
  match nodes with
  | [N1, N2, N3] => do
    let cs ← children4 b0.1 b0.2 b1.1 b1.2 (LC.ofVar N1) (LC.ofVar N2) (LC.ofVar N3) N
    pure ([(b1.1, 2 * e), (b0.1, e)], cs)
  | _ => .panic

/-- gadgets/helper_constraints/sparse_merkle_tree_8_ary.rs:294-456 -/
def level8 : Level F T R := fun digit e nodes N => do
  let b0 ← allocBit (digit.map fun d => d % 2)
  let b1 ← allocBit (digit.map fun d => (d >>> 1) % 2)
  let b2 ← allocBit (digit.map fun d => (d >>> 2) % 2)
  match nodes with
  | [N1, N2, N3, N4, N5, N6, N7] => do
    let cs ← children8 b0.1 b0.2 b1.1 b1.2 b2.1 b2.2 (LC.ofVar N1) (LC.ofVar N2) (LC.ofVar N3) (LC.ofVar N4) (LC.ofVar N5) (LC.ofVar N6) (LC.ofVar N7) N
    pure ([(b0.1, e), (b1.1, 2 * e), (b2.1, 4 * e)], cs)
  | _ => .panic

/-! ## The gadgets -/

/-- gadgets/helper_constraints/mod.rs:39-44 `get_bit_count`, 27-37 `get_byte_size`, for base 4 -/
def byteSize4 (depth : Nat) : Nat := depth * 2 / 8 + if depth * 2 % 8 = 0 then 0 else 1

/-- gadgets/helper_constraints/sparse_merkle_tree_4_ary.rs:270-293 and mod.rs:66-74 `allocated_leaf_index_to_bytes`: the digit of the prover's index in the
round `i` (= 4·byte + part), two bits of a byte (`>> 2 * j` and `>> (2 * j + 1)`); `l[i]` panics if the index has no such byte -/
def digit4 (rep : F → Nat) (modBytes : Nat) (idx : Option F) (i : Nat) : Prog F T R (Option Nat) :=
  match idx with
  | none => pure none
  | some l => if i / 4 < modBytes then pure (some (((rep l / 256 ^ (i / 4) % 256) >>> (2 * (i % 4))) % 4)) else .panic

/-- gadgets/helper_constraints/sparse_merkle_tree_8_ary.rs:282-297: the digit of the prover's index in the round `i` -/
def digit8 (rep : F → Nat) (depth : Nat) (idx : Option F) (i : Nat) : Prog F T R (Option Nat) :=
  match idx with
  | none => pure none
  | some l =>
    match (reprPow2 3 (rep l) depth).reverse[i]? with
    | some d => pure (some d)
    | none => .panic

/-- gadgets/helper_constraints/sparse_merkle_tree_4_ary.rs:274-364, sparse_merkle_tree_8_ary.rs:289-463: at most the given number of rounds, from round `i` on, with
`e = arity ^ i`, the constraint of the index so far, the node on the path and the remaining proof nodes (the last one first); stops when there are none -/
def merkleLoop (b : Nat) (level : Level F T R) (digit : Nat → Prog F T R (Option Nat)) (hash : List (LC F) → Prog F T R (LC F)) :
    Nat → Nat → F → LC F → LC F → List Var → Prog F T R (LC F × LC F)
  | 0, _, _, cv, prev, _ => pure (cv, prev)
  | n + 1, i, e, cv, prev, nodes =>
    if nodes = [] then pure (cv, prev)
    else do
      let d ← digit i
      let q ← level d e (nodes.take (2 ^ b - 1)).reverse prev
      let h ← hash q.2
      merkleLoop b level digit hash n (i + 1) (e * (2 ^ b : Nat)) (cv ++ q.1) (LC.simplify h) (nodes.drop (2 ^ b - 1))

/-- gadgets/helper_constraints/sparse_merkle_tree_4_ary.rs:262-371 and sparse_merkle_tree_8_ary.rs:273-470, with their number of rounds -/
def merkleGadget (b : Nat) (level : Level F T R) (digit : Nat → Prog F T R (Option Nat)) (rounds : Nat) (hash : List (LC F) → Prog F T R (LC F))
    (root : F) (leaf : LC F) (index : Var) (nodes : List Var) : Prog F T R Unit := do
  let q ← merkleLoop b level digit hash rounds 0 1 [(index, -1)] leaf nodes.reverse
  csConstrain q.1
  constrainScalar q.2 root

/-- the two gadgets -/
inductive Arity where
  | four
  | eight
  deriving DecidableEq

def Arity.bits : Arity → Nat
  | .four => 2
  | .eight => 3

def Arity.level : Arity → Level F T R
  | .four => level4
  | .eight => level8

/-- gadgets/helper_constraints/sparse_merkle_tree_4_ary.rs:272-276: 4 rounds for each byte; sparse_merkle_tree_8_ary.rs:288-289 -/
def Arity.rounds (depth : Nat) : Arity → Nat
  | .four => 4 * byteSize4 depth
  | .eight => depth

def Arity.digit (rep : F → Nat) (modBytes depth : Nat) (idx : Option F) : Arity → Nat → Prog F T R (Option Nat)
  | .four => digit4 rep modBytes idx
  | .eight => digit8 rep depth idx

/-- gadgets/helper_constraints/sparse_merkle_tree_4_ary.rs:250-371 `vanilla_merkle_merkle_tree_4_verif_gadget`, sparse_merkle_tree_8_ary.rs:261-470
`vanilla_merkle_merkle_tree_8_verif_gadget` -/
def verifGadget (a : Arity) (rep : F → Nat) (modBytes depth : Nat) (hash : List (LC F) → Prog F T R (LC F)) (root : F) (leaf : LC F) (index : Quantity F)
    (nodes : List Var) : Prog F T R Unit :=
  merkleGadget a.bits a.level (a.digit rep modBytes depth index.asg) (a.rounds depth) hash root leaf index.var nodes

/-- gadgets/merkle_tree_hash.rs:170-180 `prover_setup`: `capVar` is the field of `PoseidonHashConstraints` before the call -/
def setupP (g h : V) (c : Nat) (capVar : Option Var) : Prog F (Top F (F × F)) Var Var :=
  match capVar with
  | some _ => .fail (.gadget "Poseidon: capacity_const_var should be None but is Some. Setup has already been called once.")
  | none => allocCapP g h c

/-- gadgets/merkle_tree_hash.rs:182-207 `verifier_setup`, called with `g` and `h` -/
def setupV (g h : V) (c : Nat) (capVar : Option Var) : Prog F (Top F V) Var Var :=
  match capVar with
  | some _ => .fail (.gadget "Poseidon: capacity_const_var should be None but is Some. Setup has already been called once.")
  | none => allocCapV g h c

/-- gadgets/merkle_tree_hash.rs:236-248, 265-277 `hash`, after the setup -/
def merkleHashConstraints (k : Nat) (p : PoseidonParams F) (sb : Sbox) (cap : Var) (inputs : List (LC F)) : Prog F T R (LC F) :=
  hashConstraints k (permutationConstraints p sb) inputs (LC.ofVar cap)

/-- gadgets/helper_constraints/mod.rs:97-134 `get_blinding_for_merkle_tree_prover`, after `check_for_blindings_or_rng!`; `rng` is what the generator gives -/
def merkleBlindings (hide : Bool) (blindings rng : Option (List F)) : Prog F T R (List F) := do
  let bl ← blindingOr blindings rng
  if hide then (if bl.length = 2 then pure bl else .fail (.gadget "Provided randomness should have size 2"))
  else (if bl.length = 1 then pure bl else .fail (.gadget "Provided randomness should have size 1"))

/-- gadgets/sparse_merkle_tree_4_ary.rs:48-54, sparse_merkle_tree_8_ary.rs:48-54: the leaf, committed (and its commitment) or as a constant -/
def commitLeafP (g h : V) (leaf : F) (hide : Bool) (blinding : F) : Prog F (Top F (F × F)) Var (List V × LC F) :=
  if hide then (do
    let cl ← commitP g h leaf blinding
    pure ([cl.1], LC.ofVar cl.2))
  else pure ([], LC.ofScalar leaf)

/-- gadgets/sparse_merkle_tree_4_ary.rs:95-98, sparse_merkle_tree_8_ary.rs:96-99: the leaf and the commitments that remain -/
def commitLeafV (leafVal : Option F) (commitments : List V) : Prog F (Top F V) Var (LC F × List V) :=
  match leafVal with
  | some v => pure (LC.ofScalar v, commitments)
  | none => do
    let cl ← commitFirst commitments
    pure (LC.ofVar cl.1, cl.2)

/-- gadgets/sparse_merkle_tree_4_ary.rs:20-77 `prove_leaf_inclusion_4_ary_merkle_tree`, sparse_merkle_tree_8_ary.rs:20-78, with `PoseidonHashConstraints`; `c` is
its capacity constant, `rnd` are the random blindings of the proof nodes -/
def proveLeaf (a : Arity) (rep : F → Nat) (modBytes : Nat) (p : PoseidonParams F) (sb : Sbox) (c : Nat) (capVar : Option Var) (g h : V) (leaf index : F)
    (hide : Bool) (blindings : Option (List F)) (proof : List (List F)) (root : F) (depth : Nat) (rng : Option (List F)) (rnd : Nat → F) :
    Prog F (Top F (F × F)) Var (List V) := do
  let bl ← merkleBlindings hide blindings rng
  let ci ← commitP g h index (bl.getD 0 0)
  let l ← commitLeafP g h leaf hide (bl.getD 1 0)
  let q ← commitAllP g h (proof.flatten.zipIdx.map fun x => (x.1, rnd x.2))
  let cap ← setupP g h c capVar
  verifGadget a rep modBytes depth (merkleHashConstraints (2 ^ a.bits) p sb cap) root l.2 ⟨ci.2, some index⟩ q.2
  pure (ci.1 :: (l.1 ++ q.1))

/-- gadgets/sparse_merkle_tree_4_ary.rs:79-118 `verify_leaf_inclusion_4_ary_merkle_tree`, sparse_merkle_tree_8_ary.rs:80-120, with `PoseidonHashConstraints` -/
def verifyLeaf (a : Arity) (rep : F → Nat) (modBytes : Nat) (p : PoseidonParams F) (sb : Sbox) (c : Nat) (capVar : Option Var) (g h : V) (root : F)
    (depth : Nat) (leafVal : Option F) (commitments : List V) : Prog F (Top F V) Var Unit := do
  let ci ← commitFirst commitments
  let l ← commitLeafV leafVal ci.2
  let q ← commitMany l.2.length l.2
  let cap ← setupV g h c capVar
  verifGadget a rep modBytes depth (merkleHashConstraints (2 ^ a.bits) p sb cap) root l.1 ⟨ci.1, none⟩ q.1

end Verif.BP
