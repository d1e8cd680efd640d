import Verif.Props.BPMerkle
set_option linter.unusedSectionVars false
set_option linter.unusedSimpArgs false
set_option linter.unusedVariables false
/-!
# Leaf inclusion: trees and levels (C127, C128)
-/
namespace Verif.BP
variable {F V : Type} [Field F] [AddCommGroup V] [Module F V] [DecidableEq F] [DecidableEq V]

/-- **C127, completeness for a tree.** After any history (as in C125), what `get` gives for an index smaller than the number of leaves is accepted. -/
theorem tree_leaf_complete (O : Transcript F V → F) (tr : Transcript F V) (g h : V) {rep : F → Nat} {q : Nat} (can : Canon q rep) (a : Arity) (modBytes : Nat)
    (p : PoseidonParams F) (sb : Sbox) (hw : a.num + 1 = p.width) (depth : Nat) (ups : List (F × F)) (db0 : HashDb F)
    (hdb : ∀ k x, db0 k = some x → poseidonOf p sb (capConst a.num : F) x = k)
    (inj : Set.InjOn (poseidonOf p sb (capConst a.num : F)) (historyNodes (poseidonOf p sb (capConst a.num : F)) (2 ^ a.bits) rep depth ups db0)) (root : F) (db : HashDb F)
    (hist : runHistory a.bits (merkleHash a.num p sb) rep depth ups db0 = .ok (root, db)) (index : F) (hidx : rep index < a.num ^ depth)
    (hm4 : a = .four → depth ≤ 4 * modBytes) (hide : Bool) (blindings rng : Option (List F)) (hb : blindings.isSome ∨ rng.isSome)
    (hbl : (theBlinding [] blindings rng).length = if hide then 2 else 1) (rnd : Nat → F) :
    ∃ proof, treeGet a.bits rep depth root index db = .ok (leavesAfter rep (a.num ^ depth) ups (rep index), proof) ∧
      ((sb = .inverse → NoZeroNodes p (capConst a.num : F) (hashedNodes (poseidonOf p sb (capConst a.num : F)) a.num depth (rep index)
        (leavesAfter rep (a.num ^ depth) ups (rep index)) proof)) →
      HonestAccepted O g h tr
        (proveLeaf a rep modBytes p sb (capConst a.num) none g h (leavesAfter rep (a.num ^ depth) ups (rep index)) index hide blindings proof root depth rng rnd)
        (verifyLeaf a rep modBytes p sb (capConst a.num) none g h root depth (if hide then none else some (leavesAfter rep (a.num ^ depth) ups (rep index))))
        (leafCommitments g h (leavesAfter rep (a.num ^ depth) ups (rep index)) index hide (theBlinding [] blindings rng) proof rnd)) := by
  have hH : Hashes (merkleHash a.num p sb) (2 ^ a.bits) (poseidonOf p sb (capConst a.num : F)) := merkleHash_hashes a.num p sb hw a.num_pos
  obtain ⟨proof, e1, e2, e3, e4, -⟩ := tree_proofs hH rep depth ups db0 hdb inj root db hist index
  have hmod : rep index % (2 ^ a.bits) ^ depth = rep index := Nat.mod_eq_of_lt hidx
  rw [hmod] at e1 e4
  have htake : proof.take depth = proof := by rw [List.take_of_length_le (by omega)]
  rw [verify_iff hH rep depth _ _ _ _ _ (by omega) (by rw [htake]; exact e3), htake, Res.ok.injEq, decide_eq_true_eq] at e4
  refine ⟨proof, e1, fun hinv => ?_⟩
  refine leaf_complete O tr g h can a modBytes p sb hw (capConst a.num) _ index hide blindings rng hb hbl proof root depth rnd (by rw [e2]; exact rounds_ge a depth)
    (fun e => by rw [e2]; exact hm4 e) e3 (by rw [e2]; exact hidx) (by rw [e2]; exact e4) fun hs => ?_
  have := hinv hs
  rw [hashedNodes, htake] at this
  rw [e2]
  exact this

/-- the leaves below the node with the number `s` of a level, with `n` levels below it -/
def belowNode (a n s : Nat) (f : Nat → F) : Nat → F := fun i => f (s * a ^ n + i)

/-- the node `s` at the level `m` of a tree with the leaves `f` is a leaf of a tree of depth `m` -/
theorem rootOf_level (H : List F → F) (a : Nat) (n : Nat) : ∀ (m : Nat) (f : Nat → F),
    rootOf H a (m + n) f = rootOf H a m fun s => rootOf H a n (belowNode a n s f) := by
  intro m
  induction m with
  | zero =>
    intro f
    rw [Nat.zero_add]
    exact rootOf_congr H a n _ _ fun i _ => by simp [belowNode]
  | succ m ih =>
    intro f
    rw [show m + 1 + n = (m + n) + 1 by omega]
    simp only [rootOf]
    congr 1
    refine List.map_congr_left fun d _ => ?_
    rw [ih]
    refine rootOf_congr H a m _ _ fun s _ => ?_
    simp only [below]
    refine rootOf_congr H a n _ _ fun i _ => ?_
    simp only [belowNode, below]
    congr 1
    rw [pow_add]
    ring

/-- **C128 is false of the code: an inner node is accepted as a leaf.** Let `root` be the root of the tree of depth `m + n` with the leaves `f`. A verifier with the
depth `m + n` accepts a proof that the *inner node* with the number `index` at the level `m` (`m = 0`: the root itself) is the leaf with that index. -/
theorem inner_node_accepted (O : Transcript F V → F) (tr : Transcript F V) (g h : V) {rep : F → Nat} {q : Nat} (can : Canon q rep) (a : Arity) (modBytes : Nat)
    (p : PoseidonParams F) (sb : Sbox) (hsb : sb ≠ .inverse) (hw : a.num + 1 = p.width) (c : Nat) (m n : Nat) (f : Nat → F) (index : F)
    (hidx : rep index < a.num ^ m) (hm4 : a = .four → m ≤ 4 * modBytes) (hide : Bool) (blindings : List F) (hbl : blindings.length = if hide then 2 else 1)
    (rnd : Nat → F) :
    ∃ P Cs, HonestAccepted O g h tr P (verifyLeaf a rep modBytes p sb c none g h (rootOf (poseidonOf p sb (c : F)) a.num (m + n) f) (m + n)
        (if hide then none else some (rootOf (poseidonOf p sb (c : F)) a.num n (belowNode a.num n (rep index) f)))) Cs ∧
      Cs[0]? = some (index • g + blindings.getD 0 0 • h) ∧
      (hide → Cs[1]? = some (rootOf (poseidonOf p sb (c : F)) a.num n (belowNode a.num n (rep index) f) • g + blindings.getD 1 0 • h)) := by
  have hlen := proofOf_length (poseidonOf p sb (c : F)) a.num m (rep index) fun s => rootOf (poseidonOf p sb (c : F)) a.num n (belowNode a.num n s f)
  have hl := proofOf_lengths (poseidonOf p sb (c : F)) a.num a.num_pos m (rep index) fun s => rootOf (poseidonOf p sb (c : F)) a.num n (belowNode a.num n s f)
  have hc := proofOf_climb (poseidonOf p sb (c : F)) a.num a.num_pos m (rep index) fun s => rootOf (poseidonOf p sb (c : F)) a.num n (belowNode a.num n s f)
  rw [← rootOf_level, Nat.mod_eq_of_lt hidx] at hc
  have := leaf_complete O tr g h can a modBytes p sb hw c (rootOf (poseidonOf p sb (c : F)) a.num n (belowNode a.num n (rep index) f)) index hide (some blindings)
    none (.inl rfl) hbl _ (rootOf (poseidonOf p sb (c : F)) a.num (m + n) f) (m + n) rnd (by rw [hlen]; exact le_trans (Nat.le_add_right m n) (rounds_ge a _))
    (fun e => by rw [hlen]; exact hm4 e) hl (by rw [hlen]; exact hidx) (by rw [hlen]; exact hc) (fun e => absurd e hsb)
  refine ⟨_, _, this, rfl, fun hh => ?_⟩
  subst hh
  rfl

/-- **C128, the root as a leaf**: whatever the root and the depth are, a verifier accepts a proof that the leaf with the index 0 is the root — with commitments to the
index (and the leaf) only; for all S-boxes, since nothing is hashed. -/
theorem root_accepted_as_leaf (O : Transcript F V → F) (tr : Transcript F V) (g h : V) {rep : F → Nat} {q : Nat} [CharP F q] (can : Canon q rep) (a : Arity)
    (modBytes : Nat) (p : PoseidonParams F) (sb : Sbox) (hw : a.num + 1 = p.width) (c : Nat) (root : F) (depth : Nat) (b0 b1 : F) :
    (∃ P, HonestAccepted O g h tr P (verifyLeaf a rep modBytes p sb c none g h root depth (some root)) [(0 : F) • g + b0 • h]) ∧
      ∃ P, HonestAccepted O g h tr P (verifyLeaf a rep modBytes p sb c none g h root depth none) [(0 : F) • g + b0 • h, root • g + b1 • h] := by
  have h0 : rep (0 : F) = 0 := by have := can.eq_mod 0; simpa using this
  constructor
  · exact ⟨_, leaf_complete O tr g h can a modBytes p sb hw c root 0 false (some [b0]) none (.inl rfl) rfl [] root depth (fun _ => 0) (Nat.zero_le _)
      (fun _ => Nat.zero_le _) (by simp) (by simp [h0]) rfl (fun _ => by simp [NoZeroNodes, climbNodes])⟩
  · exact ⟨_, leaf_complete O tr g h can a modBytes p sb hw c root 0 true (some [b0, b1]) none (.inl rfl) rfl [] root depth (fun _ => 0) (Nat.zero_le _)
      (fun _ => Nat.zero_le _) (by simp) (by simp [h0]) rfl (fun _ => by simp [NoZeroNodes, climbNodes])⟩

/-- **C128, below the leaves**: if a leaf of a 4-ary tree is the hash of four values, and the depth is not a multiple of 4, these values are accepted as leaves of the
same tree, with indices up to `4 ^ (depth + 1)`: the verifier has `4⌈depth / 4⌉` rounds, and uses as many levels as there are nodes. -/
theorem below_leaf_accepted (O : Transcript F V → F) (tr : Transcript F V) (g h : V) {rep : F → Nat} {q : Nat} (can : Canon q rep) (modBytes : Nat)
    (p : PoseidonParams F) (sb : Sbox) (hsb : sb ≠ .inverse) (hw : 5 = p.width) (c : Nat) (depth : Nat) (hd : depth % 4 ≠ 0) (f : Nat → F) (index : F)
    (hidx : rep index < 4 ^ (depth + 1)) (hm4 : depth + 1 ≤ 4 * modBytes) (blinding : F) :
    ∃ P Cs, HonestAccepted O g h tr P (verifyLeaf .four rep modBytes p sb c none g h (rootOf (poseidonOf p sb (c : F)) 4 (depth + 1) f) depth
      (some (f (rep index)))) Cs ∧ Cs[0]? = some (index • g + blinding • h) := by
  have hlen := proofOf_length (poseidonOf p sb (c : F)) 4 (depth + 1) (rep index) f
  have hl := proofOf_lengths (poseidonOf p sb (c : F)) 4 (by decide) (depth + 1) (rep index) f
  have hc := proofOf_climb (poseidonOf p sb (c : F)) 4 (by decide) (depth + 1) (rep index) f
  rw [Nat.mod_eq_of_lt hidx] at hc
  have hr : depth + 1 ≤ Arity.rounds depth .four := by simp only [Arity.rounds, byteSize4]; split <;> omega
  have := leaf_complete O tr g h can .four modBytes p sb hw c (f (rep index)) index false (some [blinding]) none (.inl rfl) rfl _
    (rootOf (poseidonOf p sb (c : F)) 4 (depth + 1) f) depth (fun _ => 0) (by rw [hlen]; exact hr) (fun e => by rw [hlen]; exact hm4) hl (by rw [hlen]; exact hidx)
    (by rw [hlen]; exact hc) (fun e => absurd e hsb)
  exact ⟨_, _, this, rfl⟩

/-- **C128, what does hold**: the number of levels that an accepted proof uses is the number of commitments to nodes, divided by the arity less 1 (without remainder),
or the number of rounds if there are more. A verifier that checks the number of commitments gets C127. -/
theorem leaf_node_count {A : Asg F} (a : Arity) (rep : F → Nat) (modBytes : Nat) (p : PoseidonParams F) (sb : Sbox) (hsb : sb ≠ .inverse) (c : Nat) (capVar : Option Var)
    (g h : V) (root : F) (depth : Nat) (leafVal : Option F) (Cs : List V) (t0 t : VState F V)
    (run : (verifyLeaf a rep modBytes p sb c capVar g h root depth leafVal Cs).runV VState.top t0 = .ok ((), t)) (sat : Sat t.numVars t.cons A) :
    (Cs.length - nodesFrom leafVal) % (a.num - 1) = 0 ∨ (a.num - 1) * a.rounds depth < Cs.length - nodesFrom leafVal := by
  obtain ⟨-, -, proof, rest, h1, h2, h3, h4, -⟩ := leaf_sound a rep modBytes p sb hsb c capVar g h root depth leafVal Cs t0 t run sat
  have hl := congrArg List.length h1
  rw [List.length_append, chunks_length proof h2, committedValues, List.length_map, List.length_range] at hl
  rcases h4 with h4 | h4
  · left
    rw [hl, h4, List.length_nil, Nat.zero_add]
    exact Nat.mul_mod_right _ _
  · by_cases hr : rest = []
    · left
      rw [hl, hr, List.length_nil, Nat.zero_add]
      exact Nat.mul_mod_right _ _
    · right
      have : 0 < rest.length := List.length_pos_iff.2 hr
      rw [hl, h4]
      omega

/-- **C127, one gadget object, one session**: after a setup, neither prover nor verifier can use the object again. -/
theorem setup_once (a : Arity) (rep : F → Nat) (modBytes : Nat) (p : PoseidonParams F) (sb : Sbox) (c : Nat) (x : Var) (g h : V) :
    (∀ leaf index hide bl proof root depth rng rnd (s : PState F V) r,
      (proveLeaf a rep modBytes p sb c (some x) g h leaf index hide bl proof root depth rng rnd).runP (PState.top g h) s ≠ .ok r) ∧
      ∀ root depth leafVal Cs (t : VState F V) r, (verifyLeaf a rep modBytes p sb c (some x) g h root depth leafVal Cs).runV VState.top t ≠ .ok r := by
  have hP : ∀ {α β : Type} (p : Prog F (Top F (F × F)) Var α) (f : α → Prog F (Top F (F × F)) Var β) , (∀ y (s : PState F V) r, (f y).runP (PState.top g h) s ≠ .ok r) →
      ∀ (s : PState F V) r, (p >>= f).runP (PState.top g h) s ≠ .ok r := by
    intro α β p f hf s r e
    rw [prog_bind, Prog.runP_bind] at e
    obtain ⟨q, -, e2⟩ := Res.bind_eq_ok.1 e
    exact hf _ _ _ e2
  have hV : ∀ {α β : Type} (p : Prog F (Top F V) Var α) (f : α → Prog F (Top F V) Var β) , (∀ y (s : VState F V) r, (f y).runV VState.top s ≠ .ok r) →
      ∀ (s : VState F V) r, (p >>= f).runV VState.top s ≠ .ok r := by
    intro α β p f hf s r e
    rw [prog_bind, Prog.runV_bind] at e
    obtain ⟨q, -, e2⟩ := Res.bind_eq_ok.1 e
    exact hf _ _ _ e2
  constructor
  · intro leaf index hide bl proof root depth rng rnd
    refine hP _ _ fun y1 => hP _ _ fun y2 => hP _ _ fun y3 => hP _ _ fun y4 => ?_
    intro s r e
    simp [setupP, prog_bind, Prog.bind, Prog.runP] at e
  · intro root depth leafVal Cs
    refine hV _ _ fun y1 => hV _ _ fun y2 => hV _ _ fun y3 => ?_
    intro s r e
    simp [setupV, prog_bind, Prog.bind, Prog.runV] at e

/-! ## Concrete sessions -/

open Verif.Toy

/-- C127: the tree with 16 leaves of C126; the leaf 6 has the value 48 -/
example (O : Transcript (ZMod 101) (ZMod 101) → ZMod 101) : ∃ root proof, HonestAccepted O (2 : ZMod 101) (3 : ZMod 101) []
    (proveLeaf .four ZMod.val 1 toyPoseidon4 .cube (capConst 4) none 2 3 48 6 true (some [7, 8]) proof root 2 none fun i => (i : ZMod 101))
    (verifyLeaf .four ZMod.val 1 toyPoseidon4 .cube (capConst 4) none 2 3 root 2 none)
    (leafCommitments 2 3 48 6 true [7, 8] proof fun i => (i : ZMod 101)) := by
  have hdb : ∀ k x, (HashDb.new : HashDb (ZMod 101)) k = some x → poseidonOf toyPoseidon4 .cube ((capConst 4 : Nat) : ZMod 101) x = k := by
    intro k v h; simp [HashDb.new] at h
  obtain ⟨db, hist, -, -⟩ := tree_history toy_tree_met.1 ZMod.val 2 toyUpdates HashDb.new hdb toy_tree_met.2
  obtain ⟨proof, -, hc⟩ := tree_leaf_complete O [] (2 : ZMod 101) (3 : ZMod 101) canon101 .four 1 toyPoseidon4 .cube rfl 2 toyUpdates HashDb.new hdb
    toy_tree_met.2 _ db hist 6 (by decide) (by decide) true (some [7, 8]) none (.inl rfl) rfl fun i => (i : ZMod 101)
  exact ⟨_, proof, hc (fun h => by cases h)⟩

/-- parameters of width 9 in the field with 101 elements -/
def toyPoseidon8 : PoseidonParams (ZMod 101) :=
  ⟨9, 1, 1, 1, (List.range 27).map fun i => ((i : Nat) : ZMod 101), (List.range 9).map fun i => (List.range 9).map fun j => (((i + 2) ^ j + i : Nat) : ZMod 101)⟩

/-- C127, 8-ary: a tree of depth 1; the hypotheses of the soundness theorem are met too -/
example : ∃ root, ∃ Cs t A, (verifyLeaf (F := ZMod 101) (V := ZMod 101) .eight ZMod.val 1 toyPoseidon8 .quint (capConst 8) none 2 3 root 1 none Cs).runV VState.top
    (VState.new []) = .ok ((), t) ∧ Sat t.numVars t.cons A :=
  ⟨_, _, met_of_honest (leaf_complete (fun _ => 1) [] (2 : ZMod 101) (3 : ZMod 101) canon101 .eight 1 toyPoseidon8 .quint rfl (capConst 8) 33 5 true (some [7, 8]) none
    (.inl rfl) rfl [[1, 2, 3, 4, 5, 6, 7]] _ 1 (fun i => (i : ZMod 101)) (by decide) (by decide) (by decide) (by decide) rfl (fun h => by cases h))⟩

/-- C128: the number 77 is accepted as the leaf 0 of every 4-ary tree with the root 77 -/
example (O : Transcript (ZMod 101) (ZMod 101) → ZMod 101) (depth : Nat) :
    ∃ P, HonestAccepted O (2 : ZMod 101) (3 : ZMod 101) [] P (verifyLeaf .four ZMod.val 1 toyPoseidon4 .cube (capConst 4) none 2 3 77 depth (some 77))
      [(0 : ZMod 101) • (2 : ZMod 101) + (5 : ZMod 101) • (3 : ZMod 101)] :=
  (root_accepted_as_leaf O [] (2 : ZMod 101) (3 : ZMod 101) canon101 .four 1 toyPoseidon4 .cube rfl (capConst 4) 77 depth 5 6).1

/-- C128: with depth 1 a verifier accepts the leaf 9 of a tree of depth 2 -/
example (O : Transcript (ZMod 101) (ZMod 101) → ZMod 101) (f : Nat → ZMod 101) :
    ∃ P Cs, HonestAccepted O (2 : ZMod 101) (3 : ZMod 101) [] P (verifyLeaf .four ZMod.val 1 toyPoseidon4 .cube (capConst 4) none 2 3
      (rootOf (poseidonOf toyPoseidon4 .cube ((capConst 4 : Nat) : ZMod 101)) 4 2 f) 1 (some (f 9))) Cs ∧ Cs[0]? = some ((9 : ZMod 101) • (2 : ZMod 101) + (5 : ZMod 101) • (3 : ZMod 101)) :=
  below_leaf_accepted O [] (2 : ZMod 101) (3 : ZMod 101) canon101 1 toyPoseidon4 .cube (by decide) rfl (capConst 4) 1 (by decide) f 9 (by decide) (by decide) 5

end Verif.BP
