import Verif.Props.BPTree
set_option linter.unusedSectionVars false
set_option linter.unusedSimpArgs false
set_option linter.unusedVariables false
/-!
# Merkle proofs (C126)
-/
namespace Verif.BP
variable {F V : Type} [Field F] [AddCommGroup V] [Module F V] [DecidableEq F] [DecidableEq V]

/-! ## Specification -/

/-- the root that follows from a leaf, with the positions `ds` on the path and the siblings, both from the leaf to the root -/
def climb (H : List F → F) : List Nat → List (List F) → F → F
  | d :: ds, s :: ss, x => climb H ds ss (H (s.insertIdx d x))
  | _, _, x => x

/-- the nodes (lists of children) that are hashed on the way, from the leaf to the root -/
def climbNodes (H : List F → F) : List Nat → List (List F) → F → List (List F)
  | d :: ds, s :: ss, x => s.insertIdx d x :: climbNodes H ds ss (H (s.insertIdx d x))
  | _, _, _ => []

/-- the positions on the path to the leaf `s`, from the leaf to the root -/
def positions (a n s : Nat) : List Nat := (List.range n).map fun i => s / a ^ i % a

/-- the nodes that `verify_proof` hashes: of a leaf with the value `val`, with the first `depth` nodes of `proof` as siblings -/
def hashedNodes (H : List F → F) (a depth s : Nat) (val : F) (proof : List (List F)) : List (List F) :=
  climbNodes H (positions a depth s) (proof.take depth).reverse val

/-- a collision: at some level the two lists have different nodes with the same hash -/
def CollisionAt (H : List F → F) (l l' : List (List F)) : Prop := ∃ (j : Nat) (c c' : List F), l[j]? = some c ∧ l'[j]? = some c' ∧ c ≠ c' ∧ H c = H c'

/-! ## Verification -/

section
variable {b : Nat} {hash : List F → Res Err F} {H : List F → F}

theorem positions_eq (b n s : Nat) : positions (2 ^ b) n s = (reprPow2 b s n).reverse := by
  rw [reprPow2, List.reverse_reverse, digitsLow_eq]; rfl

theorem verifyLoop_eq (hH : Hashes hash (2 ^ b) H) {proof : List (List F)} {depth : Nat} (hp : ∀ p ∈ proof.take depth, p.length = 2 ^ b - 1)
    (hl : depth ≤ proof.length) : ∀ (ds : List Nat) (i : Nat) (x : F), i + ds.length = depth → (∀ d ∈ ds, d < 2 ^ b) →
    treeVerifyLoop hash proof depth i ds x = .ok (climb H ds ((proof.take depth).reverse.drop i) x) := by
  intro ds
  induction ds with
  | nil => intro i x _ _; rfl
  | cons d ds ih =>
    intro i x hi hd
    rw [List.length_cons] at hi
    have hlt : depth - 1 - i < proof.length := by omega
    have hlen : ((proof.take depth).reverse).length = depth := by rw [List.length_reverse, List.length_take]; omega
    have hi2 : i < ((proof.take depth).reverse).length := by omega
    have e : ((proof.take depth).reverse)[i] = proof[depth - 1 - i] := by
      rw [List.getElem_reverse, List.getElem_take]
      congr 1
      rw [List.length_take]; omega
    have hmem : proof[depth - 1 - i] ∈ proof.take depth := by
      rw [← e]
      exact List.mem_reverse.1 (List.getElem_mem hi2)
    rw [treeVerifyLoop, List.getElem?_eq_getElem hlt, List.drop_eq_getElem_cons hi2, climb, e]
    simp only [Res.unwrap_some, Res.ok_bind]
    rw [hH _ (by
      have h1 := hd d (by simp)
      have h2 := hp _ hmem
      rw [List.length_insertIdx_of_le_length (by omega)]; omega)]
    simp only [Res.ok_bind]
    exact ih (i + 1) _ (by omega) fun d' h => hd d' (by simp [h])

/-- `verify_proof` recomputes the root from the leaf, with the siblings of the proof -/
theorem verify_iff (hH : Hashes hash (2 ^ b) H) (rep : F → Nat) (depth : Nat) (current idx val : F) (proof : List (List F)) (root : Option F)
    (hl : depth ≤ proof.length) (hp : ∀ p ∈ proof.take depth, p.length = 2 ^ b - 1) :
    treeVerify b hash rep depth current idx val proof root =
      .ok (decide (climb H (positions (2 ^ b) depth (rep idx)) (proof.take depth).reverse val = root.getD current)) := by
  rw [treeVerify, verifyLoop_eq hH hp hl _ 0 val (by simp [reprPow2_length]) (fun d h => reprPow2_lt b _ _ (List.mem_reverse.1 h)), ← positions_eq, List.drop_zero]
  cases root <;> rfl

theorem climb_unique (H : List F → F) : ∀ (ds : List Nat) (ss ss' : List (List F)) (x x' : F), ss.length = ds.length → ss'.length = ds.length →
    (∀ i (h : i < ds.length), ∀ s, ss[i]? = some s → ds[i] ≤ s.length) → (∀ i (h : i < ds.length), ∀ s, ss'[i]? = some s → ds[i] ≤ s.length) →
    climb H ds ss x = climb H ds ss' x' → (x = x' ∧ ss = ss') ∨ CollisionAt H (climbNodes H ds ss x) (climbNodes H ds ss' x') := by
  intro ds
  induction ds with
  | nil =>
    intro ss ss' x x' h1 h2 _ _ e
    rw [List.length_nil, List.length_eq_zero_iff] at h1 h2
    subst h1; subst h2
    exact .inl ⟨e, rfl⟩
  | cons d ds ih =>
    intro ss ss' x x' h1 h2 h3 h4 e
    cases ss with
    | nil => simp at h1
    | cons s ss =>
      cases ss' with
      | nil => simp at h2
      | cons s' ss' =>
        rw [climb, climb] at e
        have hs : d ≤ s.length := h3 0 (by simp) s rfl
        have hs' : d ≤ s'.length := h4 0 (by simp) s' rfl
        rcases ih ss ss' _ _ (by simpa using h1) (by simpa using h2) (fun i h t ht => h3 (i + 1) (by simpa using h) t (by simpa using ht))
          (fun i h t ht => h4 (i + 1) (by simpa using h) t (by simpa using ht)) e with ⟨hx, hss⟩ | ⟨j, c, c', hc, hc', hne, heq⟩
        · by_cases hee : s.insertIdx d x = s'.insertIdx d x'
          · left
            have h5 : s = s' := by
              have := congrArg (fun l => l.eraseIdx d) hee
              simpa [List.eraseIdx_insertIdx_self] using this
            have h6 : x = x' := by
              have := congrArg (fun l => l[d]?) hee
              simp only [List.getElem?_insertIdx_self, hs, hs', if_true] at this
              simpa using this
            exact ⟨h6, by rw [h5, hss]⟩
          · exact .inr ⟨0, _, _, rfl, rfl, hee, hx⟩
        · exact .inr ⟨j + 1, c, c', by simpa [climbNodes] using hc, by simpa [climbNodes] using hc', hne, heq⟩

theorem pos_le {depth s : Nat} {proof : List (List F)} (hl : depth ≤ proof.length) (hp : ∀ p ∈ proof.take depth, p.length = 2 ^ b - 1) :
    ∀ i (h : i < (positions (2 ^ b) depth s).length), ∀ q, (proof.take depth).reverse[i]? = some q → (positions (2 ^ b) depth s)[i] ≤ q.length := by
  intro i h q hq
  have h1 := hp q (List.mem_reverse.1 (List.mem_of_getElem? hq))
  have h2 : (positions (2 ^ b) depth s)[i] < 2 ^ b := by
    simp only [positions, List.getElem_map]
    exact Nat.mod_lt _ (by positivity)
  omega

/-- **C126, proofs bind.** If `verify_proof` accepts two proofs for the same index and the same root, then the values and the (first `depth`) nodes of the
proofs are equal, or among the nodes that it hashes, there are two different ones with the same hash, at the same level. -/
theorem proof_binding (hH : Hashes hash (2 ^ b) H) (rep : F → Nat) (depth : Nat) (current current' idx val val' root : F) (proof proof' : List (List F))
    (hl : depth ≤ proof.length) (hl' : depth ≤ proof'.length) (hp : ∀ p ∈ proof.take depth, p.length = 2 ^ b - 1)
    (hp' : ∀ p ∈ proof'.take depth, p.length = 2 ^ b - 1)
    (h : treeVerify b hash rep depth current idx val proof (some root) = .ok true)
    (h' : treeVerify b hash rep depth current' idx val' proof' (some root) = .ok true) :
    (val = val' ∧ proof.take depth = proof'.take depth) ∨
      CollisionAt H (hashedNodes H (2 ^ b) depth (rep idx) val proof) (hashedNodes H (2 ^ b) depth (rep idx) val' proof') := by
  rw [verify_iff hH rep depth _ _ _ _ _ hl hp] at h
  rw [verify_iff hH rep depth _ _ _ _ _ hl' hp'] at h'
  simp only [Res.ok.injEq, decide_eq_true_eq, Option.getD_some] at h h'
  have hpl : (positions (2 ^ b) depth (rep idx)).length = depth := by simp [positions]
  rcases climb_unique H (positions (2 ^ b) depth (rep idx)) _ _ val val' (by rw [List.length_reverse, List.length_take, hpl]; omega)
    (by rw [List.length_reverse, List.length_take, hpl]; omega) (pos_le hl hp) (pos_le hl' hp') (h.trans h'.symm) with ⟨h1, h2⟩ | h1
  · exact .inl ⟨h1, List.reverse_injective h2⟩
  · exact .inr h1

/-- the proof that `get` gives leads from the leaf to the root -/
theorem proofOf_climb (H : List F → F) (a : Nat) (ha : 0 < a) : ∀ (n s : Nat) (f : Nat → F),
    climb H (positions a n s) (proofOf H a n s f).reverse (f (s % a ^ n)) = rootOf H a n f := by
  have happ : ∀ (ds ds' : List Nat) (ss ss' : List (List F)) (x : F), ds.length = ss.length →
      climb H (ds ++ ds') (ss ++ ss') x = climb H ds' ss' (climb H ds ss x) := by
    intro ds
    induction ds with
    | nil => intro ds' ss ss' x h; rw [List.length_nil, eq_comm, List.length_eq_zero_iff] at h; subst h; rfl
    | cons d ds ih =>
      intro ds' ss ss' x h
      cases ss with
      | nil => simp at h
      | cons s ss => simp only [List.cons_append, climb]; exact ih _ _ _ _ (by simpa using h)
  intro n
  induction n with
  | zero => intro s f; rw [pow_zero, Nat.mod_one]; rfl
  | succ n ih =>
    intro s f
    have hd : s / a ^ n % a < a := Nat.mod_lt _ ha
    have e1 : positions a (n + 1) s = positions a n s ++ [s / a ^ n % a] := by
      rw [positions, List.range_succ, List.map_append]; rfl
    rw [e1, proofOf, List.reverse_cons, happ _ _ _ _ _ (by simp [positions, proofOf_length]), ← below_value a n s f, ih]
    have hlen : (kids H a n f).length = a := by simp [kids]
    rw [climb, insert_erase _ _ _ (by rw [hlen]; exact hd)]
    have e2 : (kids H a n f).set (s / a ^ n % a) (rootOf H a n (below a n (s / a ^ n % a) f)) = kids H a n f := by
      apply List.ext_getElem
      · simp
      · intro i h1 h2
        rw [List.getElem_set]
        split
        · rename_i hi; subst hi; simp [kids]
        · rfl
    rw [e2]
    rfl

theorem proofOf_lengths (H : List F → F) (a : Nat) (ha : 0 < a) : ∀ (n s : Nat) (f : Nat → F), ∀ p ∈ proofOf H a n s f, p.length = a - 1 := by
  intro n
  induction n with
  | zero => intro s f p hp; simp [proofOf] at hp
  | succ n ih =>
    intro s f p hp
    rcases List.mem_cons.1 hp with rfl | hp
    · rw [List.length_eraseIdx_of_lt (by simp [kids]; exact Nat.mod_lt _ ha)]
      simp [kids]
    · exact ih _ _ _ hp

/-- **C126, completeness**, and **binding to the leaves of the tree**. After any history as in C125: `get` gives, with the leaf, a proof of `depth` nodes that
`verify_proof` accepts for that leaf; and if `verify_proof` accepts *any* proof of a value for that index and that root,
the value is the leaf, unless a node that it hashes and a different node that is hashed for the proof from `get` have the same hash. -/
theorem tree_proofs (hH : Hashes hash (2 ^ b) H) (rep : F → Nat) (depth : Nat) (ups : List (F × F)) (db0 : HashDb F)
    (hdb : ∀ k v, db0 k = some v → H v = k) (inj : Set.InjOn H (historyNodes H (2 ^ b) rep depth ups db0)) (root : F) (db : HashDb F)
    (run : runHistory b hash rep depth ups db0 = .ok (root, db)) (idx : F) :
    ∃ proof, treeGet b rep depth root idx db = .ok (leavesAfter rep ((2 ^ b) ^ depth) ups (rep idx % (2 ^ b) ^ depth), proof) ∧
      proof.length = depth ∧ (∀ p ∈ proof, p.length = 2 ^ b - 1) ∧
      treeVerify b hash rep depth root idx (leavesAfter rep ((2 ^ b) ^ depth) ups (rep idx % (2 ^ b) ^ depth)) proof none = .ok true ∧
      ∀ (val : F) (proof' : List (List F)), depth ≤ proof'.length → (∀ p ∈ proof'.take depth, p.length = 2 ^ b - 1) →
        treeVerify b hash rep depth root idx val proof' none = .ok true →
        (val = leavesAfter rep ((2 ^ b) ^ depth) ups (rep idx % (2 ^ b) ^ depth) ∧ proof'.take depth = proof) ∨
          CollisionAt H (hashedNodes H (2 ^ b) depth (rep idx) val proof')
            (hashedNodes H (2 ^ b) depth (rep idx) (leavesAfter rep ((2 ^ b) ^ depth) ups (rep idx % (2 ^ b) ^ depth)) proof) := by
  have ha : 0 < 2 ^ b := by positivity
  obtain ⟨db1, e1, e2, -⟩ := tree_history hH rep depth ups db0 hdb inj
  rw [run, Res.ok.injEq, Prod.mk.injEq] at e1
  obtain ⟨rfl, rfl⟩ := e1
  have hget := e2 ups.length (le_refl _) idx
  rw [List.take_length] at hget
  have hlen := proofOf_length H (2 ^ b) depth (rep idx) (leavesAfter rep ((2 ^ b) ^ depth) ups)
  have hps := proofOf_lengths H (2 ^ b) ha depth (rep idx) (leavesAfter rep ((2 ^ b) ^ depth) ups)
  have htake : (proofOf H (2 ^ b) depth (rep idx) (leavesAfter rep ((2 ^ b) ^ depth) ups)).take depth =
      proofOf H (2 ^ b) depth (rep idx) (leavesAfter rep ((2 ^ b) ^ depth) ups) := by rw [List.take_of_length_le (by omega)]
  have hv : treeVerify b hash rep depth (rootOf H (2 ^ b) depth (leavesAfter rep ((2 ^ b) ^ depth) ups)) idx
      (leavesAfter rep ((2 ^ b) ^ depth) ups (rep idx % (2 ^ b) ^ depth))
      (proofOf H (2 ^ b) depth (rep idx) (leavesAfter rep ((2 ^ b) ^ depth) ups)) none = .ok true := by
    rw [verify_iff hH rep depth _ _ _ _ _ (by omega) (by rw [htake]; exact hps), htake, proofOf_climb H _ ha]
    simp
  refine ⟨_, hget, hlen, hps, hv, fun val proof' hl' hp' h => ?_⟩
  have hsome : ∀ (cur i v : F) pr, treeVerify b hash rep depth cur i v pr (some cur) = treeVerify b hash rep depth cur i v pr none := by
    intros; rfl
  have := proof_binding hH rep depth _ _ idx val _ _ proof' _ hl' (by omega) hp' (by rw [htake]; exact hps) ((hsome _ _ _ _).trans h)
    ((hsome _ _ _ _).trans hv)
  rw [htake] at this
  exact this

/-- **C126, the length of a proof.** `verify_proof` panics if the proof has fewer nodes than the tree has levels; nodes after the first `depth` are ignored. -/
theorem short_proof_panics (rep : F → Nat) (depth : Nat) (current idx val : F) (proof : List (List F)) (root : Option F) (h : proof.length < depth) :
    treeVerify b hash rep depth current idx val proof root = .panic := by
  obtain ⟨n, rfl⟩ : ∃ n, depth = n + 1 := ⟨depth - 1, by omega⟩
  rw [treeVerify, ← positions_eq, positions, List.range_succ_eq_map, List.map_cons, treeVerifyLoop, List.getElem?_eq_none (by omega)]
  rfl

theorem long_proof_ignored (hH : Hashes hash (2 ^ b) H) (rep : F → Nat) (depth : Nat) (current idx val : F) (proof extra : List (List F)) (root : Option F)
    (hl : proof.length = depth) (hp : ∀ p ∈ proof, p.length = 2 ^ b - 1) :
    treeVerify b hash rep depth current idx val (proof ++ extra) root = treeVerify b hash rep depth current idx val proof root := by
  have e : (proof ++ extra).take depth = proof := by rw [← hl]; simp
  have e' : proof.take depth = proof := by rw [← hl]; simp
  rw [verify_iff hH rep depth _ _ _ _ _ (by simp; omega) (by rw [e]; exact hp), verify_iff hH rep depth _ _ _ _ _ (by omega) (by rw [e']; exact hp), e, e']

/-- the index is taken modulo the number of leaves -/
theorem proof_index_mod (rep : F → Nat) (depth : Nat) (current idx idx' val : F) (proof : List (List F)) (root : Option F)
    (h : rep idx % (2 ^ b) ^ depth = rep idx' % (2 ^ b) ^ depth) :
    treeVerify b hash rep depth current idx val proof root = treeVerify b hash rep depth current idx' val proof root := by
  rw [treeVerify, treeVerify, ← reprPow2_mod b (rep idx), h, reprPow2_mod]

end

/-! ## The Poseidon hash -/

/-- the second element of the permutation -/
def poseidonOf (p : PoseidonParams F) (sb : Sbox) (c : F) (xs : List F) : F := ((p.permute sb (c :: xs))[1]?).getD 0

/-- `PoseidonHash4` and `PoseidonHash8` succeed for 4 and 8 inputs, if the parameters have the width 5 and 9 -/
theorem merkleHash_hashes (k : Nat) (p : PoseidonParams F) (sb : Sbox) (hk : k + 1 = p.width) (hk0 : 0 < k) :
    Hashes (merkleHash k p sb) k (poseidonOf p sb (capConst k : F)) := by
  intro l hl
  obtain ⟨y, hy, -⟩ := poseidonHash_ok k p sb l hk hk0 hl
  rw [merkleHash, if_neg (by simpa using hl), hy]
  rw [poseidonHash_eq_ok] at hy
  rw [poseidonOf, hy.2.2]
  rfl

/-- with a number of inputs that is not the arity `hash` fails -/
theorem merkleHash_inputs (k : Nat) (p : PoseidonParams F) (sb : Sbox) (xs : List F) (h : xs.length ≠ k) :
    merkleHash k p sb xs = .err (.merkleInputs xs.length k) := by rw [merkleHash, if_pos h]

/-! ## The MiMC hash, missing nodes -/

/-- a Feistel network with cubes: the left half after all rounds, starting from the two children of a node -/
def mimcNode (constants : List F) (node : List F) : F :=
  (constants.foldl (fun (s : F × F) c => ((s.1 + c) ^ 3 + s.2, s.1)) ((node[0]?).getD 0, (node[1]?).getD 0)).1

/-- `Mimc2` hashes nodes of two children, left child first, so that the theorems on trees apply to binary trees over MiMC; with
fewer children it panics -/
theorem mimc2Hash_hashes (constants : List F) : Hashes (mimc2Hash constants) 2 (mimcNode constants) ∧
    ∀ l, l.length < 2 → mimc2Hash constants l = .panic := by
  have key : ∀ (cs : List F) (a b : F), mimc a b cs = (cs.foldl (fun (s : F × F) c => ((s.1 + c) ^ 3 + s.2, s.1)) (a, b)).1 := by
    intro cs
    induction cs with
    | nil => intro a b; rfl
    | cons c cs ih =>
      intro a b
      rw [mimc, ih, List.foldl_cons]
      congr 3
      ring
  constructor
  · intro l hl
    match l, hl with
    | [a, b], _ =>
      unfold mimc2Hash mimcNode
      simp [key]
  · intro l hl
    match l, hl with
    | [], _ => rfl
    | [a], _ => rfl

/-- **C125** `get` and `update` for a root that the database does not know are errors -/
theorem unknown_root (b : Nat) (hash : List F → Res Err F) (rep : F → Nat) (depth : Nat) (root idx val : F) (db : HashDb F) (h : db root = none) :
    treeGet b rep (depth + 1) root idx db = .err .hashNotFound ∧ treeUpdate b hash rep (depth + 1) root idx val db = .err .hashNotFound := by
  have h1 : treeGet b rep (depth + 1) root idx db = .err .hashNotFound := by
    rw [treeGet, reprPow2_succ, treeGetLoop, HashDb.get, h]
    rfl
  refine ⟨h1, ?_⟩
  rw [treeUpdate, h1]
  rfl

/-! ## A concrete tree -/

/-- the inner nodes, as a list -/
def nodesList (H : List F → F) (a : Nat) : Nat → (Nat → F) → List (List F)
  | 0, _ => []
  | n + 1, f => kids H a n f :: (List.range a).flatMap fun d => nodesList H a n (below a n d f)

theorem mem_nodesList (H : List F → F) (a : Nat) (c : List F) : ∀ (n : Nat) (f : Nat → F), c ∈ nodesOf H a n f ↔ c ∈ nodesList H a n f := by
  intro n
  induction n with
  | zero => intro f; simp [nodesOf, nodesList]
  | succ n ih =>
    intro f
    simp only [nodesOf, nodesList, Set.mem_setOf_eq, List.mem_cons, List.mem_flatMap, List.mem_range]
    exact or_congr_right (exists_congr fun d => and_congr_right fun _ => ih _)

open Verif.Toy

/-- parameters of width 5 in the field with 101 elements -/
def toyPoseidon4 : PoseidonParams (ZMod 101) :=
  ⟨5, 1, 1, 1, [1, 2, 3, 4, 5, 6, 7, 8, 9, 10, 11, 12, 13, 14, 15], [[2, 3, 5, 7, 11], [13, 17, 19, 23, 29], [31, 37, 41, 43, 47], [53, 59, 61, 67, 71], [73, 79, 83, 89, 97]]⟩

/-- C125 and C126: a history of three updates of a tree with 16 leaves (the third is an update of the leaf 6, since 22 = 16 + 6) that meets the hypotheses -/
def toyUpdates : List (ZMod 101 × ZMod 101) := [(6, 42), (9, 45), (22, 48)]

theorem toy_tree_met : Hashes (merkleHash 4 toyPoseidon4 .cube) (2 ^ 2) (poseidonOf toyPoseidon4 .cube ((capConst 4 : Nat) : ZMod 101)) ∧
    Set.InjOn (poseidonOf toyPoseidon4 .cube ((capConst 4 : Nat) : ZMod 101))
      (historyNodes (poseidonOf toyPoseidon4 .cube ((capConst 4 : Nat) : ZMod 101)) (2 ^ 2) ZMod.val 2 toyUpdates HashDb.new) := by
  refine ⟨merkleHash_hashes 4 toyPoseidon4 .cube rfl (by decide), ?_⟩
  generalize hH : poseidonOf toyPoseidon4 .cube ((capConst 4 : Nat) : ZMod 101) = H
  intro c hc c' hc' e
  have key : ∀ c, c ∈ historyNodes H (2 ^ 2) ZMod.val 2 toyUpdates HashDb.new →
      c ∈ (List.range 4).flatMap fun n => nodesList H (2 ^ 2) 2 (leavesAfter ZMod.val ((2 ^ 2) ^ 2) (toyUpdates.take n)) := by
    intro c hc
    rcases hc with ⟨k, hk⟩ | ⟨n, hn, hc⟩
    · simp [HashDb.new] at hk
    · rw [List.mem_flatMap]
      exact ⟨n, by simp [toyUpdates] at hn ⊢; omega, (mem_nodesList _ _ _ _ _).1 hc⟩
  have hdec : ∀ c ∈ (List.range 4).flatMap fun n => nodesList H (2 ^ 2) 2 (leavesAfter ZMod.val ((2 ^ 2) ^ 2) (toyUpdates.take n)),
      ∀ c' ∈ (List.range 4).flatMap fun n => nodesList H (2 ^ 2) 2 (leavesAfter ZMod.val ((2 ^ 2) ^ 2) (toyUpdates.take n)), H c = H c' → c = c' := by
    subst hH
    decide +kernel
  exact hdec c (key c hc) c' (key c' hc') e

/-- the leaves 6 and 9 of that tree, and a leaf that was not updated -/
example : ∃ root db, runHistory 2 (merkleHash 4 toyPoseidon4 .cube) ZMod.val 2 toyUpdates HashDb.new = .ok (root, db) ∧
    (∃ pr, treeGet 2 ZMod.val 2 root 6 db = .ok (48, pr)) ∧ (∃ pr, treeGet 2 ZMod.val 2 root 9 db = .ok (45, pr)) ∧
    ∃ pr, treeGet 2 ZMod.val 2 root 7 db = .ok (0, pr) := by
  obtain ⟨db, e1, e2, -⟩ := tree_history toy_tree_met.1 ZMod.val 2 toyUpdates HashDb.new (by intro k v h; simp [HashDb.new] at h) toy_tree_met.2
  have e3 := e2 3 (by decide)
  exact ⟨_, db, e1, ⟨_, e3 6⟩, ⟨_, e3 9⟩, ⟨_, e3 7⟩⟩

end Verif.BP
