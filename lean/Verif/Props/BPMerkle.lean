import Verif.Props.BPMerkleBase
set_option linter.unusedSectionVars false
set_option linter.unusedSimpArgs false
set_option linter.unusedVariables false
/-!
# Leaf inclusion in a sparse Merkle tree (C127, C128)
-/
namespace Verif.BP
variable {F V : Type} [Field F] [AddCommGroup V] [Module F V] [DecidableEq F] [DecidableEq V]

/-- the number of children of a node -/
def Arity.num (a : Arity) : Nat := 2 ^ a.bits

theorem Arity.num_pos (a : Arity) : 0 < a.num := by cases a <;> decide
theorem Arity.num_sub (a : Arity) : 0 < a.num - 1 := by cases a <;> decide
theorem Arity.one_lt (a : Arity) : 1 < a.num := by cases a <;> decide

/-! ## Digits -/

/-- the digits determine the number -/
theorem positions_ofDigits (b : Nat) (hb : 1 < b) : ∀ ds : List Nat, (∀ d ∈ ds, d < b) → positions b ds.length (Nat.ofDigits b ds) = ds := by
  intro ds
  induction ds with
  | nil => intro _; rfl
  | cons d ds ih =>
    intro h
    have hd : d < b := h d (by simp)
    have e := ih fun d' h' => h d' (by simp [h'])
    rw [positions, List.length_cons, List.range_succ_eq_map, List.map_cons, List.map_map, Nat.ofDigits_cons, pow_zero, Nat.div_one]
    congr 1
    · rw [Nat.add_mul_mod_self_left, Nat.mod_eq_of_lt hd]
    · rw [positions] at e
      conv_rhs => rw [← e]
      refine List.map_congr_left fun i _ => ?_
      simp only [Function.comp, Nat.succ_eq_add_one, pow_succ']
      rw [← Nat.div_div_eq_div_mul, Nat.add_mul_div_left _ _ (by omega), Nat.div_eq_of_lt hd, Nat.zero_add]

theorem ofDigits_positions (b : Nat) : ∀ (n s : Nat), Nat.ofDigits b (positions b n s) = s % b ^ n := by
  intro n
  induction n with
  | zero => intro s; simp [positions, Nat.mod_one]
  | succ n ih =>
    intro s
    have e : positions b (n + 1) s = s % b :: positions b n (s / b) := by
      rw [positions, List.range_succ_eq_map, List.map_cons, List.map_map, pow_zero, Nat.div_one]
      congr 1
      refine List.map_congr_left fun i _ => ?_
      simp only [Function.comp, Nat.succ_eq_add_one, pow_succ', Nat.div_div_eq_div_mul]
    rw [e, Nat.ofDigits_cons, ih, pow_succ', Nat.mod_mul]

/-! ## Soundness -/

section
variable {A : Asg F}

theorem merkleHash_imposes (a : Arity) (p : PoseidonParams F) (sb : Sbox) (hsb : sb ≠ .inverse) (cap : Var) :
    HashImposes V A (poseidonOf p sb (A.val cap)) (a.num + 1 = p.width) (merkleHashConstraints (2 ^ a.bits) p sb cap) := by
  intro ls
  refine (hash_imposes _ p sb hsb ls _).mono fun o ho => ⟨?_, ho.2.1⟩
  rw [lc_ofVar] at ho
  rw [poseidonOf, ho.2.2]
  rfl

theorem digit_none (a : Arity) {T R : Type} (rep : F → Nat) (modBytes depth i : Nat) : (a.digit rep modBytes depth none i : Prog F T R _) = pure none := by
  cases a <;> rfl

/-- what the gadget says: some of the last nodes are a proof that leads from the leaf, on the path to a number `s` that is the index, to the root -/
theorem verifGadget_imposes (a : Arity) (rep : F → Nat) (modBytes depth : Nat) (p : PoseidonParams F) (sb : Sbox) (hsb : sb ≠ .inverse) (cap : Var) (root : F)
    (leaf : LC F) (index : Var) (nodes : List Var) :
    Imposes V A (verifGadget a rep modBytes depth (merkleHashConstraints (2 ^ a.bits) p sb cap) root leaf ⟨index, none⟩ nodes) fun _ =>
      ∃ (proof : List (List F)) (rest : List F), nodes.map A.val = rest ++ proof.flatten ∧ (∀ q ∈ proof, q.length = a.num - 1) ∧
        proof.length ≤ a.rounds depth ∧ (rest = [] ∨ proof.length = a.rounds depth) ∧ (proof = [] ∨ a.num + 1 = p.width) ∧
        ∃ s < a.num ^ proof.length, A.val index = ((s : Nat) : F) ∧
          climb (poseidonOf p sb (A.val cap)) (positions a.num proof.length s) proof.reverse (A.lc leaf) = root := by
  refine Imposes.bind (loop_imposes a.num_sub (arity_imposes a) (merkleHash_imposes a p sb hsb cap) _ (fun i => digit_none a rep modBytes depth i) _ _ _ _ _ _)
    fun q hq => ?_
  obtain ⟨ds, proof, rest, h1, h2, h3, h4, h5, h6, h7, h8, h9⟩ := hq
  refine Imposes.bind (Imposes.constrain _) fun _ hc => ?_
  refine (Imposes.constrainScalar _ _).mono fun _ hr => ?_
  refine ⟨proof, rest, ?_, h6, h3, h4, h9, Nat.ofDigits a.num ds, ?_, ?_, ?_⟩
  · rw [← h1, List.map_reverse, List.reverse_reverse]
  · rw [← h2]; exact Nat.ofDigits_lt_base_pow_length a.one_lt h5
  · rw [h7, lc_cons, lc_nil] at hc
    rw [Arity.num]
    linear_combination -hc
  · rw [← h2, positions_ofDigits _ a.one_lt ds h5, ← h8, hr]

/-- how many commitments come before those of the nodes -/
def nodesFrom (leafVal : Option F) : Nat := if leafVal.isSome then 1 else 2

/-- **C127, soundness** (the S-boxes `x^3` and `x^5`). Values that satisfy the constraints of
`verify_leaf_inclusion_{4,8}_ary_merkle_tree(root, depth, leaf, commitments)`: the last of the values in the commitments to nodes are the nodes of a proof (all of
them, if there are not too many), the value in the first commitment is a number `s` smaller than the number of leaves below as many levels, and the proof leads from
the leaf, on the path to `s`, to `root`. -/
theorem leaf_sound (a : Arity) (rep : F → Nat) (modBytes : Nat) (p : PoseidonParams F) (sb : Sbox) (hsb : sb ≠ .inverse) (c : Nat) (capVar : Option Var) (g h : V)
    (root : F) (depth : Nat) (leafVal : Option F) (Cs : List V) (t0 t : VState F V)
    (run : (verifyLeaf a rep modBytes p sb c capVar g h root depth leafVal Cs).runV VState.top t0 = .ok ((), t)) (sat : Sat t.numVars t.cons A) :
    t.V = t0.V ++ Cs ++ [(c : F) • g + (0 : F) • h] ∧ nodesFrom leafVal ≤ Cs.length ∧
      ∃ (proof : List (List F)) (rest : List F),
        committedValues A (t0.V.length + nodesFrom leafVal) (Cs.length - nodesFrom leafVal) = rest ++ proof.flatten ∧
        (∀ q ∈ proof, q.length = a.num - 1) ∧ proof.length ≤ a.rounds depth ∧ (rest = [] ∨ proof.length = a.rounds depth) ∧ (proof = [] ∨ a.num + 1 = p.width) ∧
        ∃ s < a.num ^ proof.length, A.v t0.V.length = ((s : Nat) : F) ∧
          climb (poseidonOf p sb (A.v (t0.V.length + Cs.length))) (positions a.num proof.length s) proof.reverse
            (leafVal.getD (A.v (t0.V.length + 1))) = root := by
  have key : ImposesAt A t0 (verifyLeaf a rep modBytes p sb c capVar g h root depth leafVal Cs) fun _ t => t.V = t0.V ++ Cs ++ [(c : F) • g + (0 : F) • h] ∧
      nodesFrom leafVal ≤ Cs.length ∧ ∃ (proof : List (List F)) (rest : List F),
        committedValues A (t0.V.length + nodesFrom leafVal) (Cs.length - nodesFrom leafVal) = rest ++ proof.flatten ∧
        (∀ q ∈ proof, q.length = a.num - 1) ∧ proof.length ≤ a.rounds depth ∧ (rest = [] ∨ proof.length = a.rounds depth) ∧ (proof = [] ∨ a.num + 1 = p.width) ∧
        ∃ s < a.num ^ proof.length, A.v t0.V.length = ((s : Nat) : F) ∧
          climb (poseidonOf p sb (A.v (t0.V.length + Cs.length))) (positions a.num proof.length s) proof.reverse
            (leafVal.getD (A.v (t0.V.length + 1))) = root := by
    refine ImposesAt.bind (ImposesAt.commitFirst fun C Cs1 t1 e1 hV1 => ?_)
    subst e1
    have hleaf : ImposesAt A t1 (commitLeafV leafVal Cs1) fun l t2 => nodesFrom leafVal ≤ Cs1.length + 1 ∧ t2.V ++ l.2 = t0.V ++ C :: Cs1 ∧
            t2.V.length = t0.V.length + nodesFrom leafVal ∧ l.2.length = Cs1.length + 1 - nodesFrom leafVal ∧
            A.lc l.1 = leafVal.getD (A.v (t0.V.length + 1)) := by
      cases leafVal with
      | some v => exact ImposesAt.pure ⟨by simp [nodesFrom], by simp [hV1], by simp [hV1, nodesFrom], by simp [nodesFrom], by simp [lc_ofScalar]⟩
      | none =>
        refine ImposesAt.bind (ImposesAt.commitFirst fun C2 Cs2 t2 e2 hV2 => ImposesAt.pure ?_)
        subst e2
        refine ⟨by simp [nodesFrom], by simp [hV1, hV2], by simp [hV1, hV2, nodesFrom], by simp [nodesFrom], ?_⟩
        rw [lc_ofVar, hV1]
        simp [Asg.val]
    refine ImposesAt.bind (hleaf.mono fun l t2 _ hl => ?_)
    obtain ⟨hn, hV2, hl2, hll, hlv⟩ := hl
    refine ImposesAt.bind ((commitMany_imposes l.2.length l.2 t2).mono fun q t3 _ hq => ?_)
    obtain ⟨-, hV3, -, hq4⟩ := hq
    rw [List.take_length, hV2] at hV3
    cases capVar with
    | some x => intro b t' e; simp [setupV, prog_bind, Prog.bind, Prog.runV] at e
    | none =>
      refine ImposesAt.bind (ImposesAt.commitV fun t4 hV4 => ?_)
      refine (verifGadget_imposes a rep modBytes depth p sb hsb _ root l.1 _ q.1).at t4 fun _ t5 hV5 hg => ?_
      rw [hlv, hq4, List.map_map, hl2, hll] at hg
      have ecap : A.val (.committed t3.V.length) = A.v (t0.V.length + (C :: Cs1).length) := by
        rw [hV3, List.length_append]; rfl
      rw [ecap] at hg
      refine ⟨by rw [hV5, hV4, hV3], by simpa using hn, ?_⟩
      exact hg
  exact key () t run sat

end

/-- the chunks of a list are determined by their length -/
theorem chunks_length {k : Nat} : ∀ proof : List (List F), (∀ q ∈ proof, q.length = k) → proof.flatten.length = k * proof.length := by
  intro proof
  induction proof with
  | nil => intro _; simp
  | cons x xs ih => intro h; rw [List.flatten_cons, List.length_append, ih fun q hq => h q (by simp [hq]), h x (by simp), List.length_cons]; ring

theorem rounds_ge (a : Arity) (depth : Nat) : depth ≤ a.rounds depth := by
  cases a
  · simp only [Arity.rounds, byteSize4]; split <;> omega
  · exact le_refl _

/-- the number of nodes gives the number of levels -/
theorem exact_nodes {a : Arity} {depth : Nat} {proof : List (List F)} {rest vs : List F} (h1 : vs = rest ++ proof.flatten) (hv : vs.length = (a.num - 1) * depth)
    (h2 : ∀ q ∈ proof, q.length = a.num - 1) (h4 : rest = [] ∨ proof.length = a.rounds depth) : proof.length = depth ∧ rest = [] := by
  have hl := congrArg List.length h1
  rw [hv, List.length_append, chunks_length proof h2] at hl
  have hp := a.num_sub
  have hr := rounds_ge a depth
  rcases h4 with h4 | h4
  · rw [h4, List.length_nil, Nat.zero_add] at hl
    exact ⟨(Nat.eq_of_mul_eq_mul_left hp hl).symm, h4⟩
  · have h5 : (a.num - 1) * depth ≤ (a.num - 1) * proof.length := Nat.mul_le_mul_left _ (by omega)
    have h6 : rest.length = 0 := by omega
    rw [List.length_eq_zero_iff] at h6
    rw [h6, List.length_nil, Nat.zero_add] at hl
    exact ⟨(Nat.eq_of_mul_eq_mul_left hp hl).symm, h6⟩

/-- **C127 with C115.** An accepted proof with as many commitments to nodes as a tree of the given depth needs (and less leaves than the field has elements): the
committed index is smaller than the number of leaves, and `verify_proof` accepts the committed nodes as a proof of the leaf (the given value, or the one in the second
commitment) at the committed index for `root` — or the last of the openings that were computed opens the commitment to the capacity constant to something else, which
is a relation between `g` and `h`. -/
theorem leaf_accepted {tr : Transcript F V} {t0 t1 : VState F V} {T : STree F V} {g h : V} {G H : List V} {W : Nat → Weights F} {v vb : List F}
    (q : Nat) [CharP F q] {rep : F → Nat} (can : Canon q rep) (a : Arity) (modBytes : Nat) (p : PoseidonParams F) (sb : Sbox) (hsb : sb ≠ .inverse)
    (capVar : Option Var) (root : F) (depth : Nat) (leafVal : Option F) (Cs : List V) (hq : a.num ^ depth ≤ q)
    (hn : Cs.length = nodesFrom leafVal + (a.num - 1) * depth)
    (run : (verifyLeaf a rep modBytes p sb (capConst a.num) capVar g h root depth leafVal Cs).runV VState.top (VState.new tr) = .ok ((), t0))
    (E : Extracted t0 t1 T g h G H W v vb) :
    (∃ proof : List (List F), proof.flatten = (v.drop (nodesFrom leafVal)).take ((a.num - 1) * depth) ∧ proof.length = depth ∧
      (∀ x ∈ proof, x.length = a.num - 1) ∧ rep (v.getD 0 0) < a.num ^ depth ∧
      treeVerify a.bits (merkleHash a.num p sb) rep depth root (v.getD 0 0) (leafVal.getD (v.getD 1 0)) proof none = .ok true) ∨
      ((v.getD Cs.length 0 - (capConst a.num : F)) • g + vb.getD Cs.length 0 • h = 0 ∧ v.getD Cs.length 0 - (capConst a.num : F) ≠ 0) := by
  obtain ⟨hV, hl, proof, rest, h1, h2, h3, h4, h5, s, hs, hidx, hcl⟩ :=
    leaf_sound a rep modBytes p sb hsb _ capVar g h root depth leafVal Cs _ t0 run (session_sound E).1
  simp only [VState.new, List.length_nil, List.nil_append, Nat.zero_add] at h1 hidx hcl hV
  rw [(session_sound E).2] at hidx
  rw [(session_sound E).2, (session_sound E).2] at hcl
  have hV0 : t0.V.length = Cs.length + 1 := by rw [hV, List.length_append]; rfl
  have hk : Cs.length < v.length := E.length Cs.length (by omega)
  have hvs : committedValues (T.scalars.witness ⟨Nat.clog 2 t1.numVars, t1.numVars, t0.numVars, W⟩ v) (nodesFrom leafVal) (Cs.length - nodesFrom leafVal) =
      (v.drop (nodesFrom leafVal)).take ((a.num - 1) * depth) := by
    apply List.ext_getElem?
    intro i
    simp only [committedValues, (session_sound E).2, List.getElem?_map, List.getElem?_take, List.getElem?_drop]
    by_cases hi : i < Cs.length - nodesFrom leafVal
    · rw [List.getElem?_range hi, if_pos (by omega)]
      exact (getD_eq_getElem (by omega) rfl).symm
    · rw [List.getElem?_eq_none (by simp; omega), if_neg (by omega)]; rfl
  rw [hvs] at h1
  obtain ⟨hpl, hrest⟩ := exact_nodes h1 (by rw [List.length_take, List.length_drop]; omega) h2 h4
  rw [hrest, List.nil_append] at h1
  by_cases hc : v.getD Cs.length 0 = (capConst a.num : F)
  · left
    rw [hc, hpl] at hcl
    rw [hpl] at hs
    have hrep : rep (v.getD 0 0) = s := by rw [hidx, can.eq_mod, Nat.mod_eq_of_lt (by omega)]
    refine ⟨proof, h1.symm, hpl, h2, by rw [hrep]; exact hs, ?_⟩
    by_cases hw : a.num + 1 = p.width
    · have htake : proof.take depth = proof := by rw [List.take_of_length_le (by omega)]
      have hH := merkleHash_hashes a.num p sb hw a.num_pos
      rw [verify_iff (b := a.bits) hH rep depth _ _ _ _ _ (by omega) (by rw [htake]; exact h2), htake, hrep]
      rw [Res.ok.injEq, decide_eq_true_eq]
      exact hcl
    · have hp0 : proof = [] := h5.resolve_right hw
      subst hp0
      subst hpl
      simp only [List.length_nil, positions, List.range_zero, List.map_nil, climb] at hcl
      rw [hcl]
      simp [treeVerify, reprPow2, digitsLow, treeVerifyLoop]
  · right
    refine ⟨?_, sub_ne_zero.2 hc⟩
    obtain ⟨O, e1⟩ := E.rand
    obtain ⟨r, hr⟩ := (VState.Le.createRandomized e1).V
    have h1 : t1.V[Cs.length]? = some ((capConst a.num : F) • g + (0 : F) • h) := by
      rw [← hr]
      simp only
      rw [hV, List.append_assoc, List.getElem?_append_right (le_refl _), Nat.sub_self]
      rfl
    have hvb : Cs.length < vb.length := by rw [E.lenv]; exact hk
    have h2 : t1.V[Cs.length]? = some (v.getD Cs.length 0 • g + vb.getD Cs.length 0 • h) := by
      rw [E.opens, List.getElem?_zipWith, List.getElem?_eq_getElem hk, List.getElem?_eq_getElem hvb, List.getD_eq_getElem _ _ hk,
        List.getD_eq_getElem _ _ hvb]
    rw [h1, Option.some.injEq] at h2
    rw [zero_smul, add_zero] at h2
    rw [sub_smul, h2]
    abel

/-- **C127 with C126.** If moreover `root` is the root of a tree after any history of updates (as in C125), the leaf is the value at the committed index in that
tree, unless a node of the committed proof and a different node of the tree's proof for that index have the same hash. -/
theorem leaf_in_tree {tr : Transcript F V} {t0 t1 : VState F V} {T : STree F V} {g h : V} {G H : List V} {W : Nat → Weights F} {v vb : List F}
    (q : Nat) [CharP F q] {rep : F → Nat} (can : Canon q rep) (a : Arity) (modBytes : Nat) (p : PoseidonParams F) (sb : Sbox) (hsb : sb ≠ .inverse)
    (hw : a.num + 1 = p.width) (capVar : Option Var) (depth : Nat) (leafVal : Option F) (Cs : List V) (hq : a.num ^ depth ≤ q)
    (hn : Cs.length = nodesFrom leafVal + (a.num - 1) * depth)
    (ups : List (F × F)) (db0 : HashDb F) (hdb : ∀ k x, db0 k = some x → poseidonOf p sb (capConst a.num : F) x = k)
    (inj : Set.InjOn (poseidonOf p sb (capConst a.num : F)) (historyNodes (poseidonOf p sb (capConst a.num : F)) (2 ^ a.bits) rep depth ups db0)) (root : F) (db : HashDb F)
    (hist : runHistory a.bits (merkleHash a.num p sb) rep depth ups db0 = .ok (root, db))
    (run : (verifyLeaf a rep modBytes p sb (capConst a.num) capVar g h root depth leafVal Cs).runV VState.top (VState.new tr) = .ok ((), t0))
    (E : Extracted t0 t1 T g h G H W v vb) :
    (rep (v.getD 0 0) < a.num ^ depth ∧ leafVal.getD (v.getD 1 0) = leavesAfter rep (a.num ^ depth) ups (rep (v.getD 0 0))) ∨
      (∃ nodes proof : List (List F), nodes.flatten = (v.drop (nodesFrom leafVal)).take ((a.num - 1) * depth) ∧ (∀ x ∈ nodes, x.length = a.num - 1) ∧
        treeGet a.bits rep depth root (v.getD 0 0) db = .ok (leavesAfter rep (a.num ^ depth) ups (rep (v.getD 0 0)), proof) ∧
        CollisionAt (poseidonOf p sb (capConst a.num : F))
          (hashedNodes (poseidonOf p sb (capConst a.num : F)) a.num depth (rep (v.getD 0 0)) (leafVal.getD (v.getD 1 0)) nodes)
          (hashedNodes (poseidonOf p sb (capConst a.num : F)) a.num depth (rep (v.getD 0 0)) (leavesAfter rep (a.num ^ depth) ups (rep (v.getD 0 0))) proof)) ∨
      ((v.getD Cs.length 0 - (capConst a.num : F)) • g + vb.getD Cs.length 0 • h = 0 ∧ v.getD Cs.length 0 - (capConst a.num : F) ≠ 0) := by
  rcases leaf_accepted q can a modBytes p sb hsb capVar root depth leafVal Cs hq hn run E with ⟨nodes, h1, h2, h3, h4, h5⟩ | h1
  · have hH : Hashes (merkleHash a.num p sb) (2 ^ a.bits) (poseidonOf p sb (capConst a.num : F)) := merkleHash_hashes a.num p sb hw a.num_pos
    obtain ⟨proof, e1, e2, e3, -, e5⟩ := tree_proofs hH rep depth ups db0 hdb inj root db hist (v.getD 0 0)
    have hmod : rep (v.getD 0 0) % (2 ^ a.bits) ^ depth = rep (v.getD 0 0) := Nat.mod_eq_of_lt h4
    rw [hmod] at e1 e5
    rcases e5 _ nodes (by omega) (fun x hx => h3 x (List.mem_of_mem_take hx)) h5 with ⟨hl, -⟩ | hcol
    · exact .inl ⟨h4, hl⟩
    · exact .inr (.inl ⟨nodes, proof, h1, h3, e1, hcol⟩)
  · exact .inr (.inr h1)

/-! ## Completeness -/

theorem PState.HasAll.take {s : PState F V} {ls : List (LC F)} {xs : List F} (h : s.HasAll ls xs) (n : Nat) : s.HasAll (ls.take n) (xs.take n) :=
  ⟨fun l hl => h.given l (List.mem_of_mem_take hl), by rw [List.map_take, h.value]⟩

theorem PState.HasAll.drop {s : PState F V} {ls : List (LC F)} {xs : List F} (h : s.HasAll ls xs) (n : Nat) : s.HasAll (ls.drop n) (xs.drop n) :=
  ⟨fun l hl => h.given l (List.mem_of_mem_drop hl), by rw [List.map_drop, h.value]⟩

theorem PState.HasAll.reverse {s : PState F V} {ls : List (LC F)} {xs : List F} (h : s.HasAll ls xs) : s.HasAll ls.reverse xs.reverse :=
  ⟨fun l hl => h.given l (List.mem_reverse.1 hl), by rw [List.map_reverse, h.value]⟩

section builds
variable {g h : V}

/-- a prover whose state meets `I` executes the calls of a hash on inputs that meet `good` -/
def HashBuilds (g h : V) (I : PState F V → Prop) (k : Nat) (good : List F → Prop) (H : List F → F) (hash : List (LC F) → Prog F (Top F (F × F)) Var (LC F)) : Prop :=
  ∀ (ls : List (LC F)) (xs : List F) (s : PState F V), ls.length = k → s.Good → I s → s.HasAll ls xs → good xs →
    Builds g h s (hash ls) fun o s' => s'.Has o (H xs)

/-- the loop, with the siblings `gs` and the positions `ds`, from the leaf to the root -/
theorem loop_builds {b : Nat} {level : Level F (Top F (F × F)) Var} (hb : 0 < 2 ^ b - 1) (hlev : LevelBuilds g h b level) {H : List F → F} {I : PState F V → Prop}
    (hI : ∀ s s' : PState F V, I s → s.Le s' → I s') {good : List F → Prop} {hash : List (LC F) → Prog F (Top F (F × F)) Var (LC F)}
    (hh : HashBuilds g h I (2 ^ b) good H hash) (digit : Nat → Prog F (Top F (F × F)) Var (Option Nat)) : ∀ (gs : List (List F)) (ds : List Nat) (n i : Nat) (e : F)
    (cv prev : LC F) (y x : F) (nodes : List Var) (s : PState F V), ds.length = gs.length → gs.length ≤ n → (∀ j d, ds[j]? = some d → digit (i + j) = pure (some d)) →
    (∀ d ∈ ds, d < 2 ^ b) → (∀ q ∈ gs, q.length = 2 ^ b - 1) → (∀ c ∈ climbNodes H ds gs x, good c) → s.Good → I s →
    s.HasAll (nodes.map LC.ofVar) (gs.map List.reverse).flatten → s.Has cv y → s.Has prev x →
    Builds g h s (merkleLoop b level digit hash n i e cv prev nodes) fun q s' =>
      s'.Has q.1 (y + e * ((Nat.ofDigits (2 ^ b) ds : Nat) : F)) ∧ s'.Has q.2 (climb H ds gs x) := by
  intro gs
  induction gs with
  | nil =>
    intro ds n i e cv prev y x nodes s hl hn hdig hd hq hgood hg hi hns hcv hprev
    have hds : ds = [] := by simpa using hl
    subst hds
    have hno : nodes = [] := by
      have := hns.length
      simpa using this.symm
    subst hno
    have hb : Builds g h s (Pure.pure (cv, prev) : Prog F (Top F (F × F)) Var _) fun q s' =>
      s'.Has q.1 (y + e * ((Nat.ofDigits (2 ^ b) ([] : List Nat) : Nat) : F)) ∧ s'.Has q.2 (climb H ([] : List Nat) ([] : List (List F)) x) :=
      Builds.pure hg ⟨hcv.congr (by simp), hprev⟩
    cases n with
    | zero => exact hb
    | succ n => rw [merkleLoop, if_pos rfl]; exact hb
  | cons q0 gs ih =>
    intro ds n i e cv prev y x nodes s hl hn hdig hd hq hgood hg hi hns hcv hprev
    cases ds with
    | nil => simp at hl
    | cons d ds =>
      obtain ⟨n, rfl⟩ : ∃ m, n = m + 1 := ⟨n - 1, by simp at hn; omega⟩
      have hq0 : q0.length = 2 ^ b - 1 := hq q0 (by simp)
      rw [List.map_cons, List.flatten_cons] at hns
      have hnl : 2 ^ b - 1 ≤ nodes.length := by
        have := hns.length
        rw [List.length_map, List.length_append, List.length_reverse] at this
        omega
      have hne : nodes ≠ [] := by rintro rfl; simp at hnl; omega
      have hdd : d < 2 ^ b := hd d (by simp)
      rw [merkleLoop, if_neg hne, show digit i = pure (some d) from hdig 0 d rfl, pure_seq]
      have htk := (hns.take (2 ^ b - 1)).reverse
      rw [List.take_append_of_le_length (by rw [List.length_reverse]; omega), List.take_of_length_le (l := q0.reverse) (by rw [List.length_reverse]; omega), List.reverse_reverse,
        ← List.map_take, ← List.map_reverse] at htk
      have hdr := hns.drop (2 ^ b - 1)
      rw [List.drop_append_of_le_length (by rw [List.length_reverse]; omega), List.drop_of_length_le (l := q0.reverse) (by rw [List.length_reverse]; omega), List.nil_append,
        ← List.map_drop] at hdr
      refine Builds.bind (hlev d e _ prev q0 x s hdd (by rw [List.length_reverse, List.length_take]; omega) hg htk hprev) fun q s1 g1 l1 h1 => ?_
      have hlen : q.2.length = 2 ^ b := by
        have := h1.2.length
        rw [List.length_insertIdx_of_le_length (by omega)] at this
        omega
      rw [climbNodes] at hgood
      refine Builds.bind (hh q.2 _ s1 hlen g1 (hI _ _ hi l1) h1.2 (hgood _ (by simp))) fun o s2 g2 l2 h2 => ?_
      have hsimp : s2.Has (LC.simplify o) (H (q0.insertIdx d x)) := by
        refine ⟨fun t ht => ?_, by rw [lc_simplify, h2.value]⟩
        obtain ⟨u, hu, e⟩ := mem_simplify ht
        rw [← e]; exact h2.given u hu
      have hcv2 : s2.Has (cv ++ q.1) (y + e * (d : F)) := ((hcv.mono l1).mono l2).add (h1.1.mono l2)
      refine (ih ds n (i + 1) (e * (2 ^ b : Nat)) (cv ++ q.1) _ _ _ _ s2 (by simpa using hl) (by simpa using hn) (fun j d' hj => ?_) (fun d' h' => hd d' (by simp [h']))
        (fun q' h' => hq q' (by simp [h'])) (fun c hc => hgood c (by simp [hc])) g2 (hI _ _ (hI _ _ hi l1) l2) ((hdr.mono l1).mono l2) hcv2 hsimp).mono
        fun r s3 g3 l3 h3 => ?_
      · rw [show i + 1 + j = i + (j + 1) by omega]
        exact hdig (j + 1) d' (by simpa using hj)
      · refine ⟨h3.1.congr ?_, h3.2⟩
        rw [Nat.ofDigits_cons]
        push_cast
        ring

theorem digit_some (a : Arity) {T R : Type} (rep : F → Nat) (modBytes depth : Nat) (idx : F) (i : Nat) (h4 : a = .four → i < 4 * modBytes) (h8 : i < a.rounds depth) :
    (a.digit rep modBytes depth (some idx) i : Prog F T R _) = pure (some (rep idx / a.num ^ i % a.num)) := by
  cases a
  · have hi : i / 4 < modBytes := by have := h4 rfl; omega
    simp only [Arity.digit, digit4, if_pos hi]
    congr 2
    have hx : ∀ x j : Nat, j < 4 → ((x % 256) >>> (2 * j)) % 4 = x / 4 ^ j % 4 := by
      intro x j hj
      interval_cases j <;> simp only [Nat.shiftRight_eq_div_pow] <;> norm_num <;> omega
    rw [hx _ _ (Nat.mod_lt _ (by decide)), Nat.div_div_eq_div_mul]
    have e : 256 ^ (i / 4) * 4 ^ (i % 4) = 4 ^ i := by
      rw [show (256 : Nat) = 4 ^ 4 from rfl, ← pow_mul, ← pow_add, Nat.div_add_mod]
    rw [e]
    rfl
  · have hd : i < depth := h8
    simp only [Arity.digit, digit8, reprPow2, List.reverse_reverse, digitsLow_eq, List.getElem?_map, List.getElem?_range hd, Option.map_some]
    rfl

end builds

theorem loop_rel {T T' R : Type} {re : T → T' → Prop} (a : Arity) {hash : List (LC F) → Prog F T R (LC F)} {hash' : List (LC F) → Prog F T' R (LC F)}
    (hh : ∀ ls, (hash ls).Rel re (fun x y => x = y) (hash' ls)) {digit : Nat → Prog F T R (Option Nat)} {digit' : Nat → Prog F T' R (Option Nat)}
    (hd : ∀ i, (digit i).Rel re (fun _ _ => True) (digit' i)) : ∀ (n i : Nat) (e : F) (cv prev : LC F) (nodes : List Var),
    (merkleLoop a.bits a.level digit hash n i e cv prev nodes).Rel re (fun x y => x = y) (merkleLoop a.bits a.level digit' hash' n i e cv prev nodes) := by
  intro n
  induction n with
  | zero => intro i e cv prev nodes; exact Rel.pure rfl
  | succ n ih =>
    intro i e cv prev nodes
    rw [merkleLoop, merkleLoop]
    by_cases h0 : nodes = []
    · rw [if_pos h0, if_pos h0]; exact Rel.pure rfl
    · rw [if_neg h0, if_neg h0]
      refine Rel.seq (hd i) fun d d' _ => ?_
      refine Rel.seq (arity_rel a d d' _ _ _) fun q _ e => ?_
      subst e
      refine Rel.seq (hh _) fun o _ e => ?_
      subst e
      exact ih _ _ _ _ _

theorem digit_rel (a : Arity) {T T' R : Type} {re : T → T' → Prop} (rep : F → Nat) (modBytes depth : Nat) (idx : Option F) (i : Nat) :
    (a.digit rep modBytes depth idx i : Prog F T R _).Rel re (fun _ _ => True) (a.digit rep modBytes depth none i : Prog F T' R _) := by
  rw [digit_none]
  cases idx with
  | none => rw [digit_none]; exact Rel.pure trivial
  | some l =>
    cases a
    · simp only [Arity.digit, digit4]
      split
      · exact Rel.pure trivial
      · trivial
    · simp only [Arity.digit, digit8]
      split
      · exact Rel.pure trivial
      · trivial

theorem verifGadget_rel (a : Arity) {T T' R : Type} {re : T → T' → Prop} (rep : F → Nat) (modBytes depth : Nat) (p : PoseidonParams F) (sb : Sbox) (cap : Var)
    (root : F) (leaf : LC F) (index : Var) (idx : Option F) (nodes : List Var) :
    (verifGadget a rep modBytes depth (merkleHashConstraints (2 ^ a.bits) p sb cap) root leaf ⟨index, idx⟩ nodes : Prog F T R Unit).Rel re (fun x y => x = y)
      (verifGadget a rep modBytes depth (merkleHashConstraints (2 ^ a.bits) p sb cap) root leaf ⟨index, none⟩ nodes : Prog F T' R Unit) := by
  refine Rel.seq (loop_rel a (fun ls => hash_rel _ (fun ls => rounds_rel p (fun off l => synthSbox_rel sb l (p.key off)) ls) _ _)
    (fun i => digit_rel a rep modBytes depth idx i) _ _ _ _ _ _) fun q _ e => ?_
  subst e
  refine Rel.seq (Rel.constrain _) fun _ _ _ => ?_
  exact Rel.constrain _

/-- the commitments of the prover: to the index, to the leaf if it is hidden, and to the nodes -/
def leafCommitments (g h : V) (leaf index : F) (hide : Bool) (bl : List F) (proof : List (List F)) (rnd : Nat → F) : List V :=
  (index • g + bl.getD 0 0 • h) :: ((if hide then [leaf • g + bl.getD 1 0 • h] else []) ++ proof.flatten.zipIdx.map fun x => x.1 • g + rnd x.2 • h)

/-- no S-box gets the input 0 in the hashes of some nodes (of interest for the inverse S-box only) -/
def NoZeroNodes (p : PoseidonParams F) (c : F) (nodes : List (List F)) : Prop :=
  ∀ xs ∈ nodes, ∀ q ∈ p.sboxInputs (fun off x => Sbox.apply .inverse (x + p.key off)) (c :: xs), q.2 + p.key q.1 ≠ 0

/-- **C127, completeness** (for a proof with any number of levels, up to the number of rounds of the gadget): a prover who has nodes that lead from the leaf, on the
path to the index, to the root, is accepted; the verifier is given the leaf if it is not hidden. -/
theorem leaf_complete (O : Transcript F V → F) (tr : Transcript F V) (g h : V) {rep : F → Nat} {q : Nat} (can : Canon q rep) (a : Arity) (modBytes : Nat)
    (p : PoseidonParams F) (sb : Sbox) (hw : a.num + 1 = p.width) (c : Nat) (leaf index : F) (hide : Bool) (blindings rng : Option (List F))
    (hb : blindings.isSome ∨ rng.isSome) (hbl : (theBlinding [] blindings rng).length = if hide then 2 else 1) (proof : List (List F)) (root : F) (depth : Nat)
    (rnd : Nat → F) (hm : proof.length ≤ a.rounds depth) (hm4 : a = .four → proof.length ≤ 4 * modBytes) (hp : ∀ x ∈ proof, x.length = a.num - 1)
    (hidx : rep index < a.num ^ proof.length)
    (hroot : climb (poseidonOf p sb (c : F)) (positions a.num proof.length (rep index)) proof.reverse leaf = root)
    (hinv : sb = .inverse → NoZeroNodes p (c : F) (climbNodes (poseidonOf p sb (c : F)) (positions a.num proof.length (rep index)) proof.reverse leaf)) :
    HonestAccepted O g h tr (proveLeaf a rep modBytes p sb c none g h leaf index hide blindings proof root depth rng rnd)
      (verifyLeaf a rep modBytes p sb c none g h root depth (if hide then none else some leaf))
      (leafCommitments g h leaf index hide (theBlinding [] blindings rng) proof rnd) := by
  generalize hbls : theBlinding [] blindings rng = bls at hbl
  have hbl' : (merkleBlindings hide blindings rng : Prog F (Top F (F × F)) Var _) = pure bls := by
    simp only [merkleBlindings, blindingOr_eq hb ([] : List F), hbls, pure_seq]
    cases hide <;> simp_all
  have hws : ∀ l : List (F × Nat), (l.map fun x => (x.1, rnd x.2)).map (fun w => w.1 • g + w.2 • h) = l.map fun x => x.1 • g + rnd x.2 • h := by
    intro l; rw [List.map_map]; rfl
  refine honest_of_builds_new ?_ O tr ?_
  · rw [proveLeaf, hbl', pure_seq]
    refine Rel.commitSeq fun x => ?_
    have hleaf : (commitLeafP g h leaf hide (bls.getD 1 0)).Rel (TopRel g h) (fun y z => y.1 = (if hide then [leaf • g + bls.getD 1 0 • h] else []) ∧ y.2 = z.1 ∧
        z.2 = proof.flatten.zipIdx.map fun x => x.1 • g + rnd x.2 • h)
        (commitLeafV (F := F) (if hide then none else some leaf) ((if hide then [leaf • g + bls.getD 1 0 • h] else []) ++
          proof.flatten.zipIdx.map fun x => x.1 • g + rnd x.2 • h)) := by
      cases hide
      · exact Rel.pure ⟨rfl, rfl, rfl⟩
      · exact Rel.commitSeq fun x => Rel.pure ⟨rfl, rfl, rfl⟩
    refine Rel.seq hleaf fun l z hz => ?_
    obtain ⟨hz1, hz2, hz3⟩ := hz
    have hr := commitAllP_rel g h [] (proof.flatten.zipIdx.map fun x => (x.1, rnd x.2))
    rw [List.append_nil, hws, List.length_map] at hr
    rw [hz3, List.length_map]
    refine Rel.seq hr fun r b hq => ?_
    obtain ⟨h1, h2, -⟩ := hq
    refine Rel.seq (ra := fun a b => a = b) ⟨rfl, fun _ => rfl⟩ fun cap _ e => ?_
    subst e
    rw [← h2, ← hz2]
    refine Rel.ret ?_ ?_
    · exact verifGadget_rel a rep modBytes depth p sb cap root l.2 x (some index) r.2
    · rw [leafCommitments, hz1, h1]
  · rw [proveLeaf, hbl', pure_seq]
    refine Builds.bind (Builds.commitP (PState.Good.new tr)) fun ci s1 g1 l1 h1 => ?_
    refine Builds.bind (post := fun l s' => s'.Has l.2 leaf) ?_ fun l s2 g2 l2 h2 => ?_
    · unfold commitLeafP
      split
      · exact Builds.bind (Builds.commitP g1) fun c s2 g2 l2 h2 => Builds.pure g2 h2.2
      · exact Builds.pure g1 (PState.Has.scalar s1 leaf)
    refine Builds.bind (commitAllP_builds _ s2 g2) fun r s3 g3 l3 h3 => ?_
    refine Builds.bind (post := fun c' s' => s'.Has (LC.ofVar c') (c : F)) ?_ fun cap s4 g4 l4 h4 => ?_
    · exact Builds.bind (Builds.commitP g3) fun c s2 g2 l2 h2 => Builds.pure g2 h2.2
    refine Builds.bind (post := fun _ _ => True) ?_ fun _ s7 g7 l7 _ => Builds.pure g7 trivial
    have hnodes : s4.HasAll (r.2.reverse.map LC.ofVar) ((proof.reverse.map List.reverse).flatten) := by
      have := (h3.2.mono l4).reverse
      rw [List.map_map, show (Prod.fst ∘ fun x : F × Nat => (x.1, rnd x.2)) = Prod.fst from rfl, List.zipIdx_map_fst, ← List.map_reverse, List.reverse_flatten] at this
      rw [List.map_reverse (l := proof)]
      exact this
    have hposl : (positions a.num proof.length (rep index)).length = proof.reverse.length := by simp [positions]
    have hash : HashBuilds g h (fun s : PState F V => s.Has (LC.ofVar cap) (c : F) ∧ s.pending = none) (2 ^ a.bits)
        (fun xs => xs ∈ climbNodes (poseidonOf p sb (c : F)) (positions a.num proof.length (rep index)) proof.reverse leaf) (poseidonOf p sb (c : F))
        (merkleHashConstraints (2 ^ a.bits) p sb cap) := by
      intro ls xs s hl hg hI hx hmem
      refine (hash_builds (2 ^ a.bits) p (synthSbox_builds (g := g) (h := h) sb p) hw a.num_pos ls (LC.ofVar cap) (c : F) xs hl s hg (fun _ => hI.2) hx hI.1
        (fun q hq hi => ?_)).mono fun o s' _ _ ho => ?_
      · subst hi; exact hinv rfl xs hmem q hq
      · obtain ⟨y, hy, hy'⟩ := ho
        refine hy'.congr ?_
        rw [poseidonOf, PoseidonParams.permute, hy]
        rfl
    refine Builds.bind (loop_builds a.num_sub (arity_builds a) (fun s s' hi le => ⟨hi.1.mono le, le.idle hi.2⟩) hash _ proof.reverse
      (positions a.num proof.length (rep index)) _ 0 1 _ _ (-index) leaf _ s4 hposl (by rw [List.length_reverse]; exact hm) (fun j d hj => ?_) (fun d hd => ?_)
      (fun x hx => hp x (List.mem_reverse.1 hx)) (fun c hc => hc) g4 ⟨h4, l4.idle (l3.idle (l2.idle (l1.idle rfl)))⟩ hnodes
      (((((h1.2.mono l2).mono l3).mono l4).single (-1)).congr (by ring)) ((h2.mono l3).mono l4)) fun qq s5 g5 l5 h5 => ?_
    · rw [Nat.zero_add]
      have hjl : j < proof.length := by
        by_contra hcon
        rw [List.getElem?_eq_none (by simp [positions]; omega)] at hj
        simp at hj
      rw [digit_some a rep modBytes depth index j (fun e => by have := hm4 e; omega) (by omega)]
      simp only [positions, List.getElem?_map, List.getElem?_range hjl, Option.map_some, Option.some.injEq] at hj
      rw [hj]
    · obtain ⟨i, -, rfl⟩ := List.mem_map.1 hd
      exact Nat.mod_lt _ a.num_pos
    · have hz : -index + 1 * ((Nat.ofDigits (2 ^ a.bits) (positions a.num proof.length (rep index)) : Nat) : F) = 0 := by
        have := ofDigits_positions a.num proof.length (rep index)
        rw [Arity.num] at this
        simp only [Arity.num] at *
        rw [this, Nat.mod_eq_of_lt hidx, can.cast]
        ring
      refine Builds.bind (Builds.constrain g5 (h5.1.congr hz)) fun _ s6 g6 l6 _ => ?_
      exact Builds.constrainScalar g6 ((h5.2.mono l6).congr hroot)

end Verif.BP
