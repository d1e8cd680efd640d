import Verif.BP.Merkle
import Verif.Props.BPPoseidon
import Mathlib.Data.Set.Function
import Mathlib.Data.List.InsertIdx
import Mathlib.Tactic.Ring
set_option linter.unusedSectionVars false
set_option linter.unusedSimpArgs false
set_option linter.unusedVariables false
/-!
# Sparse Merkle trees (C125, C126)

Specification: `rootOf` (the root of a complete tree with given leaves) and `nodesOf` (its inner nodes, each as the list of its children).  The tree is an
array of `arity ^ depth` leaves, unless two different nodes of the trees in its history have the same hash.
-/
namespace Verif.BP
variable {F V : Type} [Field F] [AddCommGroup V] [Module F V] [DecidableEq F] [DecidableEq V]

/-! ## Specification -/

/-- the leaves below the child `d` of the root of a tree of depth `n + 1` with arity `a` -/
def below (a n d : Nat) (f : Nat → F) : Nat → F := fun i => f (d * a ^ n + i)

/-- the root of the complete tree of depth `n` with the leaves `f 0`, `f 1`, … -/
def rootOf (H : List F → F) (a : Nat) : Nat → (Nat → F) → F
  | 0, f => f 0
  | n + 1, f => H ((List.range a).map fun d => rootOf H a n (below a n d f))

/-- the children of the root of a tree of depth `n + 1` -/
def kids (H : List F → F) (a n : Nat) (f : Nat → F) : List F := (List.range a).map fun d => rootOf H a n (below a n d f)

/-- the inner nodes of the tree -/
def nodesOf (H : List F → F) (a : Nat) : Nat → (Nat → F) → Set (List F)
  | 0, _ => ∅
  | n + 1, f => {c | c = kids H a n f ∨ ∃ d < a, c ∈ nodesOf H a n (below a n d f)}

/-- the siblings on the path to the leaf `s`, from the root to the leaf -/
def proofOf (H : List F → F) (a : Nat) : Nat → Nat → (Nat → F) → List (List F)
  | 0, _, _ => []
  | n + 1, s, f => (kids H a n f).eraseIdx (s / a ^ n % a) :: proofOf H a n s (below a n (s / a ^ n % a) f)

/-- the leaves after some updates: an update `(idx, val)` sets the leaf `idx` modulo the number of leaves; all leaves are 0 at the beginning -/
def leavesAfter (rep : F → Nat) (leaves : Nat) (ups : List (F × F)) : Nat → F :=
  ups.foldl (fun f u => Function.update f (rep u.1 % leaves) u.2) fun _ => 0

/-- `hash` succeeds for `a` inputs, with the result `H` -/
def Hashes (hash : List F → Res Err F) (a : Nat) (H : List F → F) : Prop := ∀ l, l.length = a → hash l = .ok (H l)

/-! ## Digits -/

theorem digitsLow_eq (b : Nat) : ∀ (n s : Nat), digitsLow b s n = (List.range n).map fun i => s / (2 ^ b) ^ i % 2 ^ b := by
  intro n
  induction n with
  | zero => intro s; rfl
  | succ n ih =>
    intro s
    rw [digitsLow]
    by_cases h : s = 0
    · rw [if_pos h, h]
      symm
      rw [List.eq_replicate_iff]
      exact ⟨by simp, fun x hx => by simp at hx; omega⟩
    · rw [if_neg h, ih, List.range_succ_eq_map, List.map_cons, List.map_map, pow_zero, Nat.div_one, Nat.shiftRight_eq_div_pow]
      congr 1
      refine List.map_congr_left fun i _ => ?_
      simp only [Function.comp, Nat.succ_eq_add_one]
      rw [Nat.div_div_eq_div_mul, pow_succ, Nat.mul_comm]

theorem reprPow2_succ (b s n : Nat) : reprPow2 b s (n + 1) = s / (2 ^ b) ^ n % 2 ^ b :: reprPow2 b s n := by
  rw [reprPow2, reprPow2, digitsLow_eq, digitsLow_eq, List.range_succ, List.map_append, List.reverse_append]
  rfl

theorem reprPow2_length (b s n : Nat) : (reprPow2 b s n).length = n := by
  rw [reprPow2, digitsLow_eq]; simp

theorem reprPow2_lt (b s n : Nat) {d : Nat} (h : d ∈ reprPow2 b s n) : d < 2 ^ b := by
  rw [reprPow2, digitsLow_eq, List.mem_reverse, List.mem_map] at h
  obtain ⟨i, -, rfl⟩ := h
  exact Nat.mod_lt _ (by positivity)

/-- the path depends on the index modulo the number of leaves only -/
theorem reprPow2_mod (b s n : Nat) : reprPow2 b (s % (2 ^ b) ^ n) n = reprPow2 b s n := by
  rw [reprPow2, reprPow2, digitsLow_eq, digitsLow_eq]
  congr 1
  refine List.map_congr_left fun i hi => ?_
  have hi' : i < n := by simpa using hi
  have e : (2 ^ b) ^ n = (2 ^ b) ^ i * (2 ^ b) ^ (n - i) := by rw [← pow_add]; congr 1; omega
  rw [e, Nat.mod_mul_right_div_self, Nat.mod_mod_of_dvd]
  exact dvd_pow_self _ (by omega)

/-! ## The tree in the database -/

section
variable {b : Nat} {hash : List F → Res Err F} {H : List F → F}

/-- the nodes of the tree with the leaves `f` are in the database -/
def Stored (H : List F → F) (a : Nat) (db : HashDb F) : Nat → (Nat → F) → Prop
  | 0, _ => True
  | n + 1, f => db (rootOf H a (n + 1) f) = some (kids H a n f) ∧ ∀ d < a, Stored H a db n (below a n d f)

theorem below_congr {a n d : Nat} {f f' : Nat → F} (hd : d < a) (h : ∀ i < a ^ (n + 1), f i = f' i) : ∀ i < a ^ n, below a n d f i = below a n d f' i := by
  intro i hi
  refine h _ ?_
  calc d * a ^ n + i < d * a ^ n + a ^ n := by omega
    _ = (d + 1) * a ^ n := by ring
    _ ≤ a * a ^ n := Nat.mul_le_mul_right _ hd
    _ = a ^ (n + 1) := by ring

theorem rootOf_congr (H : List F → F) (a : Nat) : ∀ (n : Nat) (f f' : Nat → F), (∀ i < a ^ n, f i = f' i) → rootOf H a n f = rootOf H a n f' := by
  intro n
  induction n with
  | zero => intro f f' h; exact h 0 (by simp)
  | succ n ih =>
    intro f f' h
    simp only [rootOf]
    congr 1
    exact List.map_congr_left fun d hd => ih _ _ (below_congr (by simpa using hd) h)

theorem kids_congr (H : List F → F) (a n : Nat) (f f' : Nat → F) (h : ∀ i < a ^ (n + 1), f i = f' i) : kids H a n f = kids H a n f' :=
  List.map_congr_left fun d hd => rootOf_congr H a n _ _ (below_congr (by simpa using hd) h)

theorem stored_congr (H : List F → F) (a : Nat) (db : HashDb F) : ∀ (n : Nat) (f f' : Nat → F), (∀ i < a ^ n, f i = f' i) → Stored H a db n f →
    Stored H a db n f' := by
  intro n
  induction n with
  | zero => intro _ _ _ _; trivial
  | succ n ih =>
    intro f f' h hs
    refine ⟨?_, fun d hd => ih _ _ (below_congr hd h) (hs.2 d hd)⟩
    rw [← rootOf_congr H a (n + 1) f f' h, ← kids_congr H a n f f' h]
    exact hs.1

theorem nodesOf_congr (H : List F → F) (a : Nat) : ∀ (n : Nat) (f f' : Nat → F), (∀ i < a ^ n, f i = f' i) → nodesOf H a n f ⊆ nodesOf H a n f' := by
  intro n
  induction n with
  | zero => intro _ _ _; exact subset_rfl
  | succ n ih =>
    intro f f' h c hc
    rcases hc with rfl | ⟨d, hd, hc⟩
    · exact .inl (kids_congr H a n f f' h)
    · exact .inr ⟨d, hd, ih _ _ (below_congr hd h) hc⟩

/-- every entry of the database is a node of `S` under its hash -/
def SoundDb (H : List F → F) (S : Set (List F)) (db : HashDb F) : Prop := ∀ k v, db k = some v → H v = k ∧ v ∈ S

theorem insert_old {S : Set (List F)} {db : HashDb F} (inj : Set.InjOn H S) (hs : SoundDb H S db) {e : List F} (he : e ∈ S) {k : F} {v : List F}
    (h : db k = some v) : db.insert (H e) e k = some v := by
  rw [HashDb.insert]
  split
  · rename_i hk
    obtain ⟨h1, h2⟩ := hs k v h
    rw [inj he h2 (by rw [h1, hk])]
  · exact h

theorem insert_sound {S : Set (List F)} {db : HashDb F} (hs : SoundDb H S db) {e : List F} (he : e ∈ S) : SoundDb H S (db.insert (H e) e) := by
  intro k v h
  rw [HashDb.insert] at h
  split at h
  · rename_i hk
    rw [Option.some.injEq] at h
    subst h
    exact ⟨hk.symm, he⟩
  · exact hs k v h

theorem Stored.mono {a : Nat} {db db' : HashDb F} (hle : ∀ k v, db k = some v → db' k = some v) : ∀ (n : Nat) (f : Nat → F), Stored H a db n f →
    Stored H a db' n f := by
  intro n
  induction n with
  | zero => intro _ _; trivial
  | succ n ih => intro f hs; exact ⟨hle _ _ hs.1, fun d hd => ih _ (hs.2 d hd)⟩

theorem below_value (a n s : Nat) (f : Nat → F) : below a n (s / a ^ n % a) f (s % a ^ n) = f (s % a ^ (n + 1)) := by
  rw [below, Nat.mod_pow_succ, Nat.mul_comm, Nat.add_comm]

theorem get_stored {db : HashDb F} : ∀ (n s : Nat) (f : Nat → F), Stored H (2 ^ b) db n f →
    treeGetLoop db (reprPow2 b s n) (rootOf H (2 ^ b) n f) = .ok (f (s % (2 ^ b) ^ n), proofOf H (2 ^ b) n s f) := by
  intro n
  induction n with
  | zero => intro s f _; rw [pow_zero, Nat.mod_one]; rfl
  | succ n ih =>
    intro s f hs
    have hd : s / (2 ^ b) ^ n % 2 ^ b < 2 ^ b := Nat.mod_lt _ (by positivity)
    rw [reprPow2_succ, treeGetLoop, HashDb.get, hs.1]
    simp only [Res.ok_bind]
    have e : (kids H (2 ^ b) n f)[s / (2 ^ b) ^ n % 2 ^ b]? = some (rootOf H (2 ^ b) n (below (2 ^ b) n (s / (2 ^ b) ^ n % 2 ^ b) f)) := by
      rw [kids, List.getElem?_map, List.getElem?_range hd]; rfl
    rw [e]
    simp only [Res.unwrap_some, Res.ok_bind]
    rw [ih s _ (hs.2 _ hd)]
    simp only [Res.ok_bind]
    rw [below_value]
    rfl

/-! ## A new tree -/

theorem below_const (a n d : Nat) (x : F) : below a n d (fun _ => x) = fun _ => x := rfl

theorem kids_const (H : List F → F) (a n : Nat) (x : F) : kids H a n (fun _ => x) = List.replicate a (rootOf H a n fun _ => x) := by
  rw [List.eq_replicate_iff]
  refine ⟨by simp [kids], fun y hy => ?_⟩
  obtain ⟨d, -, rfl⟩ := List.mem_map.1 hy
  rfl

theorem nodesOf_const_mono (H : List F → F) (a : Nat) (ha : 0 < a) (x : F) : ∀ n m, n ≤ m → nodesOf H a n (fun _ => x) ⊆ nodesOf H a m (fun _ => x) := by
  intro n m h
  induction m, h using Nat.le_induction with
  | base => exact subset_rfl
  | succ m _ ih => exact fun c hc => .inr ⟨0, ha, ih hc⟩

theorem new_loop {S : Set (List F)} (hH : Hashes hash (2 ^ b) H) (inj : Set.InjOn H S) : ∀ (n m : Nat) (db : HashDb F), SoundDb H S db →
    Stored H (2 ^ b) db m (fun _ => 0) → nodesOf H (2 ^ b) (m + n) (fun _ => (0 : F)) ⊆ S →
    ∃ db', treeNewLoop b hash n (rootOf H (2 ^ b) m fun _ => 0) db = .ok (rootOf H (2 ^ b) (m + n) fun _ => 0, db') ∧ SoundDb H S db' ∧
      Stored H (2 ^ b) db' (m + n) (fun _ => 0) ∧ ∀ k v, db k = some v → db' k = some v := by
  intro n
  induction n with
  | zero => intro m db h1 h2 _; exact ⟨db, rfl, h1, h2, fun _ _ h => h⟩
  | succ n ih =>
    intro m db h1 h2 h3
    have he : List.replicate (2 ^ b) (rootOf H (2 ^ b) m fun _ => (0 : F)) ∈ S := by
      apply h3
      refine nodesOf_const_mono H (2 ^ b) (by positivity) 0 (m + 1) _ (by omega) ?_
      exact .inl (kids_const H _ m 0).symm
    have hr : rootOf H (2 ^ b) (m + 1) (fun _ => (0 : F)) = H (List.replicate (2 ^ b) (rootOf H (2 ^ b) m fun _ => 0)) := by
      rw [← kids_const]; rfl
    rw [treeNewLoop, hH _ (by simp)]
    simp only [Res.ok_bind]
    have hold : ∀ k v, db k = some v →
        db.insert (H (List.replicate (2 ^ b) (rootOf H (2 ^ b) m fun _ => 0))) (List.replicate (2 ^ b) (rootOf H (2 ^ b) m fun _ => 0)) k = some v :=
      fun k v h => insert_old inj h1 he h
    have hst : Stored H (2 ^ b) (db.insert (H (List.replicate (2 ^ b) (rootOf H (2 ^ b) m fun _ => 0)))
        (List.replicate (2 ^ b) (rootOf H (2 ^ b) m fun _ => 0))) (m + 1) fun _ => 0 := by
      refine ⟨?_, fun d _ => Stored.mono hold _ _ h2⟩
      rw [hr, HashDb.insert, if_pos rfl, kids_const]
    obtain ⟨db', e1, e2, e3, e4⟩ := ih (m + 1) _ (insert_sound h1 he) hst (by rw [show m + 1 + n = m + (n + 1) by omega]; exact h3)
    rw [hr] at e1
    refine ⟨db', ?_, e2, by rw [show m + (n + 1) = m + 1 + n by omega]; exact e3, fun k v h => e4 k v (hold k v h)⟩
    rw [e1, show m + 1 + n = m + (n + 1) by omega]

/-! ## Updates -/

theorem update_append : ∀ (ds ds' : List Nat) (ss ss' : List (List F)) (v : F) (db : HashDb F), ds.length = ss.length →
    treeUpdateLoop hash (ds ++ ds') (ss ++ ss') v db = (treeUpdateLoop hash ds ss v db) >>= fun q => treeUpdateLoop hash ds' ss' q.1 q.2 := by
  intro ds
  induction ds with
  | nil =>
    intro ds' ss ss' v db h
    have : ss = [] := List.length_eq_zero_iff.1 h.symm
    subst this
    rfl
  | cons d ds ih =>
    intro ds' ss ss' v db h
    cases ss with
    | nil => simp at h
    | cons s ss =>
      simp only [List.cons_append, treeUpdateLoop]
      cases hash (s.insertIdx d v) with
      | err e => rfl
      | panic => rfl
      | ok x => simp only [Res.ok_bind]; exact ih _ _ _ _ _ (by simpa using h)

theorem proofOf_length (H : List F → F) (a : Nat) : ∀ (n s : Nat) (f : Nat → F), (proofOf H a n s f).length = n := by
  intro n
  induction n with
  | zero => intro s f; rfl
  | succ n ih => intro s f; rw [proofOf, List.length_cons, ih]

theorem insert_erase (l : List F) (d : Nat) (x : F) (h : d < l.length) : (l.eraseIdx d).insertIdx d x = l.set d x := by
  apply List.ext_getElem
  · rw [List.length_insertIdx_of_le_length (by rw [List.length_eraseIdx_of_lt h]; omega), List.length_eraseIdx_of_lt h, List.length_set]; omega
  · intro i h1 h2
    simp only [List.getElem_insertIdx, List.getElem_set, List.getElem_eraseIdx]
    split
    · rename_i hi; rw [if_neg (by omega)]
    · rename_i hi
      split
      · rename_i hi'; rw [if_pos hi'.symm]
      · rename_i hi'; rw [if_neg (by omega), dif_neg (by omega)]; congr 1; omega

/-- the leaves below a child after an update -/
theorem below_update {a n s d : Nat} (ha : 0 < a) (f : Nat → F) (v : F) (i : Nat) (hi : i < a ^ n) :
    below a n d (Function.update f (s % a ^ (n + 1)) v) i =
      if d = s / a ^ n % a then Function.update (below a n d f) (s % a ^ n) v i else below a n d f i := by
  have hs : s % a ^ n < a ^ n := Nat.mod_lt _ (by positivity)
  have hp : 0 < a ^ n := by positivity
  simp only [below, Function.update_apply, Nat.mod_pow_succ]
  by_cases hd : d = s / a ^ n % a
  · rw [if_pos hd, ← hd]
    by_cases hi2 : i = s % a ^ n
    · rw [if_pos hi2, if_pos (by rw [hi2, Nat.mul_comm, Nat.add_comm])]
    · rw [if_neg hi2, if_neg]
      rw [Nat.mul_comm, Nat.add_comm]
      omega
  · rw [if_neg hd, if_neg]
    intro h
    apply hd
    have h1 : (d * a ^ n + i) / a ^ n = d := by
      rw [Nat.mul_comm, Nat.mul_add_div hp, Nat.div_eq_of_lt hi, Nat.add_zero]
    have h2 : (s % a ^ n + a ^ n * (s / a ^ n % a)) / a ^ n = s / a ^ n % a := by
      rw [Nat.add_mul_div_left _ _ hp, Nat.div_eq_of_lt hs, Nat.zero_add]
    rw [← h1, h, h2]

theorem kids_update {a n s : Nat} (ha : 0 < a) (f : Nat → F) (v : F) :
    kids H a n (Function.update f (s % a ^ (n + 1)) v) =
      (kids H a n f).set (s / a ^ n % a) (rootOf H a n (Function.update (below a n (s / a ^ n % a) f) (s % a ^ n) v)) := by
  have hd : s / a ^ n % a < a := Nat.mod_lt _ ha
  apply List.ext_getElem
  · simp [kids]
  · intro i h1 h2
    have hi : i < a := by simpa [kids] using h1
    simp only [kids, List.getElem_map, List.getElem_range, List.getElem_set]
    by_cases hid : s / a ^ n % a = i
    · rw [if_pos hid, ← hid]
      exact rootOf_congr H a n _ _ fun j hj => by rw [below_update ha f v j hj, if_pos rfl]
    · rw [if_neg hid]
      exact rootOf_congr H a n _ _ fun j hj => by rw [below_update ha f v j hj, if_neg (Ne.symm hid)]

theorem update_stored {S : Set (List F)} (hH : Hashes hash (2 ^ b) H) (inj : Set.InjOn H S) (v : F) : ∀ (n s : Nat) (f : Nat → F) (db : HashDb F),
    Stored H (2 ^ b) db n f → SoundDb H S db → nodesOf H (2 ^ b) n (Function.update f (s % (2 ^ b) ^ n) v) ⊆ S →
    ∃ db', treeUpdateLoop hash (reprPow2 b s n).reverse (proofOf H (2 ^ b) n s f).reverse v db =
        .ok (rootOf H (2 ^ b) n (Function.update f (s % (2 ^ b) ^ n) v), db') ∧
      Stored H (2 ^ b) db' n (Function.update f (s % (2 ^ b) ^ n) v) ∧ SoundDb H S db' ∧ ∀ k v, db k = some v → db' k = some v := by
  intro n
  induction n with
  | zero =>
    intro s f db h1 h2 _
    refine ⟨db, ?_, trivial, h2, fun _ _ h => h⟩
    simp [reprPow2, digitsLow, proofOf, treeUpdateLoop, rootOf, Nat.mod_one]
  | succ n ih =>
    intro s f db h1 h2 h3
    have ha : 0 < 2 ^ b := by positivity
    generalize hdd : s / (2 ^ b) ^ n % 2 ^ b = d
    have hd : d < 2 ^ b := by rw [← hdd]; exact Nat.mod_lt _ ha
    have hcongr : ∀ i < (2 ^ b) ^ n, below (2 ^ b) n d (Function.update f (s % (2 ^ b) ^ (n + 1)) v) i =
        Function.update (below (2 ^ b) n d f) (s % (2 ^ b) ^ n) v i := fun i hi => by rw [below_update ha f v i hi, if_pos hdd.symm]
    obtain ⟨db1, e1, e2, e3, e4⟩ := ih s (below (2 ^ b) n d f) db (h1.2 d hd) h2 (fun c hc => h3 (.inr ⟨d, hd, nodesOf_congr H _ n _ _
      (fun i hi => (hcongr i hi).symm) hc⟩))
    rw [reprPow2_succ, proofOf, hdd, List.reverse_cons, List.reverse_cons,
      update_append _ _ _ _ _ _ (by rw [List.length_reverse, List.length_reverse, reprPow2_length, proofOf_length]), e1]
    simp only [Res.ok_bind, treeUpdateLoop]
    have hlen : (kids H (2 ^ b) n f).length = 2 ^ b := by simp [kids]
    have hk := kids_update (H := H) (s := s) ha f v (n := n)
    rw [hdd] at hk
    rw [insert_erase _ _ _ (by rw [hlen]; exact hd), ← hk, hH _ (by simp [kids])]
    simp only [Res.ok_bind]
    have hin : kids H (2 ^ b) n (Function.update f (s % (2 ^ b) ^ (n + 1)) v) ∈ S := h3 (.inl rfl)
    have hold : ∀ k v, db k = some v → db1.insert _ _ k = some v := fun k v h => insert_old inj e3 hin (e4 k v h)
    refine ⟨_, rfl, ⟨?_, fun d' hd' => ?_⟩, insert_sound e3 hin, hold⟩
    · exact if_pos rfl
    · by_cases hdd' : d' = d
      · subst hdd'
        refine stored_congr H _ _ n _ _ (fun i hi => (hcongr i hi).symm) ?_
        exact Stored.mono (fun k v h => insert_old inj e3 hin h) _ _ e2
      · refine stored_congr H _ _ n (below (2 ^ b) n d' f) _ (fun i hi => ?_) (Stored.mono hold _ _ (h1.2 d' hd'))
        rw [below_update ha f v i hi, if_neg (by rw [hdd]; exact hdd')]

/-! ## C125 -/

/-- a history: updates of the tree, one after the other -/
def runUpdates (b : Nat) (hash : List F → Res Err F) (rep : F → Nat) (depth : Nat) : List (F × F) → F × HashDb F → Res Err (F × HashDb F)
  | [], q => .ok q
  | u :: us, q => do
    let q' ← treeUpdate b hash rep depth q.1 u.1 u.2 q.2
    runUpdates b hash rep depth us q'

/-- a new tree in the database `db`, and then the updates -/
def runHistory (b : Nat) (hash : List F → Res Err F) (rep : F → Nat) (depth : Nat) (ups : List (F × F)) (db : HashDb F) : Res Err (F × HashDb F) := do
  let q ← treeNew b hash depth db
  runUpdates b hash rep depth ups q

/-- all nodes that the database had, or that were a node of the tree at some time -/
def historyNodes (H : List F → F) (a : Nat) (rep : F → Nat) (depth : Nat) (ups : List (F × F)) (db : HashDb F) : Set (List F) :=
  {c | (∃ k, db k = some c) ∨ ∃ n ≤ ups.length, c ∈ nodesOf H a depth (leavesAfter rep (a ^ depth) (ups.take n))}

theorem leavesAfter_append (rep : F → Nat) (m : Nat) (ups : List (F × F)) (u : F × F) :
    leavesAfter rep m (ups ++ [u]) = Function.update (leavesAfter rep m ups) (rep u.1 % m) u.2 := by
  simp [leavesAfter]

/-- **C125.** After `new` and any updates, in a database whose entries are stored under their hashes: the root is the root of the tree with the current leaves
(so it does not depend on the order of the updates), `get` gives the current leaf — 0 if it was never updated — with the index taken modulo the number of leaves;
and with an older root it still gives the leaf of that time; the proof it gives are the siblings on the path.  Everything that was in the database is still there.  All this unless two *different* nodes of
the trees at some time of the history (or of the database before) have the same hash. -/
theorem tree_history (hH : Hashes hash (2 ^ b) H) (rep : F → Nat) (depth : Nat) (ups : List (F × F)) (db0 : HashDb F)
    (hdb : ∀ k v, db0 k = some v → H v = k) (inj : Set.InjOn H (historyNodes H (2 ^ b) rep depth ups db0)) :
    ∃ db, runHistory b hash rep depth ups db0 = .ok (rootOf H (2 ^ b) depth (leavesAfter rep ((2 ^ b) ^ depth) ups), db) ∧
      (∀ n ≤ ups.length, ∀ idx, treeGet b rep depth (rootOf H (2 ^ b) depth (leavesAfter rep ((2 ^ b) ^ depth) (ups.take n))) idx db =
        .ok (leavesAfter rep ((2 ^ b) ^ depth) (ups.take n) (rep idx % (2 ^ b) ^ depth),
          proofOf H (2 ^ b) depth (rep idx) (leavesAfter rep ((2 ^ b) ^ depth) (ups.take n)))) ∧
      ∀ k v, db0 k = some v → db k = some v := by
  generalize hS : historyNodes H (2 ^ b) rep depth ups db0 = S at inj
  have hsub : ∀ n ≤ ups.length, nodesOf H (2 ^ b) depth (leavesAfter rep ((2 ^ b) ^ depth) (ups.take n)) ⊆ S := by
    intro n hn c hc; rw [← hS]; exact .inr ⟨n, hn, hc⟩
  have hsound : SoundDb H S db0 := fun k v h => ⟨hdb k v h, by rw [← hS]; exact .inl ⟨k, h⟩⟩
  obtain ⟨db1, e1, s1, st1, o1⟩ := new_loop hH inj depth 0 db0 hsound trivial (by rw [Nat.zero_add]; exact hsub 0 (Nat.zero_le _))
  rw [Nat.zero_add] at e1 st1
  have key : ∀ (us done : List (F × F)) (db : HashDb F), done ++ us = ups → SoundDb H S db →
      (∀ n ≤ done.length, Stored H (2 ^ b) db depth (leavesAfter rep ((2 ^ b) ^ depth) (ups.take n))) →
      ∃ db', runUpdates b hash rep depth us (rootOf H (2 ^ b) depth (leavesAfter rep ((2 ^ b) ^ depth) done), db) =
          .ok (rootOf H (2 ^ b) depth (leavesAfter rep ((2 ^ b) ^ depth) ups), db') ∧
        (∀ n ≤ ups.length, Stored H (2 ^ b) db' depth (leavesAfter rep ((2 ^ b) ^ depth) (ups.take n))) ∧ ∀ k v, db k = some v → db' k = some v := by
    intro us
    induction us with
    | nil =>
      intro done db hu hs hst
      rw [List.append_nil] at hu
      subst hu
      exact ⟨db, rfl, hst, fun _ _ h => h⟩
    | cons u us ih =>
      intro done db hu hs hst
      have htake : ups.take (done.length + 1) = done ++ [u] := by rw [← hu]; simp [List.take_append]
      have hdone : ups.take done.length = done := by rw [← hu]; simp
      have hlen : done.length + 1 ≤ ups.length := by rw [← hu]; simp
      have hst0 := hst done.length (le_refl _)
      rw [hdone] at hst0
      have hnew := hsub (done.length + 1) hlen
      rw [htake, leavesAfter_append] at hnew
      obtain ⟨db2, e2, st2, s2, o2⟩ := update_stored hH inj u.2 depth (rep u.1) (leavesAfter rep ((2 ^ b) ^ depth) done) db hst0 hs hnew
      rw [← leavesAfter_append rep ((2 ^ b) ^ depth) done (u.1, u.2)] at e2 st2
      obtain ⟨db3, e3, st3, o3⟩ := ih (done ++ [u]) db2 (by rw [← hu]; simp) s2 (by
        intro n hn
        rw [List.length_append, List.length_singleton] at hn
        rcases Nat.lt_or_ge n (done.length + 1) with h | h
        · exact Stored.mono o2 _ _ (hst n (by omega))
        · have : n = done.length + 1 := by omega
          rw [this, htake]
          exact st2)
      refine ⟨db3, ?_, st3, fun k v h => o3 k v (o2 k v h)⟩
      simp only [runUpdates, treeUpdate, treeGet, get_stored depth (rep u.1) _ hst0, Res.ok_bind, e2]
      exact e3
  obtain ⟨db2, e2, st2, o2⟩ := key ups [] db1 rfl s1 (by
    intro n hn
    have : n = 0 := by simpa using hn
    subst this
    exact st1)
  refine ⟨db2, ?_, fun n hn idx => get_stored depth (rep idx) _ (st2 n hn), fun k v h => o2 k v (o1 k v h)⟩
  rw [runHistory, treeNew]
  have e1' : treeNewLoop b hash depth 0 db0 = .ok (rootOf H (2 ^ b) depth fun _ => 0, db1) := e1
  rw [e1']
  exact e2

end

end Verif.BP
