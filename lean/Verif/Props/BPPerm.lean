import Verif.BP.R1CS
import Verif.Props.BPFlat
set_option linter.unusedSectionVars false
set_option linter.unusedSimpArgs false
set_option linter.unusedVariables false
/-!
# The verifier's verdict does not depend on the order of the terms of a constraint (C124)

`LinearCombination::simplify` (r1cs/linear_combination.rs:50-67) iterates over a hash map, so that the prover's and the verifier's constraints can have their
terms in different orders, which also differ from run to run.
-/
namespace Verif.BP
variable {F V : Type} [Field F] [AddCommGroup V] [Module F V] [DecidableEq F] [DecidableEq V]

theorem addAt_swap {β : Type} (w w' : List F) (i j : Nat) (c d : F) (k : List F → List F → Res Err β) :
    ((addAt w i c).bind fun x => (addAt w' j d).bind fun y => k x y) = (addAt w' j d).bind fun y => (addAt w i c).bind fun x => k x y := by
  unfold addAt
  by_cases h : i < w.length <;> by_cases h' : j < w'.length <;> simp only [h, h', if_true, if_false, Res.bind]

theorem addAt_same {β : Type} (w : List F) (i j : Nat) (c d : F) (k : List F → Res Err β) :
    ((addAt w i c).bind fun x => (addAt x j d).bind k) = (addAt w j d).bind fun y => (addAt y i c).bind k := by
  unfold addAt
  by_cases h : i < w.length <;> by_cases h' : j < w.length <;> simp only [h, h', if_true, if_false, Res.bind, List.length_modify]
  congr 1
  apply List.ext_getElem?
  intro n
  simp only [List.getElem?_modify]
  cases w[n]? with
  | none => rfl
  | some x =>
    by_cases h1 : i = n <;> by_cases h2 : j = n <;> simp [h1, h2, add_right_comm]

theorem res_bind {α β : Type} (x : Res Err α) (f : α → Res Err β) : (x >>= f) = x.bind f := rfl

theorem flatTerms_swap (e : F) (a b : Var × F) (l : LC F) (W : Weights F) : flatTerms e (a :: b :: l) W = flatTerms e (b :: a :: l) W := by
  obtain ⟨x, c⟩ := a
  obtain ⟨y, d⟩ := b
  cases x <;> cases y <;> simp only [flatTerms, res_bind] <;>
    first
    | exact addAt_same _ _ _ _ _ _
    | exact addAt_swap _ _ _ _ _ _ _
    | rfl
    | (congr 2; ring)

theorem flatTerms_perm (e : F) {l m : LC F} (h : l.Perm m) : ∀ W, flatTerms e l W = flatTerms e m W := by
  induction h with
  | nil => intro W; rfl
  | cons a h ih =>
    intro W
    obtain ⟨x, c⟩ := a
    cases x <;> simp only [flatTerms, ih]
  | swap a b l => intro W; exact flatTerms_swap e b a l W
  | trans h1 h2 ih1 ih2 => intro W; rw [ih1, ih2]

theorem flatLoop_perm (z : F) {cs ds : List (LC F)} (h : List.Forall₂ List.Perm cs ds) : ∀ e W, flatLoop z e cs W = flatLoop z e ds W := by
  induction h with
  | nil => intro e W; rfl
  | cons a h ih => intro e W; simp only [flatLoop, flatTerms_perm e a, ih]

/-- the same verifier, with the terms of each constraint in another order -/
structure VState.Perm (s t : VState F V) : Prop where
  tr : s.tr = t.tr
  cons : List.Forall₂ List.Perm s.cons t.cons
  numVars : s.numVars = t.numVars
  V : s.V = t.V
  deferred : s.deferred = t.deferred
  pending : s.pending = t.pending

/-- results in which the verifiers differ in the order of terms only -/
def ResPerm {α : Type} : Res Err (α × VState F V) → Res Err (α × VState F V) → Prop
  | .ok p, .ok q => p.1 = q.1 ∧ p.2.Perm q.2
  | .err e, .err e' => e = e'
  | .panic, .panic => True
  | _, _ => False

theorem forall₂_append {α β : Type} {R : α → β → Prop} {l : List α} {m : List β} {l' : List α} {m' : List β} (h : List.Forall₂ R l m)
    (h' : List.Forall₂ R l' m') : List.Forall₂ R (l ++ l') (m ++ m') := by
  induction h with
  | nil => exact h'
  | cons a h ih => exact List.Forall₂.cons a ih

theorem perm_refl (cs : List (LC F)) : List.Forall₂ List.Perm cs cs := by
  induction cs with
  | nil => exact .nil
  | cons a cs ih => exact .cons (List.Perm.refl a) ih

theorem Prog.runV_perm {T R α : Type} (ext : T → VState F V → Res Err (R × VState F V)) (hext : ∀ c s t, s.Perm t → ResPerm (ext c s) (ext c t))
    (p : Prog F T R α) : ∀ s t : VState F V, s.Perm t → ResPerm (p.runV ext s) (p.runV ext t) := by
  induction p with
  | pure a => intro s t h; exact ⟨rfl, h⟩
  | fail e => intro s t h; exact rfl
  | panic => intro s t h; trivial
  | multiply l r k ih =>
    intro s t h
    simp only [Prog.runV]
    have e : (s.multiply l r).1 = (t.multiply l r).1 := by simp only [VState.multiply, VState.allocVars, h.numVars]
    rw [e]
    refine ih _ _ _ ⟨h.tr, ?_, by simp [VState.multiply, VState.allocVars, h.numVars], h.V, h.deferred, h.pending⟩
    simp only [VState.multiply, VState.allocVars, h.numVars]
    exact forall₂_append (forall₂_append h.cons (perm_refl _)) (perm_refl _)
  | allocate a k ih =>
    intro s t h
    simp only [Prog.runV]
    have e : s.allocate.1 = t.allocate.1 := by
      simp only [VState.allocate, h.numVars, h.pending]; cases t.pending <;> rfl
    rw [e]
    refine ih _ _ _ ?_
    have hp := h.pending
    simp only [VState.allocate, h.numVars, h.pending]
    cases t.pending with
    | none => exact ⟨h.tr, h.cons, rfl, h.V, h.deferred, rfl⟩
    | some i => exact ⟨h.tr, h.cons, rfl, h.V, h.deferred, rfl⟩
  | allocMult a k ih =>
    intro s t h
    simp only [Prog.runV]
    have e : s.allocVars.1 = t.allocVars.1 := by simp only [VState.allocVars, h.numVars]
    rw [e]
    exact ih _ _ _ ⟨h.tr, h.cons, by simp [VState.allocVars, h.numVars], h.V, h.deferred, h.pending⟩
  | constrain lc k ih =>
    intro s t h
    exact ih _ _ _ ⟨h.tr, forall₂_append h.cons (perm_refl _), h.numVars, h.V, h.deferred, h.pending⟩
  | evalLc lc k ih => intro s t h; exact ih _ _ _ h
  | ext c k ih =>
    intro s t h
    simp only [Prog.runV]
    have := hext c s t h
    cases e1 : ext c s <;> cases e2 : ext c t <;> rw [e1, e2] at this <;> simp only [ResPerm] at this
    · simp only [Res.ok_bind, this.1]; exact ih _ _ _ this.2
    · subst this; exact rfl
    · trivial

theorem challenge_perm (O : Transcript F V → F) (c : String) (s t : VState F V) (h : s.Perm t) :
    ResPerm (VState.challenge O c s) (VState.challenge O c t) := by
  simp only [VState.challenge, ResPerm, h.tr]
  exact ⟨trivial, rfl, h.cons, h.numVars, h.V, h.deferred, h.pending⟩

/-- results in which the verifiers differ in the order of terms only -/
def ResPerm' : Res Err (VState F V) → Res Err (VState F V) → Prop
  | .ok p, .ok q => p.Perm q
  | .err e, .err e' => e = e'
  | .panic, .panic => True
  | _, _ => False

theorem runCallbacks_perm (O : Transcript F V → F) (ps : List (Callback F)) : ∀ s t : VState F V, s.Perm t →
    ResPerm' (runCallbacksV O ps s) (runCallbacksV O ps t) := by
  induction ps with
  | nil => intro s t h; exact h
  | cons p ps ih =>
    intro s t h
    simp only [runCallbacksV]
    have := Prog.runV_perm (VState.challenge O) (challenge_perm O) p s t h
    cases e1 : Prog.runV (VState.challenge O) p s <;> cases e2 : Prog.runV (VState.challenge O) p t <;> rw [e1, e2] at this <;>
      simp only [ResPerm] at this
    · simp only [Res.ok_bind]; exact ih _ _ this.2
    · subst this; exact rfl
    · trivial

/-- **C124.** `verify` gives the same result whatever the order of the terms of the constraints is. -/
theorem verify_perm (O : Transcript F V → F) (s t : VState F V) (h : s.Perm t) (p : R1CSProof F V) (g h' : V) (G H : List V) (r : F) :
    verify O s p g h' G H r = verify O t p g h' G H r := by
  have hrest : ∀ (s t : VState F V), s.Perm t → ∀ n1, verifyRest O s n1 p g h' G H r = verifyRest O t n1 p g h' G H r := by
    rintro ⟨tr, cs, n, V, d, pe⟩ ⟨tr', cs', n', V', d', pe'⟩ ⟨h1, h2, h3, h4, h5, h6⟩ n1
    simp only at h1 h2 h3 h4 h5 h6
    subst h1 h3 h4 h5 h6
    have hf : ∀ z, flatten n V.length cs z = flatten n V.length cs' z := fun z => flatLoop_perm z h2 _ _
    simp only [verifyRest, hf]
  have hc : ∀ (s t : VState F V), s.Perm t → ResPerm' (s.createRandomized O) (t.createRandomized O) := by
    rintro ⟨tr, cs, n, V, d, pe⟩ ⟨tr', cs', n', V', d', pe'⟩ ⟨h1, h2, h3, h4, h5, h6⟩
    simp only at h1 h2 h3 h4 h5 h6
    subst h1 h3 h4 h5 h6
    simp only [VState.createRandomized]
    split
    · exact ⟨rfl, h2, rfl, rfl, rfl, rfl⟩
    · exact runCallbacks_perm O _ _ _ ⟨rfl, h2, rfl, rfl, rfl, rfl⟩
  obtain ⟨tr, cs, n, V, d, pe⟩ := s
  obtain ⟨tr', cs', n', V', d', pe'⟩ := t
  obtain ⟨h1, h2, h3, h4, h5, h6⟩ := h
  simp only at h1 h2 h3 h4 h5 h6
  subst h1 h3 h4 h5 h6
  have := hc ⟨commitPoint "S1" p.S1 (commitPoint "A_O1" p.AO1 (commitPoint "A_I1" p.AI1 (tr ++ [.u64 "m" V.length]))), cs, n, V, d, pe⟩
    ⟨commitPoint "S1" p.S1 (commitPoint "A_O1" p.AO1 (commitPoint "A_I1" p.AI1 (tr ++ [.u64 "m" V.length]))), cs', n, V, d, pe⟩
    ⟨rfl, h2, rfl, rfl, rfl, rfl⟩
  simp only [verify]
  revert this
  generalize VState.createRandomized O ⟨_, cs, n, V, d, pe⟩ = x
  generalize VState.createRandomized O ⟨_, cs', n, V, d, pe⟩ = y
  intro this
  cases x <;> cases y <;> simp only [ResPerm'] at this
  · simp only [Res.ok_bind]; exact hrest _ _ this _
  · subst this; rfl
  · rfl

/-- two such verifiers -/
example : VState.Perm (F := ℚ) (V := ℚ) ⟨[], [[(.left 0, 1), (.one, 2)]], 1, [], [], none⟩ ⟨[], [[(.one, 2), (.left 0, 1)]], 1, [], [], none⟩ :=
  ⟨rfl, .cons (List.Perm.swap _ _ _) .nil, rfl, rfl, rfl, rfl⟩

end Verif.BP
