import Verif.BP.Gadgets
import Verif.Props.BPSound
set_option linter.unusedSectionVars false
set_option linter.unusedSimpArgs false
set_option linter.unusedVariables false
/-!
# Gadgets: how their theorems are proved

`Imposes A p Q`: if the values `A` satisfy all gates and constraints after the verifier executed `p` with result `b`, then `Q b`.  `Builds s p post`: a
prover in the state `s`, whose constraints are all satisfied, executes `p` successfully, and all constraints are satisfied afterwards.
-/
namespace Verif.BP
variable {F V : Type} [Field F] [AddCommGroup V] [Module F V] [DecidableEq F] [DecidableEq V]

theorem prog_pure {T R α : Type} (a : α) : (pure a : Prog F T R α) = .pure a := rfl
theorem prog_bind {T R α β : Type} (p : Prog F T R α) (f : α → Prog F T R β) : (p >>= f) = p.bind f := rfl

/-! ## Linear combinations -/

theorem lc_nil (A : Asg F) : A.lc [] = 0 := rfl
theorem lc_cons (A : Asg F) (x : Var) (c : F) (l : LC F) : A.lc ((x, c) :: l) = c * A.val x + A.lc l := by simp [Asg.lc]
theorem lc_append (A : Asg F) (l r : LC F) : A.lc (l ++ r) = A.lc l + A.lc r := by simp [Asg.lc]
theorem lc_ofVar (A : Asg F) (x : Var) : A.lc (LC.ofVar x) = A.val x := by simp [LC.ofVar, Asg.lc]
theorem lc_ofScalar (A : Asg F) (c : F) : A.lc (LC.ofScalar c) = c := by simp [LC.ofScalar, Asg.lc, Asg.val]
theorem lc_add (A : Asg F) (l r : LC F) : A.lc (LC.add l r) = A.lc l + A.lc r := lc_append A l r
theorem lc_neg (A : Asg F) (l : LC F) : A.lc (LC.neg l) = -A.lc l := by
  induction l with
  | nil => simp [LC.neg, Asg.lc]
  | cons a l ih => obtain ⟨x, c⟩ := a; simp only [LC.neg, List.map_cons, lc_cons] at *; rw [ih]; ring
theorem lc_sub (A : Asg F) (l r : LC F) : A.lc (LC.sub l r) = A.lc l - A.lc r := by
  rw [LC.sub, lc_append, show (r.map fun t => (t.1, -t.2)) = LC.neg r from rfl, lc_neg, sub_eq_add_neg]
theorem lc_scale (A : Asg F) (s : F) (l : LC F) : A.lc (LC.scale s l) = s * A.lc l := by
  induction l with
  | nil => simp [LC.scale, Asg.lc]
  | cons a l ih => obtain ⟨x, c⟩ := a; simp only [LC.scale, List.map_cons, lc_cons] at *; rw [ih]; ring

/-! ## The verifier -/

/-- everything of `t` is still there in `t'` -/
structure VState.Le (t t' : VState F V) : Prop where
  vars : t.numVars ≤ t'.numVars
  cons : ∀ lc ∈ t.cons, lc ∈ t'.cons
  V : t.V <+: t'.V

theorem VState.Le.refl (t : VState F V) : t.Le t := ⟨le_refl _, fun _ h => h, List.prefix_refl _⟩
theorem VState.Le.trans {t t' t'' : VState F V} (h : t.Le t') (h' : t'.Le t'') : t.Le t'' :=
  ⟨h.vars.trans h'.vars, fun _ x => h'.cons _ (h.cons _ x), h.V.trans h'.V⟩

theorem VState.Le.sat {t t' : VState F V} (h : t.Le t') {A : Asg F} (s : Sat t'.numVars t'.cons A) : Sat t.numVars t.cons A :=
  ⟨fun i hi => s.gate i (lt_of_lt_of_le hi h.vars), fun lc hl => s.zero lc (h.cons lc hl)⟩

theorem VState.Le.allocate (t : VState F V) : t.Le t.allocate.2 := by
  simp only [VState.allocate]
  split
  · exact ⟨Nat.le_succ _, fun _ h => h, List.prefix_refl _⟩
  · exact ⟨le_refl _, fun _ h => h, List.prefix_refl _⟩

theorem VState.Le.multiply (t : VState F V) (l r : LC F) : t.Le (t.multiply l r).2 :=
  ⟨by simp [VState.multiply, VState.allocVars], fun _ h => by simp [VState.multiply, VState.allocVars, h], List.prefix_refl _⟩

theorem VState.Le.top {c : Top F V} {t : VState F V} {q : Var × VState F V} (e : VState.top c t = .ok q) : t.Le q.2 := by
  cases c <;> simp only [VState.top, Res.ok.injEq] at e <;> subst e
  · exact ⟨le_refl _, fun _ h => h, List.prefix_append _ _⟩
  · exact ⟨le_refl _, fun _ h => h, List.prefix_refl _⟩

theorem Prog.runV_ext_le {T R α : Type} (ext : T → VState F V → Res Err (R × VState F V)) (hext : ∀ c t q, ext c t = .ok q → t.Le q.2)
    (p : Prog F T R α) : ∀ (t t' : VState F V) (b : α), p.runV ext t = .ok (b, t') → t.Le t' := by
  induction p with
  | pure a => intro t t' b e; simp only [Prog.runV, Res.ok.injEq, Prod.mk.injEq] at e; obtain ⟨-, rfl⟩ := e; exact .refl _
  | fail e => intro t t' b e; simp [Prog.runV] at e
  | panic => intro t t' b e; simp [Prog.runV] at e
  | multiply l r k ih => intro t t' b e; exact (VState.Le.multiply t l r).trans (ih _ _ _ _ e)
  | allocate a k ih => intro t t' b e; exact (VState.Le.allocate t).trans (ih _ _ _ _ e)
  | allocMult a k ih =>
    intro t t' b e
    have e' : (k t.allocVars.1).runV ext t.allocVars.2 = .ok (b, t') := e
    refine VState.Le.trans (t' := t.allocVars.2) ⟨?_, fun _ h => h, List.prefix_refl _⟩ (ih _ _ _ _ e')
    simp [VState.allocVars]
  | constrain lc k ih =>
    intro t t' b e
    refine VState.Le.trans (t' := { t with cons := t.cons ++ [lc] }) ⟨le_refl _, fun _ h => by simp [h], List.prefix_refl _⟩ (ih () _ _ _ e)
  | evalLc lc k ih => intro t t' b e; exact ih _ _ _ _ e
  | ext c k ih =>
    intro t t' b e
    simp only [Prog.runV] at e
    obtain ⟨q, e1, e⟩ := Res.bind_eq_ok.1 e
    exact (hext _ _ _ e1).trans (ih _ _ _ _ e)

theorem Prog.runV_le {α : Type} (p : Prog F (Top F V) Var α) (t t' : VState F V) (b : α) (e : p.runV VState.top t = .ok (b, t')) : t.Le t' :=
  Prog.runV_ext_le _ (fun _ _ _ => VState.Le.top) p t t' b e

theorem VState.Le.callbacks (O : Transcript F V → F) (ps : List (Callback F)) : ∀ (t t' : VState F V), runCallbacksV O ps t = .ok t' → t.Le t' := by
  induction ps with
  | nil => intro t t' e; simp only [runCallbacksV, Res.ok.injEq] at e; subst e; exact .refl _
  | cons p ps ih =>
    intro t t' e
    simp only [runCallbacksV] at e
    obtain ⟨q, e1, e⟩ := Res.bind_eq_ok.1 e
    refine (Prog.runV_ext_le _ ?_ p _ _ _ e1).trans (ih _ _ e)
    intro c t q hq
    simp only [VState.challenge, Res.ok.injEq] at hq
    subst hq
    exact ⟨le_refl _, fun _ h => h, List.prefix_refl _⟩

/-- the second phase only adds -/
theorem VState.Le.createRandomized {O : Transcript F V → F} {t t' : VState F V} (e : t.createRandomized O = .ok t') : t.Le t' := by
  simp only [VState.createRandomized] at e
  by_cases h0 : t.deferred.length = 0
  · rw [if_pos h0] at e
    simp only [Res.ok.injEq] at e
    subst e
    exact ⟨le_refl _, fun _ h => h, List.prefix_refl _⟩
  · rw [if_neg h0] at e
    have := VState.Le.callbacks O _ _ _ e
    exact ⟨this.vars, this.cons, this.V⟩

theorem Prog.runV_bind {T R α β : Type} (ext : T → VState F V → Res Err (R × VState F V)) (p : Prog F T R α) (f : α → Prog F T R β) :
    ∀ t, (p.bind f).runV ext t = (p.runV ext t).bind fun q => (f q.1).runV ext q.2 := by
  induction p with
  | pure a => intro t; rfl
  | fail e => intro t; rfl
  | panic => intro t; rfl
  | multiply l r k ih => intro t; exact ih _ _
  | allocate a k ih => intro t; exact ih _ _
  | allocMult a k ih => intro t; exact ih _ _
  | constrain lc k ih => intro t; exact ih _ _
  | evalLc lc k ih => intro t; exact ih _ _
  | ext c k ih =>
    intro t
    simp only [Prog.bind, Prog.runV]
    cases h : ext c t with
    | ok q => exact ih _ _
    | err e => rfl
    | panic => rfl

/-- if `A` satisfies everything after the verifier executed `p` in the state `t`, then `post` -/
def ImposesAt {α : Type} (A : Asg F) (t : VState F V) (p : Prog F (Top F V) Var α) (post : α → VState F V → Prop) : Prop :=
  ∀ b t', p.runV VState.top t = .ok (b, t') → Sat t'.numVars t'.cons A → post b t'

theorem ImposesAt.bind {α β : Type} {A : Asg F} {t : VState F V} {p : Prog F (Top F V) Var α} {f : α → Prog F (Top F V) Var β}
    {post : β → VState F V → Prop} (h : ImposesAt A t p fun b t1 => ImposesAt A t1 (f b) post) : ImposesAt A t (p >>= f) post := by
  intro b t' e s
  rw [prog_bind, Prog.runV_bind] at e
  obtain ⟨⟨b1, t1⟩, e1, e2⟩ := Res.bind_eq_ok.1 e
  exact h b1 t1 e1 ((Prog.runV_le _ _ _ _ e2).sat s) b t' e2 s

theorem ImposesAt.mono {α : Type} {A : Asg F} {t : VState F V} {p : Prog F (Top F V) Var α} {post post' : α → VState F V → Prop}
    (h : ImposesAt A t p post) (hp : ∀ b t', t.Le t' → post b t' → post' b t') : ImposesAt A t p post' :=
  fun b t' e s => hp b t' (Prog.runV_le _ _ _ _ e) (h b t' e s)

theorem ImposesAt.pure {α : Type} {A : Asg F} {t : VState F V} {a : α} {post : α → VState F V → Prop} (h : post a t) :
    ImposesAt A t (pure a : Prog F (Top F V) Var α) post := by
  intro b t' e s
  simp only [prog_pure, Prog.runV, Res.ok.injEq, Prod.mk.injEq] at e
  obtain ⟨rfl, rfl⟩ := e
  exact h

/-- the computation makes no commitments, and if `A` satisfies everything after the verifier executed it, then `Q` -/
def Imposes {α : Type} (V : Type) [AddCommGroup V] [Module F V] (A : Asg F) (p : Prog F (Top F V) Var α) (Q : α → Prop) : Prop :=
  ∀ t : VState F V, ImposesAt A t p fun b t' => t'.V = t.V ∧ Q b

theorem Imposes.bind {α β : Type} {A : Asg F} {p : Prog F (Top F V) Var α} {f : α → Prog F (Top F V) Var β} {Q : α → Prop} {Q' : β → Prop}
    (h : Imposes V A p Q) (hf : ∀ b, Q b → Imposes V A (f b) Q') : Imposes V A (p >>= f) Q' := by
  intro t
  apply ImposesAt.bind
  refine (h t).mono fun b t1 _ hq => ?_
  refine (hf b hq.2 t1).mono fun b' t2 _ hq' => ⟨hq'.1.trans hq.1, hq'.2⟩

theorem Imposes.mono {α : Type} {A : Asg F} {p : Prog F (Top F V) Var α} {Q Q' : α → Prop} (h : Imposes V A p Q) (hq : ∀ b, Q b → Q' b) :
    Imposes V A p Q' := fun t => (h t).mono fun b t' _ x => ⟨x.1, hq b x.2⟩

theorem Imposes.pure {α : Type} {A : Asg F} {a : α} {Q : α → Prop} (h : Q a) : Imposes V A (pure a : Prog F (Top F V) Var α) Q :=
  fun t => ImposesAt.pure ⟨rfl, h⟩

theorem Imposes.panic {α : Type} {A : Asg F} {Q : α → Prop} : Imposes V A (.panic : Prog F (Top F V) Var α) Q := by
  intro t b t' e; simp [Prog.runV] at e

theorem Imposes.fail {α : Type} {A : Asg F} {e : Err} {Q : α → Prop} : Imposes V A (.fail e : Prog F (Top F V) Var α) Q := by
  intro t b t' e; simp [Prog.runV] at e

theorem Imposes.multiply {A : Asg F} (l r : LC F) :
    Imposes V A (csMultiply l r) fun x => A.val x.1 = A.lc l ∧ A.val x.2.1 = A.lc r ∧ A.val x.2.2 = A.lc l * A.lc r := by
  intro t b t' e s
  simp only [csMultiply, Prog.runV, Res.ok.injEq, Prod.mk.injEq] at e
  obtain ⟨rfl, rfl⟩ := e
  refine ⟨rfl, ?_⟩
  simp only [VState.multiply, VState.allocVars] at s ⊢
  have h1 := s.zero (l ++ [(.left t.numVars, -1)]) (by simp)
  have h2 := s.zero (r ++ [(.right t.numVars, -1)]) (by simp)
  have h3 := s.gate t.numVars (by simp)
  simp only [lc_append, lc_cons, lc_nil] at h1 h2
  have e1 : A.val (.left t.numVars) = A.lc l := by linear_combination -h1
  have e2 : A.val (.right t.numVars) = A.lc r := by linear_combination -h2
  refine ⟨e1, e2, ?_⟩
  rw [← e1, ← e2]
  exact h3.symm

theorem Imposes.allocMult {A : Asg F} (a : Option (F × F)) :
    Imposes V A (csAllocMult a) fun x => A.val x.2.2 = A.val x.1 * A.val x.2.1 := by
  intro t b t' e s
  simp only [csAllocMult, Prog.runV, Res.ok.injEq, Prod.mk.injEq] at e
  obtain ⟨rfl, rfl⟩ := e
  refine ⟨rfl, ?_⟩
  simp only [VState.allocVars] at s ⊢
  exact (s.gate t.numVars (by simp)).symm

theorem Imposes.constrain {A : Asg F} (lc : LC F) : Imposes V A (csConstrain lc) fun _ => A.lc lc = 0 := by
  intro t b t' e s
  simp only [csConstrain, Prog.runV, Res.ok.injEq, Prod.mk.injEq] at e
  obtain ⟨-, rfl⟩ := e
  exact ⟨rfl, s.zero lc (by simp)⟩

theorem Imposes.constrainScalar {A : Asg F} (lc : LC F) (c : F) : Imposes V A (constrainScalar lc c) fun _ => A.lc lc = c := by
  refine (Imposes.constrain _).mono fun _ h => ?_
  rw [lc_sub, lc_ofScalar] at h
  exact sub_eq_zero.1 h

theorem Imposes.evalLc {A : Asg F} (lc : LC F) : Imposes V A (csEvalLc lc) fun x => x = none := by
  intro t b t' e s
  simp only [csEvalLc, Prog.runV, Res.ok.injEq, Prod.mk.injEq] at e
  obtain ⟨rfl, rfl⟩ := e
  exact ⟨rfl, rfl⟩

theorem Imposes.subU64 {A : Asg F} (a b : Nat) : Imposes V A (subU64 a b) fun d => b ≤ a ∧ d = a - b := by
  unfold BP.subU64
  split
  · exact Imposes.pure ⟨by assumption, rfl⟩
  · exact Imposes.panic

theorem Imposes.at {α : Type} {A : Asg F} {p : Prog F (Top F V) Var α} {Q : α → Prop} (h : Imposes V A p Q) (t : VState F V)
    {post : α → VState F V → Prop} (hp : ∀ b t', t'.V = t.V → Q b → post b t') : ImposesAt A t p post :=
  (h t).mono fun b t' _ x => hp b t' x.1 x.2

theorem ImposesAt.commitV {A : Asg F} {t : VState F V} {C : V} {post : Var → VState F V → Prop}
    (h : ∀ t', t'.V = t.V ++ [C] → post (.committed t.V.length) t') : ImposesAt A t (commitV C) post := by
  intro b t' e s
  simp only [BP.commitV, Prog.runV, VState.top, Res.ok_bind, Res.ok.injEq, Prod.mk.injEq] at e
  obtain ⟨rfl, rfl⟩ := e
  exact h _ rfl

theorem ImposesAt.commitFirst {A : Asg F} {t : VState F V} {Cs : List V} {post : Var × List V → VState F V → Prop}
    (h : ∀ C Cs' t', Cs = C :: Cs' → t'.V = t.V ++ [C] → post (.committed t.V.length, Cs') t') : ImposesAt A t (commitFirst Cs) post := by
  cases Cs with
  | nil => intro b t' e; simp [BP.commitFirst, Prog.runV] at e
  | cons C Cs =>
    refine ImposesAt.bind (ImposesAt.commitV fun t' ht' => ImposesAt.pure (h C Cs t' rfl ht'))

theorem ImposesAt.any {α : Type} {A : Asg F} {t : VState F V} (p : Prog F (Top F V) Var α) : ImposesAt A t p fun _ t' => t.Le t' :=
  fun b t' e _ => Prog.runV_le _ _ _ _ e

theorem prefix_at {l m : List V} {x : V} (h : l ++ [x] <+: m) : m[l.length]? = some x := by
  obtain ⟨r, rfl⟩ := h
  simp

theorem bind_unit {T R : Type} (p : Prog F T R Unit) : (p >>= fun _ => pure ()) = p := by
  rw [prog_bind]
  induction p with
  | pure a => rfl
  | fail e => rfl
  | panic => rfl
  | multiply l r k ih => simp only [Prog.bind, ih]
  | allocate a k ih => simp only [Prog.bind, ih]
  | allocMult a k ih => simp only [Prog.bind, ih]
  | constrain lc k ih => simp only [Prog.bind, ih]
  | evalLc lc k ih => simp only [Prog.bind, ih]
  | ext c k ih => simp only [Prog.bind, ih]

/-! ## The prover -/

/-- a variable that was returned by a call: the right side and the output of a pending multiplier were not -/
def PState.Given (s : PState F V) : Var → Prop
  | .left i => i < s.aL.length
  | .right i => i < s.aL.length ∧ s.pending ≠ some i
  | .out i => i < s.aL.length ∧ s.pending ≠ some i
  | .committed i => i < s.v.length
  | .one => True

/-- a linear combination of such variables, and its value -/
structure PState.Has (s : PState F V) (l : LC F) (x : F) : Prop where
  given : ∀ t ∈ l, s.Given t.1
  value : s.asg.lc l = x

/-- the prover's values satisfy all gates and constraints, and the constraints mention returned variables only -/
structure PState.Good (s : PState F V) : Prop where
  wf : s.WF
  cons : ∀ lc ∈ s.cons, s.Has lc 0

/-- what was returned in `s` still exists in `s'`, with the same value -/
structure PState.Le (s s' : PState F V) : Prop where
  var : ∀ x, s.Given x → s'.Given x ∧ s'.asg.val x = s.asg.val x
  deferred : s'.deferred = s.deferred
  idle : s.pending = none → s'.pending = none

theorem PState.Le.refl (s : PState F V) : s.Le s := ⟨fun x h => ⟨h, rfl⟩, rfl, id⟩
theorem PState.Le.trans {s s' s'' : PState F V} (h : s.Le s') (h' : s'.Le s'') : s.Le s'' :=
  ⟨fun x hx => ⟨(h'.var x (h.var x hx).1).1, (h'.var x (h.var x hx).1).2.trans (h.var x hx).2⟩, h'.deferred.trans h.deferred, fun e => h'.idle (h.idle e)⟩

theorem PState.Has.mono {s s' : PState F V} {l : LC F} {x : F} (h : s.Has l x) (le : s.Le s') : s'.Has l x := by
  refine ⟨fun t ht => (le.var _ (h.given t ht)).1, ?_⟩
  rw [← h.value]
  simp only [Asg.lc]
  congr 1
  exact List.map_congr_left fun t ht => by rw [(le.var _ (h.given t ht)).2]

theorem PState.Has.add {s : PState F V} {l r : LC F} {x y : F} (h : s.Has l x) (h' : s.Has r y) : s.Has (LC.add l r) (x + y) :=
  ⟨fun t ht => by rcases List.mem_append.1 ht with a | a; exacts [h.given t a, h'.given t a], by rw [lc_add, h.value, h'.value]⟩

theorem PState.Has.neg {s : PState F V} {l : LC F} {x : F} (h : s.Has l x) : s.Has (LC.neg l) (-x) := by
  refine ⟨fun t ht => ?_, by rw [lc_neg, h.value]⟩
  obtain ⟨a, ha, rfl⟩ := List.mem_map.1 ht
  exact h.given a ha

theorem PState.Has.sub {s : PState F V} {l r : LC F} {x y : F} (h : s.Has l x) (h' : s.Has r y) : s.Has (LC.sub l r) (x - y) := by
  rw [sub_eq_add_neg]
  exact h.add h'.neg

theorem PState.Has.scale {s : PState F V} {l : LC F} {x : F} (h : s.Has l x) (c : F) : s.Has (LC.scale c l) (c * x) := by
  refine ⟨fun t ht => ?_, by rw [lc_scale, h.value]⟩
  obtain ⟨a, ha, rfl⟩ := List.mem_map.1 ht
  exact h.given a ha

theorem PState.Has.scalar (s : PState F V) (c : F) : s.Has (LC.ofScalar c) c :=
  ⟨fun t ht => by simp only [LC.ofScalar, List.mem_singleton] at ht; subst ht; trivial, lc_ofScalar _ _⟩

theorem PState.Has.one (s : PState F V) : s.Has (LC.ofVar .one) 1 := PState.Has.scalar s 1

theorem PState.Has.nil (s : PState F V) : s.Has [] 0 := ⟨by simp, rfl⟩

theorem PState.Has.cons {s : PState F V} {x : Var} {l : LC F} {y z : F} (c : F) (h : s.Has (LC.ofVar x) y) (h' : s.Has l z) :
    s.Has ((x, c) :: l) (c * y + z) := by
  refine ⟨fun t ht => ?_, ?_⟩
  · rcases List.mem_cons.1 ht with rfl | a
    · exact h.given (x, 1) (by simp [LC.ofVar])
    · exact h'.given t a
  · rw [lc_cons, h'.value, ← h.value, lc_ofVar]

theorem PState.Has.single {s : PState F V} {x : Var} {y : F} (c : F) (h : s.Has (LC.ofVar x) y) : s.Has [(x, c)] (c * y) := by
  simpa using h.cons c (PState.Has.nil s)

theorem PState.Has.congr {s : PState F V} {l : LC F} {x y : F} (h : s.Has l x) (e : x = y) : s.Has l y := e ▸ h

/-- `evaluate_lc` of existing variables gives their value -/
theorem evalFrom_eq (s : PState F V) (w : s.WF) : ∀ (l : LC F) (c : F), (∀ t ∈ l, s.Given t.1) →
    evalFrom s.aL s.aR s.aO s.v c l = .ok (c + s.asg.lc l) := by
  intro l
  induction l with
  | nil => intro c _; simp [evalFrom, lc_nil]
  | cons t l ih =>
    intro c hg
    obtain ⟨x, k⟩ := t
    have hx : varVal s.aL s.aR s.aO s.v x = .ok (s.asg.val x) := by
      have g := hg (x, k) (by simp)
      have key : ∀ (L : List F) i, i < L.length → Res.unwrap (ε := Err) L[i]? = .ok (L.getD i 0) := by
        intro L i hi
        rw [List.getElem?_eq_getElem hi, List.getD_eq_getElem _ _ hi]; rfl
      cases x with
      | left i => exact key _ _ g
      | right i => exact key _ _ (by rw [w.lenR]; exact g.1)
      | out i => exact key _ _ (by rw [w.lenO]; exact g.1)
      | committed i => exact key _ _ g
      | one => rfl
    simp only [evalFrom, hx, Res.ok_bind]
    rw [ih _ fun t ht => hg t (by simp [ht]), lc_cons, add_assoc]

theorem PState.Has.eval {s : PState F V} {l : LC F} {x : F} (h : s.Has l x) (w : s.WF) : s.eval l = .ok x := by
  rw [PState.eval, evalFrom_eq s w l 0 h.given, h.value, zero_add]

theorem getD_append_lt {l m : List F} {i : Nat} (h : i < l.length) : (l ++ m).getD i 0 = l.getD i 0 := by
  simp only [List.getD_eq_getElem?_getD, List.getElem?_append_left h]

theorem getD_append_self {l : List F} {x : F} {n : Nat} (h : n = l.length) : (l ++ [x]).getD n 0 = x := by
  subst h; simp [List.getD_eq_getElem?_getD]

theorem Prog.runP_bind {T R α β : Type} (ext : T → PState F V → Res Err (R × PState F V)) (p : Prog F T R α) (f : α → Prog F T R β) :
    ∀ s, (p.bind f).runP ext s = (p.runP ext s).bind fun q => (f q.1).runP ext q.2 := by
  induction p with
  | pure a => intro t; rfl
  | fail e => intro t; rfl
  | panic => intro t; rfl
  | multiply l r k ih =>
    intro s
    simp only [Prog.bind, Prog.runP]
    cases h : s.multiply l r with
    | ok q => exact ih _ _
    | err e => rfl
    | panic => rfl
  | allocate a k ih =>
    intro s
    simp only [Prog.bind, Prog.runP]
    cases h : s.allocate a with
    | ok q => exact ih _ _
    | err e => rfl
    | panic => rfl
  | allocMult a k ih =>
    intro s
    simp only [Prog.bind, Prog.runP]
    cases h : s.allocMult a with
    | ok q => exact ih _ _
    | err e => rfl
    | panic => rfl
  | constrain lc k ih => intro s; exact ih _ _
  | evalLc lc k ih =>
    intro s
    simp only [Prog.bind, Prog.runP]
    cases h : s.eval lc with
    | ok q => exact ih _ _
    | err e => rfl
    | panic => rfl
  | ext c k ih =>
    intro s
    simp only [Prog.bind, Prog.runP]
    cases h : ext c s with
    | ok q => exact ih _ _
    | err e => rfl
    | panic => rfl

/-- the prover executes `p` in the state `s` successfully, everything is satisfied afterwards, and `post` -/
def Builds {α : Type} (g h : V) (s : PState F V) (p : Prog F (Top F (F × F)) Var α) (post : α → PState F V → Prop) : Prop :=
  ∃ a s', p.runP (PState.top g h) s = .ok (a, s') ∧ s'.Good ∧ s.Le s' ∧ post a s'

theorem Builds.bind {α β : Type} {g h : V} {s : PState F V} {p : Prog F (Top F (F × F)) Var α} {f : α → Prog F (Top F (F × F)) Var β}
    {post : α → PState F V → Prop} {post' : β → PState F V → Prop} (hp : Builds g h s p post)
    (hf : ∀ a s', s'.Good → s.Le s' → post a s' → Builds g h s' (f a) post') : Builds g h s (p >>= f) post' := by
  obtain ⟨a, s1, e1, g1, l1, q1⟩ := hp
  obtain ⟨b, s2, e2, g2, l2, q2⟩ := hf a s1 g1 l1 q1
  refine ⟨b, s2, ?_, g2, l1.trans l2, q2⟩
  rw [prog_bind, Prog.runP_bind, e1]
  exact e2

theorem Builds.mono {α : Type} {g h : V} {s : PState F V} {p : Prog F (Top F (F × F)) Var α} {post post' : α → PState F V → Prop}
    (hp : Builds g h s p post) (hq : ∀ a s', s'.Good → s.Le s' → post a s' → post' a s') : Builds g h s p post' := by
  obtain ⟨a, s1, e1, g1, l1, q1⟩ := hp
  exact ⟨a, s1, e1, g1, l1, hq a s1 g1 l1 q1⟩

theorem Builds.pure {α : Type} {g h : V} {s : PState F V} {a : α} {post : α → PState F V → Prop} (hg : s.Good) (hp : post a s) :
    Builds g h s (pure a : Prog F (Top F (F × F)) Var α) post := ⟨a, s, rfl, hg, .refl s, hp⟩

theorem Builds.constrain {g h : V} {s : PState F V} {lc : LC F} (hg : s.Good) (hl : s.Has lc 0) :
    Builds g h s (csConstrain lc) fun _ s' => True := by
  refine ⟨(), { s with cons := s.cons ++ [lc] }, rfl, ⟨⟨hg.wf.lenR, hg.wf.lenO, hg.wf.gate, hg.wf.pend, hg.wf.lenB⟩, ?_⟩, ⟨fun x hx => ⟨hx, rfl⟩, rfl, id⟩, trivial⟩
  have le : s.Le { s with cons := s.cons ++ [lc] } := ⟨fun x hx => ⟨hx, rfl⟩, rfl, id⟩
  intro c hc
  rcases List.mem_append.1 hc with h1 | h1
  · exact (hg.cons c h1).mono le
  · rw [List.mem_singleton.1 h1]; exact hl.mono le

theorem Builds.constrainScalar {g h : V} {s : PState F V} {lc : LC F} {c : F} (hg : s.Good) (hl : s.Has lc c) :
    Builds g h s (constrainScalar lc c) fun _ s' => True :=
  Builds.constrain hg ((hl.sub (PState.Has.scalar s c)).congr (sub_self c))

/-- new multipliers -/
theorem allocVars_le {s : PState F V} (w : s.WF) (l r : F) : s.Le (s.allocVars l r (l * r)).2 := by
  refine ⟨fun x hx => ?_, rfl, id⟩
  cases x with
  | left i => exact ⟨by simp only [PState.Given, PState.allocVars, List.length_append] at *; omega, getD_append_lt hx⟩
  | right i =>
    refine ⟨⟨by have := hx.1; simp only [PState.allocVars, List.length_append]; omega, hx.2⟩, getD_append_lt (by rw [w.lenR]; exact hx.1)⟩
  | out i =>
    refine ⟨⟨by have := hx.1; simp only [PState.allocVars, List.length_append]; omega, hx.2⟩, getD_append_lt (by rw [w.lenO]; exact hx.1)⟩
  | committed i => exact ⟨hx, rfl⟩
  | one => exact ⟨trivial, rfl⟩

theorem allocVars_has {s : PState F V} (w : s.WF) (l r : F) : let q := s.allocVars l r (l * r)
    q.2.Has (LC.ofVar q.1.1) l ∧ q.2.Has (LC.ofVar q.1.2.1) r ∧ q.2.Has (LC.ofVar q.1.2.2) (l * r) := by
  intro q
  have hp : s.pending ≠ some s.aL.length := fun hh => absurd (w.pend _ hh) (lt_irrefl _)
  have gv : ∀ x : Var, q.2.Given x → ∀ t ∈ (LC.ofVar x : LC F), q.2.Given t.1 := by
    intro x hx t ht
    simp only [LC.ofVar, List.mem_singleton] at ht
    subst ht; exact hx
  have hl : s.aL.length < q.2.aL.length := by simp [q, PState.allocVars]
  refine ⟨⟨gv _ hl, ?_⟩, ⟨gv _ ⟨?_, ?_⟩, ?_⟩, ⟨gv _ ⟨?_, ?_⟩, ?_⟩⟩
  · rw [lc_ofVar]; exact getD_append_self rfl
  · rw [w.lenR]; exact hl
  · show s.pending ≠ _; rw [w.lenR]; exact hp
  · rw [lc_ofVar]; exact getD_append_self rfl
  · rw [w.lenO]; exact hl
  · show s.pending ≠ _; rw [w.lenO]; exact hp
  · rw [lc_ofVar]; exact getD_append_self rfl

theorem Builds.allocMult {g h : V} {s : PState F V} {l r : F} (hg : s.Good) :
    Builds g h s (csAllocMult (some (l, r))) fun x s' =>
      s'.Has (LC.ofVar x.1) l ∧ s'.Has (LC.ofVar x.2.1) r ∧ s'.Has (LC.ofVar x.2.2) (l * r) := by
  have le := allocVars_le hg.wf l r
  exact ⟨(s.allocVars l r (l * r)).1, (s.allocVars l r (l * r)).2, rfl, ⟨hg.wf.allocVars l r, fun lc hl => (hg.cons lc hl).mono le⟩, le,
    allocVars_has hg.wf l r⟩

theorem Builds.multiply {g h : V} {s : PState F V} {l r : LC F} {x y : F} (hg : s.Good) (hl : s.Has l x) (hr : s.Has r y) :
    Builds g h s (csMultiply l r) fun q s' => s'.Has (LC.ofVar q.1) x ∧ s'.Has (LC.ofVar q.2.1) y ∧ s'.Has (LC.ofVar q.2.2) (x * y) := by
  have le := allocVars_le hg.wf x y
  have w := hg.wf.allocVars x y
  obtain ⟨h1, h2, h3⟩ := allocVars_has hg.wf x y
  generalize hq : s.allocVars x y (x * y) = q at *
  obtain ⟨vs, s1⟩ := q
  simp only at *
  refine ⟨vs, { s1 with cons := s1.cons ++ [l ++ [(vs.1, -1)]] ++ [r ++ [(vs.2.1, -1)]] }, ?_, ?_, ?_, ?_⟩
  · simp only [csMultiply, Prog.runP, PState.multiply, hl.eval hg.wf, hr.eval hg.wf, Res.ok_bind, Res.pure_eq, hq]
  · have le2 : s1.Le { s1 with cons := s1.cons ++ [l ++ [(vs.1, -1)]] ++ [r ++ [(vs.2.1, -1)]] } := ⟨fun x hx => ⟨hx, rfl⟩, rfl, id⟩
    refine ⟨⟨w.lenR, w.lenO, w.gate, w.pend, w.lenB⟩, fun lc hlc => ?_⟩
    have hc : s1.cons = s.cons := by rw [show s1 = (s.allocVars x y (x * y)).2 by rw [hq]]; rfl
    simp only [hc, List.append_assoc, List.mem_append, List.mem_singleton] at hlc
    rcases hlc with a | a | a
    · exact ((hg.cons lc a).mono le).mono le2
    · subst a
      exact (((hl.mono le).add (h1.single (-1))).congr (by ring)).mono le2
    · subst a
      exact (((hr.mono le).add (h2.single (-1))).congr (by ring)).mono le2
  · exact ⟨fun x hx => le.var x hx, le.deferred, le.idle⟩
  · have le2 : s1.Le { s1 with cons := s1.cons ++ [l ++ [(vs.1, -1)]] ++ [r ++ [(vs.2.1, -1)]] } := ⟨fun x hx => ⟨hx, rfl⟩, rfl, id⟩
    exact ⟨h1.mono le2, h2.mono le2, h3.mono le2⟩

theorem Builds.evalLc {g h : V} {s : PState F V} {l : LC F} {x : F} (hg : s.Good) (hl : s.Has l x) :
    Builds g h s (csEvalLc l) fun q _ => q = some x := by
  refine ⟨some x, s, ?_, hg, .refl s, rfl⟩
  simp only [csEvalLc, Prog.runP, hl.eval hg.wf, Res.ok_bind]

theorem Builds.subU64 {g h : V} {s : PState F V} {a b : Nat} (hg : s.Good) (hab : b ≤ a) : Builds g h s (subU64 a b) fun d _ => d = a - b := by
  unfold BP.subU64
  rw [if_pos hab]
  exact Builds.pure hg rfl

theorem Builds.commitP {g h : V} {s : PState F V} {v vb : F} (hg : s.Good) :
    Builds g h s (commitP g h v vb) fun q s' => (q.1 = v • g + vb • h ∧ ∃ i, q.2 = .committed i) ∧ s'.Has (LC.ofVar q.2) v := by
  have le : s.Le (s.commit g h v vb).2 := by
    refine ⟨fun x hx => ?_, rfl, id⟩
    cases x with
    | left i => exact ⟨hx, rfl⟩
    | right i => exact ⟨hx, rfl⟩
    | out i => exact ⟨hx, rfl⟩
    | committed i =>
      refine ⟨?_, getD_append_lt hx⟩
      have : i < s.v.length := hx
      show i < (s.v ++ [v]).length
      rw [List.length_append]; omega
    | one => exact ⟨trivial, rfl⟩
  refine ⟨(v • g + vb • h, .committed s.v.length), (s.commit g h v vb).2, rfl, ⟨⟨hg.wf.lenR, hg.wf.lenO, hg.wf.gate, hg.wf.pend, ?_⟩, fun lc hl => (hg.cons lc hl).mono le⟩, le, ⟨rfl, _, rfl⟩, ?_⟩
  · simp [PState.commit, hg.wf.lenB]
  · refine ⟨fun t ht => ?_, ?_⟩
    · simp only [LC.ofVar, List.mem_singleton] at ht
      subst ht
      show s.v.length < (s.v ++ [v]).length
      simp
    · rw [lc_ofVar]; exact getD_append_self rfl

theorem Builds.blindingOr {α : Type} {g h : V} {s : PState F V} {b r : Option α} (hg : s.Good) (hb : b.isSome ∨ r.isSome) :
    Builds g h s (blindingOr b r) fun _ _ => True := by
  cases b with
  | some b => exact Builds.pure hg trivial
  | none =>
    cases r with
    | some r => exact Builds.pure hg trivial
    | none => simp at hb

theorem PState.Good.new (tr : Transcript F V) : (PState.new tr).Good :=
  ⟨⟨rfl, rfl, by simp [PState.new], by simp [PState.new], rfl⟩, by simp [PState.new]⟩

/-! ## Prover and verifier make the same calls -/

theorem Prog.Rel.bind {T T' R α β α' β' : Type} {re : T → T' → Prop} {ra : α → β → Prop} {rb : α' → β' → Prop} (p : Prog F T R α) :
    ∀ (q : Prog F T' R β) {f : α → Prog F T R α'} {k : β → Prog F T' R β'}, p.Rel re ra q → (∀ a b, ra a b → (f a).Rel re rb (k b)) →
      (p.bind f).Rel re rb (q.bind k) := by
  induction p with
  | pure a =>
    intro q f k h hf
    cases q <;> simp only [Prog.Rel] at h
    exact hf _ _ h
  | fail e => intro q f k h hf; simp [Prog.bind, Prog.Rel]
  | panic => intro q f k h hf; simp [Prog.bind, Prog.Rel]
  | multiply l r p ih =>
    intro q f k h hf
    cases q <;> simp only [Prog.Rel] at h
    exact ⟨h.1, h.2.1, fun x => ih x _ (h.2.2 x) hf⟩
  | allocate a p ih =>
    intro q f k h hf
    cases q <;> simp only [Prog.Rel] at h
    exact fun x => ih x _ (h x) hf
  | allocMult a p ih =>
    intro q f k h hf
    cases q <;> simp only [Prog.Rel] at h
    exact fun x => ih x _ (h x) hf
  | constrain lc p ih =>
    intro q f k h hf
    cases q <;> simp only [Prog.Rel] at h
    exact ⟨h.1, ih () _ h.2 hf⟩
  | evalLc lc p ih =>
    intro q f k h hf
    cases q <;> simp only [Prog.Rel] at h
    exact fun x => ih _ _ (h x) hf
  | ext c p ih =>
    intro q f k h hf
    cases q <;> simp only [Prog.Rel] at h
    exact ⟨h.1, fun x => ih x _ (h.2 x) hf⟩

/-- `Prog.Rel` for computations written with `do` -/
theorem Rel.seq {T T' R α β α' β' : Type} {re : T → T' → Prop} {ra : α → β → Prop} {rb : α' → β' → Prop} {p : Prog F T R α} {q : Prog F T' R β}
    {f : α → Prog F T R α'} {k : β → Prog F T' R β'} (h : p.Rel re ra q) (hf : ∀ a b, ra a b → (f a).Rel re rb (k b)) :
    (p >>= f).Rel re rb (q >>= k) := Prog.Rel.bind p q h hf

theorem Rel.pure {T T' R α β : Type} {re : T → T' → Prop} {ra : α → β → Prop} {a : α} {b : β} (h : ra a b) :
    (pure a : Prog F T R α).Rel re ra (pure b : Prog F T' R β) := h

theorem Rel.multiply {T T' R : Type} {re : T → T' → Prop} (l r : LC F) :
    (csMultiply l r : Prog F T R _).Rel re (fun a b => a = b) (csMultiply l r : Prog F T' R _) := ⟨rfl, rfl, fun _ => rfl⟩

theorem Rel.allocMult {T T' R : Type} {re : T → T' → Prop} (a b : Option (F × F)) :
    (csAllocMult a : Prog F T R _).Rel re (fun a b => a = b) (csAllocMult b : Prog F T' R _) := fun _ => rfl

theorem Rel.constrain {T T' R : Type} {re : T → T' → Prop} (l : LC F) :
    (csConstrain l : Prog F T R _).Rel re (fun a b => a = b) (csConstrain l : Prog F T' R _) := ⟨rfl, rfl⟩

theorem Rel.subU64 {T T' R : Type} {re : T → T' → Prop} (a b : Nat) :
    (subU64 a b : Prog F T R _).Rel re (fun a b => a = b) (subU64 a b : Prog F T' R _) := by
  unfold BP.subU64
  split
  · exact Rel.pure rfl
  · trivial

theorem Rel.commit (g h : V) (v vb : F) (Cs : List V) :
    (commitP g h v vb).Rel (TopRel g h) (fun a b => a.2 = b.1 ∧ b.2 = Cs) (commitFirst (F := F) ((v • g + vb • h) :: Cs)) :=
  ⟨rfl, fun _ => ⟨rfl, rfl⟩⟩

theorem Rel.commitSeq {g h : V} {v vb : F} {Cs : List V} {α β : Type} {rb : α → β → Prop} {f : V × Var → Prog F (Top F (F × F)) Var α}
    {k : Var × List V → Prog F (Top F V) Var β} (hf : ∀ x, (f (v • g + vb • h, x)).Rel (TopRel g h) rb (k (x, Cs))) :
    (commitP g h v vb >>= f).Rel (TopRel g h) rb (commitFirst ((v • g + vb • h) :: Cs) >>= k) := ⟨rfl, fun x => hf x⟩

/-! ## The whole protocol -/

/-- **Completeness for a session without a second phase**, whose constraints are satisfied: with enough generators `prove` succeeds and the verifier, given
the commitments, accepts the proof unless one of its challenges is 0. -/
theorem session_complete (O : Transcript F V → F) (g h : V) (tr : Transcript F V) {α β : Type} (ra : α → β → Prop) (P : ProverSession F α)
    (Q : VerifierSession F V β) (rel : P.Rel (TopRel g h) ra Q) (a : α) (s : PState F V) (run : P.runP (PState.top g h) (PState.new tr) = .ok (a, s))
    (hs : s.Good) (hd : s.deferred = []) (ρ : Rand F) (G H : List V) (hG : nextPow2 s.aL.length ≤ G.length) (hH : nextPow2 s.aL.length ≤ H.length)
    (h31 : s.aL.length ≤ 2 ^ 31) :
    ∃ p s', prove O g h ρ s G H = .ok (p, s') ∧ ∃ b t, Q.runV VState.top (VState.new tr) = .ok (b, t) ∧ ra a b ∧
      ((∀ c xs, verifierDraws O t p = .ok (c, xs) → c.y ≠ 0 ∧ ∀ x ∈ xs, x ≠ 0) → ∀ r, verify O t p g h G H r = .ok ()) := by
  have hcr : ∀ tr', ({ s with tr := tr' } : PState F V).createRandomized O = .ok { s with pending := none, tr := tr' ++ [.domSep "r1cs-1phase"] } := by
    intro tr'; simp [PState.createRandomized, hd]
  have hin : ∀ lc ∈ s.cons, ∀ x ∈ lc, x.1.InRange s.aL.length s.v.length := by
    intro lc hlc x hx
    have := (hs.cons lc hlc).given x hx
    cases hh : x.1 <;> rw [hh] at this
    · exact this
    · exact this
    · exact this.1
    · exact this.1
    · trivial
  obtain ⟨p, s', e⟩ := prove_succeeds O g h ρ s hs.wf G H fun tr' => ⟨_, hcr tr', hG, hH, hin⟩
  have hs' : s'.cons = s.cons ∧ s'.asg = s.asg ∧ s'.aL = s.aL := by
    have e' := e
    simp only [prove] at e'
    have := le_nextPow2 s.aL.length
    rw [if_neg (by omega)] at e'
    obtain ⟨_, -, e'⟩ := Res.bind_eq_ok.1 e'
    obtain ⟨_, -, e'⟩ := Res.bind_eq_ok.1 e'
    obtain ⟨_, -, e'⟩ := Res.bind_eq_ok.1 e'
    obtain ⟨_, -, e'⟩ := Res.bind_eq_ok.1 e'
    obtain ⟨_, -, e'⟩ := Res.bind_eq_ok.1 e'
    rw [hcr] at e'
    simp only [Res.ok_bind] at e'
    rw [if_neg (by omega)] at e'
    obtain ⟨_, -, e'⟩ := Res.bind_eq_ok.1 e'
    simp only [proveRest] at e'
    obtain ⟨_, -, e'⟩ := Res.bind_eq_ok.1 e'
    obtain ⟨_, -, e'⟩ := Res.bind_eq_ok.1 e'
    obtain ⟨_, -, e'⟩ := Res.bind_eq_ok.1 e'
    obtain ⟨_, -, e'⟩ := Res.bind_eq_ok.1 e'
    simp only [Res.pure_eq, Res.ok.injEq, Prod.mk.injEq] at e'
    rw [← e'.2]
    exact ⟨rfl, rfl, rfl⟩
  refine ⟨p, s', e, ?_⟩
  refine r1cs_complete O g h tr ra P Q rel a s run ρ G H p s' e ?_ (by rw [hs'.2.2]; exact h31)
  rw [hs'.1, hs'.2.1]
  exact fun lc hl => (hs.cons lc hl).value

/-- **What completeness of a gadget means**: the prover's calls `P` succeed and return the commitments `Cs`; the calls `Q` of the verifier with these
commitments succeed, with as many multipliers and without callbacks, and the prover's values satisfy the verifier's constraints; with enough generators `prove` then makes a proof and `verify` accepts it
unless one of its challenges is 0. -/
def HonestAccepted (O : Transcript F V → F) (g h : V) (tr : Transcript F V) (P : ProverSession F (List V)) (Q : List V → VerifierSession F V Unit)
    (Cs : List V) : Prop :=
  ∃ s, P.runP (PState.top g h) (PState.new tr) = .ok (Cs, s) ∧
    (∃ t, (Q Cs).runV VState.top (VState.new tr) = .ok ((), t) ∧ t.numVars = s.aL.length ∧ t.deferred = [] ∧ Sat t.numVars t.cons s.asg) ∧ ∀ ρ G H, nextPow2 s.aL.length ≤ G.length → nextPow2 s.aL.length ≤ H.length →
    s.aL.length ≤ 2 ^ 31 → ∃ p s', prove O g h ρ s G H = .ok (p, s') ∧ ∃ t, (Q Cs).runV VState.top (VState.new tr) = .ok ((), t) ∧
      ((∀ c xs, verifierDraws O t p = .ok (c, xs) → c.y ≠ 0 ∧ ∀ x ∈ xs, x ≠ 0) → ∀ r, verify O t p g h G H r = .ok ())

theorem honest_of_builds_new {g h : V} {P : ProverSession F (List V)} {Q : List V → VerifierSession F V Unit} {Cs : List V}
    (hrel : P.Rel (TopRel g h) (fun a _ => a = Cs) (Q Cs)) (O : Transcript F V → F) (tr : Transcript F V)
    (hb : Builds g h (PState.new tr) P fun _ _ => True) : HonestAccepted O g h tr P Q Cs := by
  obtain ⟨a, s, e, gd, le, -⟩ := hb
  obtain ⟨_, t, et, hab, -, hc, hn, -, -, -, hgate, -⟩ := prover_verifier_agree O g h tr _ P (Q Cs) hrel a s e
  subst hab
  have hdt : t.deferred = [] := by
    obtain ⟨_, t', et', -, m⟩ := Prog.Rel.run (re := TopRel g h) (ra := fun x (_ : Unit) => x = a) (extP := PState.top g h) (extV := VState.top)
      (fun _ _ _ _ _ _ a b c => Match.top a b c) P (Q a) _ _ _ _ hrel (Match.new g h tr) e
    rw [et] at et'
    simp only [Res.ok.injEq, Prod.mk.injEq] at et'
    have := m.deferred
    rw [le.deferred] at this
    rw [et'.2]
    exact List.forall₂_nil_left_iff.1 this
  refine ⟨s, e, ⟨t, et, hn, hdt, fun i hi => (hgate i (by rw [← hn]; exact hi)), fun lc hl => (gd.cons lc (by rw [← hc]; exact hl)).value⟩, fun ρ G H hG hH h31 => ?_⟩
  obtain ⟨p, s', e1, b, t, e2, -, hv⟩ := session_complete O g h tr _ P (Q a) hrel a s e gd le.deferred ρ G H hG hH h31
  exact ⟨p, s', e1, t, e2, hv⟩

theorem honest_of_builds {g h : V} {P : ProverSession F (List V)} {Q : List V → VerifierSession F V Unit} {Cs : List V}
    (hrel : P.Rel (TopRel g h) (fun a _ => a = Cs) (Q Cs)) (hb : ∀ s : PState F V, s.Good → Builds g h s P fun _ _ => True)
    (O : Transcript F V → F) (tr : Transcript F V) : HonestAccepted O g h tr P Q Cs :=
  honest_of_builds_new hrel O tr (hb (PState.new tr) (PState.Good.new tr))

/-- the prover's calls end by returning something that the verifier does not return -/
theorem Rel.ret {T T' R α : Type} {re : T → T' → Prop} {p : Prog F T R Unit} {q : Prog F T' R Unit} {a b : α} (h : p.Rel re (fun a b => a = b) q)
    (e : a = b) : (p >>= fun _ => Pure.pure a).Rel re (fun x _ => x = b) q := by
  have := Rel.seq (rb := fun x (_ : Unit) => x = b) h (f := fun _ => Pure.pure a) (k := fun _ => Pure.pure ()) (fun _ _ _ => Rel.pure e)
  rwa [bind_unit] at this

/-- the blinding that `blindingOr` gives -/
def theBlinding {α : Type} (d : α) (blinding rng : Option α) : α := (blinding.or rng).getD d

theorem blindingOr_eq {T R α : Type} {blinding rng : Option α} (hb : blinding.isSome ∨ rng.isSome) (d : α) :
    (blindingOr blinding rng : Prog F T R α) = pure (theBlinding d blinding rng) := by
  cases blinding with
  | some b => rfl
  | none =>
    cases rng with
    | some r => rfl
    | none => simp at hb

theorem pure_seq {T R α β : Type} (a : α) (f : α → Prog F T R β) : ((pure a : Prog F T R α) >>= f) = f a := rfl

/-- the verifier that executed a session (with the result `t0`) accepts a tree of proofs as in `r1cs_sound`, none of the relations that are computed from it is
nontrivial, and the commitments are opened by `v` and `vb` -/
structure Extracted (t0 t1 : VState F V) (T : STree F V) (g h : V) (G H : List V) (W : Nat → Weights F) (v vb : List F) : Prop where
  good : T.Good (nextPow2 t1.numVars) (t1.cons.length + 1) (Nat.clog 2 t1.numVars)
  acc : T.Accepted t0 t1 g h G H (nextPow2 t1.numVars) (t1.cons.length + 1)
  small : Nat.clog 2 t1.numVars < 32
  lenG : nextPow2 t1.numVars ≤ G.length
  lenH : nextPow2 t1.numVars ≤ H.length
  rand : ∃ O, VState.createRandomized O { t0 with tr := commitPoint "S1" T.S1 (commitPoint "A_O1" T.AO1 (commitPoint "A_I1" T.AI1
      (t0.tr ++ [.u64 "m" t0.V.length]))) } = .ok t1
  flat : ∀ j < t1.cons.length + 1, flatten t1.numVars t1.V.length t1.cons (T.z j) = .ok (W j)
  lenv : vb.length = v.length
  opens : t1.V = List.zipWith (fun v vb => v • g + vb • h) v vb
  norel : ∀ ρ, T.scalars.IsRel ⟨Nat.clog 2 t1.numVars, t1.numVars, t0.numVars, W⟩ (nextPow2 t1.numVars) (t1.cons.length + 1) v vb ρ →
      AllZero (nextPow2 t1.numVars) ρ

/-- **Soundness for a session**: then values that are computed from the tree satisfy the constraints of the session; the committed values are the openings. -/
theorem session_sound {t0 t1 : VState F V} {T : STree F V} {g h : V} {G H : List V} {W : Nat → Weights F} {v vb : List F}
    (E : Extracted t0 t1 T g h G H W v vb) :
    Sat t0.numVars t0.cons (T.scalars.witness ⟨Nat.clog 2 t1.numVars, t1.numVars, t0.numVars, W⟩ v) ∧
      ∀ i, (T.scalars.witness ⟨Nat.clog 2 t1.numVars, t1.numVars, t0.numVars, W⟩ v).v i = v.getD i 0 := by
  refine ⟨?_, fun _ => rfl⟩
  have := ((r1cs_sound T t0 t1 g h G H W v vb E.good E.acc E.small E.lenG E.lenH E.flat E.lenv E.opens).2 E.norel).1
  obtain ⟨O, e⟩ := E.rand
  have le := VState.Le.createRandomized e
  exact ⟨fun i hi => this.gate i (lt_of_lt_of_le hi le.vars), fun lc hlc => this.zero lc (le.cons lc hlc)⟩

end Verif.BP
