import Verif.BP.R1CS
import Mathlib.Tactic.Tauto
import Mathlib.Data.List.Forall2
set_option linter.unusedSectionVars false
set_option linter.unusedSimpArgs false
set_option linter.unusedVariables false
/-!
# Constraint systems: prover and verifier build the same statement (C112)
-/
namespace Verif.BP
variable {F V : Type} [Field F] [AddCommGroup V] [Module F V] [DecidableEq F] [DecidableEq V]

/-- The computations of the prover and the verifier make the same calls: only the assignments given to `allocate`, and what depends on the value of
`evaluate_lc`, may differ.  `re` relates the other calls, `ra` the results.  Nothing is required if the prover's computation fails. -/
def Prog.Rel {T T' R α β : Type} (re : T → T' → Prop) (ra : α → β → Prop) : Prog F T R α → Prog F T' R β → Prop
  | .fail _, _ => True
  | .panic, _ => True
  | .pure a, .pure b => ra a b
  | .multiply l r k, .multiply l' r' k' => l = l' ∧ r = r' ∧ ∀ x, (k x).Rel re ra (k' x)
  | .allocate _ k, .allocate _ k' => ∀ x, (k x).Rel re ra (k' x)
  | .allocMult _ k, .allocMult _ k' => ∀ x, (k x).Rel re ra (k' x)
  | .constrain lc k, .constrain lc' k' => lc = lc' ∧ (k ()).Rel re ra (k' ())
  | .evalLc _ k, .evalLc _ k' => ∀ x, (k (some x)).Rel re ra (k' none)
  | .ext t k, .ext t' k' => re t t' ∧ ∀ x, (k x).Rel re ra (k' x)
  | _, _ => False

/-- the same for callbacks of the second phase: the labels of the challenges are the same -/
def CbRel (p q : Callback F) : Prop := p.Rel (fun a b => a = b) (fun _ _ => True) q

/-- the same for the calls of the first phase: the verifier is given the commitments to the values of the prover -/
def TopRel (g h : V) : Top F (F × F) → Top F V → Prop
  | .commit (v, vb), .commit C => C = v • g + vb • h
  | .specify p, .specify q => CbRel p q
  | _, _ => False

/-- the multipliers of a prover: as many left, right and output values, the output is the product -/
structure PState.WF (s : PState F V) : Prop where
  lenR : s.aR.length = s.aL.length
  lenO : s.aO.length = s.aL.length
  gate : ∀ i, i < s.aL.length → s.aO.getD i 0 = s.aL.getD i 0 * s.aR.getD i 0
  pend : ∀ i, s.pending = some i → i < s.aL.length
  lenB : s.vb.length = s.v.length

/-- prover and verifier are at the same point of the same statement -/
structure Match (g h : V) (s : PState F V) (t : VState F V) : Prop where
  wf : s.WF
  tr : t.tr = s.tr
  cons : t.cons = s.cons
  vars : t.numVars = s.aL.length
  V : t.V = List.zipWith (fun v vb => v • g + vb • h) s.v s.vb
  deferred : List.Forall₂ CbRel s.deferred t.deferred
  pending : t.pending = s.pending

theorem PState.WF.allocVars {s : PState F V} (w : s.WF) (l r : F) : (s.allocVars l r (l * r)).2.WF := by
  refine ⟨by simp [PState.allocVars, w.lenR], by simp [PState.allocVars, w.lenO], ?_, ?_, w.lenB⟩
  · intro i hi
    simp only [PState.allocVars, List.length_append, List.length_singleton] at hi ⊢
    by_cases h : i < s.aL.length
    · simp only [List.getD_eq_getElem?_getD]
      rw [List.getElem?_append_left (by rw [w.lenO]; exact h), List.getElem?_append_left h, List.getElem?_append_left (by rw [w.lenR]; exact h)]
      have := w.gate i h
      simpa only [List.getD_eq_getElem?_getD] using this
    · have : i = s.aL.length := by omega
      subst this
      simp only [List.getD_eq_getElem?_getD]
      rw [List.getElem?_append_right (by rw [w.lenO]), List.getElem?_append_right (le_refl _), List.getElem?_append_right (by rw [w.lenR])]
      simp [w.lenO, w.lenR]
  · intro i hi
    have := w.pend i hi
    simp only [PState.allocVars, List.length_append, List.length_singleton]; omega

theorem PState.WF.allocate {s : PState F V} (w : s.WF) {a : Option F} {x : Var} {s' : PState F V} (h : s.allocate a = .ok (x, s')) :
    s'.WF ∧ s'.tr = s.tr ∧ s'.cons = s.cons ∧ s'.v = s.v ∧ s'.vb = s.vb ∧ s'.deferred = s.deferred ∧
      ∀ t : VState F V, t.numVars = s.aL.length → t.pending = s.pending →
        t.allocate.1 = x ∧ t.allocate.2.numVars = s'.aL.length ∧ t.allocate.2.pending = s'.pending ∧ t.allocate.2.tr = t.tr ∧
          t.allocate.2.cons = t.cons ∧ t.allocate.2.V = t.V ∧ t.allocate.2.deferred = t.deferred := by
  cases a with
  | none => simp [PState.allocate] at h
  | some c =>
    cases hp : s.pending with
    | none =>
      simp only [PState.allocate, hp, Res.ok.injEq, Prod.mk.injEq] at h
      obtain ⟨rfl, rfl⟩ := h
      refine ⟨⟨by simp [w.lenR], by simp [w.lenO], ?_, ?_, w.lenB⟩, rfl, rfl, rfl, rfl, rfl, ?_⟩
      · have := (w.allocVars c 0).gate
        simpa [PState.allocVars] using this
      · intro i hi
        simp only [Option.some.injEq] at hi
        simp; omega
      · intro t h1 h2
        simp [VState.allocate, h2, h1]
    | some i =>
      have hi := w.pend i hp
      simp only [PState.allocate, hp] at h
      rw [if_pos (by rw [w.lenR]; exact hi)] at h
      have e1 : s.aL[i]? = some s.aL[i] := List.getElem?_eq_getElem hi
      have e2 : (s.aR.set i c)[i]? = some c := by rw [List.getElem?_set_self]; rw [w.lenR]; exact hi
      simp only [e1, e2, Res.unwrap_some, Res.ok_bind] at h
      rw [if_pos (by rw [w.lenO]; exact hi)] at h
      simp only [Res.ok.injEq, Prod.mk.injEq] at h
      obtain ⟨rfl, rfl⟩ := h
      refine ⟨⟨by simp [w.lenR], by simp [w.lenO], ?_, by simp, w.lenB⟩, rfl, rfl, rfl, rfl, rfl, ?_⟩
      · intro j hj
        simp only at hj ⊢
        simp only [List.getD_eq_getElem?_getD]
        by_cases hij : i = j
        · subst hij
          rw [e1, e2, List.getElem?_set_self (by rw [w.lenO]; exact hi)]
          simp
        · rw [List.getElem?_set_ne hij, List.getElem?_set_ne hij]
          have := w.gate j hj
          simpa only [List.getD_eq_getElem?_getD] using this
      · intro t h1 h2
        simp [VState.allocate, h2, h1]

theorem Match.multiply {g h : V} {s : PState F V} {t : VState F V} (m : Match g h s t) {l r : LC F} {x : Var × Var × Var} {s' : PState F V}
    (e : s.multiply l r = .ok (x, s')) : (t.multiply l r).1 = x ∧ Match g h s' (t.multiply l r).2 := by
  simp only [PState.multiply] at e
  obtain ⟨lv, -, e⟩ := Res.bind_eq_ok.1 e
  obtain ⟨rv, -, e⟩ := Res.bind_eq_ok.1 e
  simp only [Res.pure_eq, Res.ok.injEq, Prod.mk.injEq] at e
  obtain ⟨rfl, rfl⟩ := e
  refine ⟨by simp [VState.multiply, VState.allocVars, PState.allocVars, m.vars, m.wf.lenR, m.wf.lenO], ?_⟩
  have w := m.wf.allocVars lv rv
  refine ⟨⟨w.lenR, w.lenO, w.gate, w.pend, w.lenB⟩, ?_, ?_, ?_, ?_, ?_, ?_⟩
  · exact m.tr
  · simp [VState.multiply, VState.allocVars, PState.allocVars, m.cons, m.vars, m.wf.lenR]
  · simp [VState.multiply, VState.allocVars, PState.allocVars, m.vars]
  · exact m.V
  · exact m.deferred
  · exact m.pending

/-- prover and verifier stay together while they execute related computations -/
theorem Prog.Rel.run {g h : V} {T T' R α β : Type} {re : T → T' → Prop} {ra : α → β → Prop}
    {extP : T → PState F V → Res Err (R × PState F V)} {extV : T' → VState F V → Res Err (R × VState F V)}
    (hext : ∀ t t' s s' x s₁, re t t' → Match g h s s' → extP t s = .ok (x, s₁) → ∃ s₁', extV t' s' = .ok (x, s₁') ∧ Match g h s₁ s₁')
    (p : Prog F T R α) : ∀ (q : Prog F T' R β) (s : PState F V) (t : VState F V) (a : α) (s' : PState F V), p.Rel re ra q → Match g h s t →
      p.runP extP s = .ok (a, s') → ∃ b t', q.runV extV t = .ok (b, t') ∧ ra a b ∧ Match g h s' t' := by
  induction p with
  | pure a0 =>
    intro q s t a s' hr m e
    cases q <;> simp only [Prog.Rel] at hr
    simp only [Prog.runP, Res.ok.injEq, Prod.mk.injEq] at e
    obtain ⟨rfl, rfl⟩ := e
    exact ⟨_, t, rfl, hr, m⟩
  | fail e0 => intro q s t a s' hr m e; simp [Prog.runP] at e
  | panic => intro q s t a s' hr m e; simp [Prog.runP] at e
  | multiply l r k ih =>
    intro q s t a s' hr m e
    cases q <;> simp only [Prog.Rel] at hr
    obtain ⟨rfl, rfl, hk⟩ := hr
    simp only [Prog.runP] at e
    obtain ⟨⟨x, s₁⟩, e1, e⟩ := Res.bind_eq_ok.1 e
    obtain ⟨h1, h2⟩ := m.multiply e1
    simp only [Prog.runV, h1]
    exact ih x _ _ _ _ _ (hk x) h2 e
  | allocate c k ih =>
    intro q s t a s' hr m e
    cases q <;> simp only [Prog.Rel] at hr
    simp only [Prog.runP] at e
    obtain ⟨⟨x, s₁⟩, e1, e⟩ := Res.bind_eq_ok.1 e
    obtain ⟨w, c1, c2, c3, c4, c5, ht⟩ := m.wf.allocate e1
    obtain ⟨d1, d2, d3, d4, d5, d6, d7⟩ := ht t m.vars m.pending
    simp only [Prog.runV, d1]
    refine ih x _ _ _ _ _ (hr x) ⟨w, ?_, ?_, d2, ?_, ?_, d3⟩ e
    · rw [d4, m.tr, c1]
    · rw [d5, m.cons, c2]
    · rw [d6, m.V, c3, c4]
    · rw [d7, c5]; exact m.deferred
  | allocMult c k ih =>
    intro q s t a s' hr m e
    cases q <;> simp only [Prog.Rel] at hr
    simp only [Prog.runP] at e
    obtain ⟨⟨x, s₁⟩, e1, e⟩ := Res.bind_eq_ok.1 e
    cases c with
    | none => simp [PState.allocMult] at e1
    | some c =>
      obtain ⟨l, r⟩ := c
      simp only [PState.allocMult, Res.ok.injEq] at e1
      have hx : x = t.allocVars.1 := by
        have := congrArg Prod.fst e1; rw [← show _ = x from this]; simp [PState.allocVars, VState.allocVars, m.vars, m.wf.lenR, m.wf.lenO]
      have hs : s₁ = (s.allocVars l r (l * r)).2 := by rw [e1]
      subst hs
      simp only [Prog.runV, ← hx]
      refine ih x _ _ _ _ _ (hr x) ⟨m.wf.allocVars l r, m.tr, m.cons, ?_, m.V, m.deferred, m.pending⟩ e
      simp [PState.allocVars, VState.allocVars, m.vars]
  | constrain lc k ih =>
    intro q s t a s' hr m e
    cases q <;> simp only [Prog.Rel] at hr
    obtain ⟨rfl, hk⟩ := hr
    simp only [Prog.runP] at e
    simp only [Prog.runV]
    refine ih () _ { s with cons := s.cons ++ [lc] } _ _ _ hk ⟨⟨m.wf.lenR, m.wf.lenO, m.wf.gate, m.wf.pend, m.wf.lenB⟩, m.tr, ?_, m.vars, m.V, m.deferred, m.pending⟩ e
    simp [m.cons]
  | evalLc lc k ih =>
    intro q s t a s' hr m e
    cases q <;> simp only [Prog.Rel] at hr
    simp only [Prog.runP] at e
    obtain ⟨x, -, e⟩ := Res.bind_eq_ok.1 e
    simp only [Prog.runV]
    exact ih (some x) _ _ _ _ _ (hr x) m e
  | ext c k ih =>
    intro q s t a s' hr m e
    cases q <;> simp only [Prog.Rel] at hr
    obtain ⟨hre, hk⟩ := hr
    simp only [Prog.runP] at e
    obtain ⟨⟨x, s₁⟩, e1, e⟩ := Res.bind_eq_ok.1 e
    obtain ⟨t₁, e2, m'⟩ := hext _ _ _ _ _ _ hre m e1
    simp only [Prog.runV, e2, Res.ok_bind]
    exact ih x _ _ _ _ _ (hk x) m' e

theorem Match.new (g h : V) (tr : Transcript F V) : Match g h (PState.new tr) (VState.new tr) :=
  ⟨⟨rfl, rfl, by simp [PState.new], by simp [PState.new], rfl⟩, rfl, rfl, rfl, rfl, .nil, rfl⟩

theorem Match.challenge {g h : V} (O : Transcript F V → F) {t t' : String} {s : PState F V} {s' : VState F V} {x : F} {s₁ : PState F V} (ht : t = t')
    (m : Match g h s s') (e : PState.challenge O t s = .ok (x, s₁)) : ∃ s₁', VState.challenge O t' s' = .ok (x, s₁') ∧ Match g h s₁ s₁' := by
  subst ht
  simp only [PState.challenge, Res.ok.injEq, Prod.mk.injEq] at e
  obtain ⟨rfl, rfl⟩ := e
  refine ⟨{ s' with tr := (challengeScalar O t s.tr).2 }, by rw [VState.challenge, m.tr], ⟨m.wf.lenR, m.wf.lenO, m.wf.gate, m.wf.pend, m.wf.lenB⟩, rfl, m.cons, m.vars, m.V, m.deferred, m.pending⟩

theorem Match.top {g h : V} {t : Top F (F × F)} {t' : Top F V} {s : PState F V} {s' : VState F V} {x : Var} {s₁ : PState F V} (ht : TopRel g h t t')
    (m : Match g h s s') (e : PState.top g h t s = .ok (x, s₁)) : ∃ s₁', VState.top t' s' = .ok (x, s₁') ∧ Match g h s₁ s₁' := by
  cases t with
  | commit c =>
    obtain ⟨v, vb⟩ := c
    cases t' with
    | specify => simp [TopRel] at ht
    | commit C =>
      simp only [TopRel] at ht
      subst ht
      simp only [PState.top, PState.commit, Res.ok.injEq, Prod.mk.injEq] at e
      obtain ⟨rfl, rfl⟩ := e
      have hl : s'.V.length = s.v.length := by rw [m.V]; simp [m.wf.lenB]
      refine ⟨{ s' with V := s'.V ++ [v • g + vb • h], tr := commitPoint "V" (v • g + vb • h) s'.tr }, by rw [VState.top, hl], ⟨m.wf.lenR, m.wf.lenO, m.wf.gate, m.wf.pend, ?_⟩, ?_, m.cons, m.vars, ?_, m.deferred, m.pending⟩
      · simp [m.wf.lenB]
      · simp only [m.tr]
      · simp only [m.V]; rw [List.zipWith_append (by rw [m.wf.lenB])]; rfl
  | specify p =>
    cases t' with
    | commit => simp [TopRel] at ht
    | specify q =>
      simp only [TopRel] at ht
      simp only [PState.top, Res.ok.injEq, Prod.mk.injEq] at e
      obtain ⟨rfl, rfl⟩ := e
      refine ⟨{ s' with deferred := s'.deferred ++ [q] }, rfl, ⟨m.wf.lenR, m.wf.lenO, m.wf.gate, m.wf.pend, m.wf.lenB⟩, m.tr, m.cons, m.vars, m.V, ?_, m.pending⟩
      exact List.rel_append m.deferred (.cons ht .nil)

theorem Match.callbacks {g h : V} (O : Transcript F V → F) (ps : List (Callback F)) : ∀ (qs : List (Callback F)) (s s' : PState F V) (t : VState F V),
    List.Forall₂ CbRel ps qs → Match g h s t → runCallbacksP O ps s = .ok s' → ∃ t', runCallbacksV O qs t = .ok t' ∧ Match g h s' t' := by
  induction ps with
  | nil =>
    intro qs s s' t hr m e
    cases hr
    simp only [runCallbacksP, Res.ok.injEq] at e
    subst e
    exact ⟨t, rfl, m⟩
  | cons p ps ih =>
    intro qs s s' t hr m e
    cases hr with
    | cons h1 h2 =>
      simp only [runCallbacksP] at e
      obtain ⟨⟨x, s₁⟩, e1, e⟩ := Res.bind_eq_ok.1 e
      obtain ⟨b, t', e2, -, m'⟩ := Prog.Rel.run (re := fun a b => a = b) (ra := fun _ _ => True) (fun _ _ _ _ _ _ a b c => Match.challenge O a b c) p _ _ _ _ _ h1 m e1
      simp only [runCallbacksV, e2, Res.ok_bind]
      exact ih _ _ _ _ h2 m' e

theorem Match.createRandomized {g h : V} (O : Transcript F V → F) {s s' : PState F V} {t : VState F V} (m : Match g h s t)
    (e : s.createRandomized O = .ok s') : ∃ t', t.createRandomized O = .ok t' ∧ Match g h s' t' := by
  have hl : t.deferred.length = s.deferred.length := m.deferred.length_eq.symm
  simp only [PState.createRandomized] at e
  simp only [VState.createRandomized, hl]
  by_cases h0 : s.deferred.length = 0
  · rw [if_pos h0] at e ⊢
    simp only [Res.ok.injEq] at e
    subst e
    exact ⟨_, rfl, ⟨m.wf.lenR, m.wf.lenO, m.wf.gate, by simp, m.wf.lenB⟩, by simp [m.tr], m.cons, m.vars, m.V, m.deferred, rfl⟩
  · rw [if_neg h0] at e ⊢
    refine Match.callbacks O _ _ _ _ _ m.deferred ?_ e
    exact ⟨⟨m.wf.lenR, m.wf.lenO, m.wf.gate, by simp, m.wf.lenB⟩, by simp [m.tr], m.cons, m.vars, m.V, .nil, rfl⟩

end Verif.BP
