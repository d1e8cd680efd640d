import Verif.BP.R1CS
import Mathlib.Data.List.Infix
/-!
# C202: the challenges of a Bulletproof bind the commitments and everything that was sent before them
-/
set_option linter.unusedSectionVars false
namespace Verif.BP
open Function
variable {F V : Type} [Field F] [AddCommGroup V] [Module F V] [DecidableEq F] [DecidableEq V]

/-- what is sent in the second phase of committing: `A_I2`, `A_O2`, `S2` -/
abbrev Sent1 (V : Type) := V × V × V
/-- the commitments `T_1`, `T_3`, `T_4`, `T_5`, `T_6` -/
abbrev Sent2 (V : Type) := V × V × V × V × V
/-- the scalars `t_x`, `t_x_blinding`, `e_blinding` -/
abbrev Sent3 (F : Type) := F × F × F

/-- the parts of a proof -/
def R1CSProof.sent1 (p : R1CSProof F V) : Sent1 V := (p.AI2, p.AO2, p.S2)
/-- the parts of a proof -/
def R1CSProof.sent2 (p : R1CSProof F V) : Sent2 V := (p.T1, p.T3, p.T4, p.T5, p.T6)
/-- the parts of a proof -/
def R1CSProof.sent3 (p : R1CSProof F V) : Sent3 F := (p.tx, p.txb, p.eb)

/-- A way of asking for the challenges of a proof: to what is sent before a challenge it assigns the question whose answer is that challenge. -/
structure Questions (F V : Type) where
  y : Transcript F V × Sent1 V → Transcript F V
  z : Transcript F V × Sent1 V → Transcript F V
  u : Transcript F V × Sent1 V × Sent2 V → Transcript F V
  x : Transcript F V × Sent1 V × Sent2 V → Transcript F V
  w : Transcript F V × Sent1 V × Sent2 V × Sent3 F → Transcript F V
  round : Transcript F V × Sent1 V × Sent2 V × Sent3 F × ℕ × List (V × V) → Transcript F V

/-- nothing that is sent before a challenge can be changed without changing the question, and different challenges are different questions -/
structure Questions.Bind (q : Questions F V) : Prop where
  y : Injective q.y
  z : Injective q.z
  u : Injective q.u
  x : Injective q.x
  w : Injective q.w
  round : Injective q.round
  apart : ∀ a b c d e f, f.2.2.2.2.2 ≠ [] → [q.y a, q.z b, q.u c, q.x d, q.w e, q.round f].Nodup

section
variable (tr : Transcript F V)

private def yq (a : Transcript F V × Sent1 V) : Transcript F V :=
  a.1 ++ [.point "A_I2" a.2.1, .point "A_O2" a.2.2.1, .point "S2" a.2.2.2, .challenge "y"]
private def zq (a : Transcript F V × Sent1 V) : Transcript F V := yq a ++ [.challenge "z"]
private def uq (a : Transcript F V × Sent1 V × Sent2 V) : Transcript F V :=
  zq (a.1, a.2.1) ++ [.point "T_1" a.2.2.1, .point "T_3" a.2.2.2.1, .point "T_4" a.2.2.2.2.1, .point "T_5" a.2.2.2.2.2.1, .point "T_6" a.2.2.2.2.2.2,
    .challenge "u"]
private def xq (a : Transcript F V × Sent1 V × Sent2 V) : Transcript F V := uq a ++ [.challenge "x"]
private def wq (a : Transcript F V × Sent1 V × Sent2 V × Sent3 F) : Transcript F V :=
  xq (a.1, a.2.1, a.2.2.1) ++ [.scalar "t_x" a.2.2.2.1, .scalar "t_x_blinding" a.2.2.2.2.1, .scalar "e_blinding" a.2.2.2.2.2, .challenge "w"]
private def steps (l : List (V × V)) : Transcript F V := l.flatMap fun p => [.point "L" p.1, .point "R" p.2, .challenge "x"]
private def rq (a : Transcript F V × Sent1 V × Sent2 V × Sent3 F × ℕ × List (V × V)) : Transcript F V :=
  wq (a.1, a.2.1, a.2.2.1, a.2.2.2.1) ++ ([.domSep "ipp v1", .u64 "n" a.2.2.2.2.1] ++ steps a.2.2.2.2.2)
end

private lemma yq_inj : Injective (yq (F := F) (V := V)) := by
  rintro ⟨t, a, b, c⟩ ⟨t', a', b', c'⟩ h
  obtain ⟨h1, h2⟩ := List.append_inj' h rfl
  simp_all

private lemma zq_inj : Injective (zq (F := F) (V := V)) := fun a b h => yq_inj (List.append_inj' h rfl).1

private lemma uq_inj : Injective (uq (F := F) (V := V)) := by
  rintro ⟨t, s, a, b, c, d, e⟩ ⟨t', s', a', b', c', d', e'⟩ h
  obtain ⟨h1, h2⟩ := List.append_inj' h rfl
  have := zq_inj h1
  simp_all

private lemma xq_inj : Injective (xq (F := F) (V := V)) := fun a b h => uq_inj (List.append_inj' h rfl).1

private lemma wq_inj : Injective (wq (F := F) (V := V)) := by
  rintro ⟨t, s, v, a, b, c⟩ ⟨t', s', v', a', b', c'⟩ h
  obtain ⟨h1, h2⟩ := List.append_inj' h rfl
  have := xq_inj h1
  simp_all

private lemma steps_length (l : List (V × V)) : (steps (F := F) l).length = 3 * l.length := by
  induction l with
  | nil => rfl
  | cons p l ih => simp only [steps, List.flatMap_cons, List.length_append, List.length_cons, List.length_nil] at ih ⊢; omega

private lemma steps_inj : Injective (steps (F := F) (V := V)) := by
  intro l
  induction l with
  | nil =>
    intro l' h
    have := congrArg List.length h
    rw [steps_length, steps_length] at this
    simp only [List.length_nil] at this
    exact (List.length_eq_zero_iff.1 (by omega)).symm
  | cons p l ih =>
    intro l' h
    cases l' with
    | nil =>
      have := congrArg List.length h
      rw [steps_length, steps_length] at this
      simp at this
    | cons p' l' =>
      simp only [steps, List.flatMap_cons, List.cons_append, List.nil_append, List.cons.injEq, Msg.point.injEq, true_and] at h
      obtain ⟨h1, h2, h3⟩ := h
      rw [ih h3, Prod.ext h1 h2]

private lemma steps_last (l : List (V × V)) (h : l ≠ []) : ∃ t P, steps (F := F) l = t ++ [.point "R" P, .challenge "x"] := by
  obtain ⟨a, p, rfl⟩ := List.eq_nil_or_concat l |>.resolve_left h
  refine ⟨steps a ++ [.point "L" p.1], p.2, ?_⟩
  simp [steps]

private lemma steps_u64 (l : List (V × V)) (n : ℕ) : Msg.u64 "n" n ∉ steps (F := F) l := by simp [steps]

private lemma last_u64 (A A' B B' : Transcript F V) (n n' : ℕ) (hB : ∀ m, Msg.u64 "n" m ∉ B) (hB' : ∀ m, Msg.u64 "n" m ∉ B')
    (h : A ++ (.u64 "n" n :: B) = A' ++ (.u64 "n" n' :: B')) : A = A' ∧ n = n' ∧ B = B' := by
  rcases List.append_eq_append_iff.1 h with ⟨c, h1, h2⟩ | ⟨c, h1, h2⟩
  · cases c with
    | nil => simp_all
    | cons m c =>
      simp only [List.cons_append, List.cons.injEq] at h2
      exact absurd (by rw [h2.2]; simp) (hB n')
  · cases c with
    | nil => simp_all
    | cons m c =>
      simp only [List.cons_append, List.cons.injEq] at h2
      exact absurd (by rw [h2.2]; simp) (hB' n)

/-- the questions that the code asks -/
private def codeQuestions : Questions F V := ⟨yq, zq, uq, xq, wq, rq⟩

private lemma code_bind : (codeQuestions : Questions F V).Bind where
  y := yq_inj
  z := zq_inj
  u := uq_inj
  x := xq_inj
  w := wq_inj
  round := by
    rintro ⟨t, a, b, c, n, l⟩ ⟨t', a', b', c', n', l'⟩ he
    have he : (wq (t, a, b, c) ++ [.domSep "ipp v1"]) ++ (Msg.u64 "n" n :: steps l) =
        (wq (t', a', b', c') ++ [.domSep "ipp v1"]) ++ (Msg.u64 "n" n' :: steps l') := by simpa [codeQuestions, rq] using he
    obtain ⟨h1, h2, h3⟩ := last_u64 _ _ _ _ _ _ (steps_u64 l) (steps_u64 l') he
    have := wq_inj (List.append_inj' h1 rfl).1
    have := steps_inj h3
    simp_all
  apart := by
    rintro a b c d e ⟨t, a', b', c', n', l'⟩ hf
    obtain ⟨s, P, hs⟩ := steps_last (F := F) l' hf
    have last : ∀ (l m : Transcript F V) (p q : Msg F V), p ≠ q → l ++ [p] ≠ m ++ [q] := fun l m p q hpq h =>
      hpq (by simpa using (List.append_inj' h rfl).2)
    have last2 : ∀ (l m : Transcript F V) (p q p' q' : Msg F V), p ≠ q → l ++ [p, p'] ≠ m ++ [q, q'] := fun l m p q p' q' hpq h =>
      hpq (by have := (List.append_inj' h rfl).2; simp_all)
    have e1 : ∃ l, (codeQuestions : Questions F V).y a = l ++ [.challenge "y"] := 
      ⟨a.1 ++ [.point "A_I2" a.2.1, .point "A_O2" a.2.2.1, .point "S2" a.2.2.2], by simp [codeQuestions, yq]⟩
    have e2 : ∃ l, (codeQuestions : Questions F V).z b = l ++ [.challenge "z"] := ⟨_, rfl⟩
    have e3 : ∃ l, (codeQuestions : Questions F V).u c = l ++ [.challenge "u"] :=
      ⟨zq (c.1, c.2.1) ++ [.point "T_1" c.2.2.1, .point "T_3" c.2.2.2.1, .point "T_4" c.2.2.2.2.1, .point "T_5" c.2.2.2.2.2.1,
        .point "T_6" c.2.2.2.2.2.2], by simp [codeQuestions, uq]⟩
    have e4 : ∃ l, (codeQuestions : Questions F V).x d = l ++ [.challenge "u", .challenge "x"] :=
      ⟨zq (d.1, d.2.1) ++ [.point "T_1" d.2.2.1, .point "T_3" d.2.2.2.1, .point "T_4" d.2.2.2.2.1, .point "T_5" d.2.2.2.2.2.1,
        .point "T_6" d.2.2.2.2.2.2], by simp [codeQuestions, xq, uq]⟩
    have e5 : ∃ l, (codeQuestions : Questions F V).w e = l ++ [.challenge "w"] :=
      ⟨xq (e.1, e.2.1, e.2.2.1) ++ [.scalar "t_x" e.2.2.2.1, .scalar "t_x_blinding" e.2.2.2.2.1, .scalar "e_blinding" e.2.2.2.2.2], by simp [codeQuestions, wq]⟩
    have e6 : ∃ l, (codeQuestions : Questions F V).round (t, a', b', c', n', l') = l ++ [.point "R" P, .challenge "x"] :=
      ⟨wq (t, a', b', c') ++ [.domSep "ipp v1", .u64 "n" n'] ++ s, by simp [codeQuestions, rq, hs]⟩
    have split : ∀ (l : Transcript F V) (p q : Msg F V), l ++ [p, q] = (l ++ [p]) ++ [q] := by simp
    obtain ⟨l1, e1⟩ := e1
    obtain ⟨l2, e2⟩ := e2
    obtain ⟨l3, e3⟩ := e3
    obtain ⟨l4, e4⟩ := e4
    obtain ⟨l5, e5⟩ := e5
    obtain ⟨l6, e6⟩ := e6
    have h46 := last2 l4 l6 (.challenge "u") (.point "R" P) (.challenge "x") (.challenge "x") (by simp)
    rw [e1, e2, e3, e4, e5, e6]
    simp only [List.nodup_cons, List.mem_cons, List.not_mem_nil, or_false, not_or, not_false_eq_true, List.nodup_nil, and_true]
    refine ⟨⟨?_, ?_, ?_, ?_, ?_⟩, ⟨?_, ?_, ?_, ?_⟩, ⟨?_, ?_, ?_⟩, ⟨?_, h46⟩, ?_⟩ <;> (try simp only [split]) <;> exact last _ _ _ _ (by simp)

private lemma ipp_questions (O : Transcript F V → F) (L R : List V) (tr : Transcript F V) :
    ∀ k, (ippChallenges O tr L R).1[k]? = if k < min L.length R.length then some (O (tr ++ steps ((L.zip R).take (k + 1)))) else none := by
  induction L generalizing R tr with
  | nil => intro k; simp [ippChallenges]
  | cons P L ih =>
    cases R with
    | nil => intro k; simp [ippChallenges]
    | cons Q R =>
      intro k
      cases k with
      | zero => simp [ippChallenges, challengeScalar, commitPoint, steps]
      | succ k =>
        simp only [ippChallenges, List.getElem?_cons_succ, ih, List.length_cons]
        have : (k + 1 < min (L.length + 1) (R.length + 1)) ↔ (k < min L.length R.length) := by omega
        simp only [this]
        simp [challengeScalar, commitPoint, steps]

/-- **C202, the challenges of a proof.**  There is a way of asking that binds everything that was sent before, such that the verifier's challenges are the
answers to these questions, whatever the hash function is. -/
theorem challenges_bind_the_proof :
    ∃ q : Questions F V, q.Bind ∧ ∀ (O : Transcript F V → F) (p : R1CSProof F V) (tr : Transcript F V),
      let c := verifierChallenges O p tr
      c.1.y = O (q.y (tr, p.sent1)) ∧ c.1.z = O (q.z (tr, p.sent1)) ∧
      c.1.u = O (q.u (tr, p.sent1, p.sent2)) ∧ c.1.x = O (q.x (tr, p.sent1, p.sent2)) ∧
      c.1.w = O (q.w (tr, p.sent1, p.sent2, p.sent3)) ∧
      ∀ n k, (ippChallenges O (ippDomSep n c.2) p.ipp.L p.ipp.R).1[k]? =
        if k < min p.ipp.L.length p.ipp.R.length then some (O (q.round (tr, p.sent1, p.sent2, p.sent3, n, (p.ipp.L.zip p.ipp.R).take (k + 1)))) else none := by
  refine ⟨codeQuestions, code_bind, fun O p tr => ?_⟩
  intro c
  have h : c.2 = wq (tr, p.sent1, p.sent2, p.sent3) := by
    simp [c, verifierChallenges, challengeScalar, commitPoint, commitScalar, wq, xq, uq, zq, yq, R1CSProof.sent1, R1CSProof.sent2, R1CSProof.sent3]
  refine ⟨?_, ?_, ?_, ?_, ?_, fun n k => ?_⟩
  · simp [c, codeQuestions, verifierChallenges, challengeScalar, commitPoint, yq, R1CSProof.sent1]
  · simp [c, codeQuestions, verifierChallenges, challengeScalar, commitPoint, zq, yq, R1CSProof.sent1]
  · simp [c, codeQuestions, verifierChallenges, challengeScalar, commitPoint, uq, zq, yq, R1CSProof.sent1, R1CSProof.sent2]
  · simp [c, codeQuestions, verifierChallenges, challengeScalar, commitPoint, xq, uq, zq, yq, R1CSProof.sent1, R1CSProof.sent2]
  · simp [c, codeQuestions, verifierChallenges, challengeScalar, commitPoint, commitScalar, wq, xq, uq, zq, yq, R1CSProof.sent1, R1CSProof.sent2,
      R1CSProof.sent3]
  · rw [ipp_questions, h]
    simp [codeQuestions, rq, ippDomSep]

/-! ## what is there before: the commitments and the first phase -/

theorem runV_top_tr {α : Type} (p : Prog F (Top F V) Var α) (s : VState F V) (a : α) (t : VState F V) (h : p.runV VState.top s = .ok (a, t)) :
    ∃ l : List V, t.V = s.V ++ l ∧ t.tr = s.tr ++ l.map (.point "V") := by
  induction p generalizing s with
  | pure b => simp only [Prog.runV, Res.ok.injEq, Prod.mk.injEq] at h; exact ⟨[], by simp [← h.2]⟩
  | fail e => simp [Prog.runV] at h
  | panic => simp [Prog.runV] at h
  | multiply l r k ih => rw [Prog.runV] at h; have := ih _ _ h; exact this
  | allocate x k ih =>
    obtain ⟨l, h1, h2⟩ := ih _ _ (by simpa only [Prog.runV, VState.top, Res.ok_bind] using h)
    refine ⟨l, ?_⟩
    rw [h1, h2]
    unfold VState.allocate
    cases s.pending <;> exact ⟨rfl, rfl⟩
  | allocMult x k ih => rw [Prog.runV] at h; have := ih _ _ h; exact this
  | constrain lc k ih => rw [Prog.runV] at h; have := ih _ _ h; exact this
  | evalLc lc k ih => rw [Prog.runV] at h; have := ih _ _ h; exact this
  | ext x k ih =>
    cases x with
    | commit C =>
      obtain ⟨l, h1, h2⟩ := ih _ _ (by simpa only [Prog.runV, VState.top, Res.ok_bind] using h)
      exact ⟨C :: l, by rw [h1]; simp, by rw [h2]; simp [commitPoint]⟩
    | specify q => exact ih _ { s with deferred := s.deferred ++ [q] } (by simpa only [Prog.runV, VState.top, Res.ok_bind] using h)

private lemma runV_chal_tr {α : Type} (O : Transcript F V → F) (p : Prog F String F α) (s : VState F V) (a : α) (t : VState F V)
    (h : p.runV (VState.challenge O) s = .ok (a, t)) : s.tr <+: t.tr := by
  induction p generalizing s with
  | pure b => simp only [Prog.runV, Res.ok.injEq, Prod.mk.injEq] at h; rw [h.2]
  | fail e => simp [Prog.runV] at h
  | panic => simp [Prog.runV] at h
  | multiply l r k ih => rw [Prog.runV] at h; have := ih _ _ h; exact this
  | allocate x k ih =>
    have := ih _ _ (by simpa only [Prog.runV] using h)
    unfold VState.allocate at this
    revert this
    cases s.pending <;> exact id
  | allocMult x k ih => rw [Prog.runV] at h; have := ih _ _ h; exact this
  | constrain lc k ih => rw [Prog.runV] at h; have := ih _ _ h; exact this
  | evalLc lc k ih => rw [Prog.runV] at h; have := ih _ _ h; exact this
  | ext x k ih => exact (List.prefix_append _ _).trans (ih _ _ (by simpa only [Prog.runV, VState.challenge, challengeScalar, Res.ok_bind] using h))

private lemma callbacks_tr (O : Transcript F V → F) (l : List (Callback F)) (s t : VState F V) (h : runCallbacksV O l s = .ok t) : s.tr <+: t.tr := by
  induction l generalizing s with
  | nil => simp only [runCallbacksV, Res.ok.injEq] at h; rw [h]
  | cons p l ih =>
    obtain ⟨q, h1, h2⟩ := Res.bind_eq_ok.1 h
    exact (runV_chal_tr O p s q.1 q.2 h1).trans (ih _ h2)

private lemma randomized_tr (O : Transcript F V → F) (s t : VState F V) (h : s.createRandomized O = .ok t) : s.tr <+: t.tr := by
  unfold VState.createRandomized at h
  split at h
  · simp only [Res.ok.injEq] at h
    rw [← h]
    exact List.prefix_append _ _
  · exact (List.prefix_append _ _).trans (callbacks_tr O _ _ _ h)

/-- a verifier after its first phase: the program `prog` has been run on a new verifier -/
def Reached {α : Type} (tr : Transcript F V) (prog : Prog F (Top F V) Var α) (s : VState F V) : Prop :=
  ∃ a, prog.runV VState.top (VState.new tr) = .ok (a, s)

/-- the commitments of a verifier and the first messages of a proof -/
def firstPhase (s : VState F V) (p : R1CSProof F V) : List V × V × V × V := (s.V, p.AI1, p.AO1, p.S1)

/-- the verifier when it starts to draw the challenges of a proof: it has read the first messages and has run the callbacks -/
def beforeChallenges (O : Transcript F V → F) (s : VState F V) (p : R1CSProof F V) : Res Err (VState F V) :=
  VState.createRandomized O { s with tr := s.tr ++ [.u64 "m" s.V.length, .point "A_I1" p.AI1, .point "A_O1" p.AO1, .point "S1" p.S1] }

/-- `verify` draws the challenges from the transcript of `beforeChallenges` -/
theorem verify_from (O : Transcript F V → F) (s : VState F V) (p : R1CSProof F V) (g h : V) (G H : List V) (r : F) :
    verify O s p g h G H r = (beforeChallenges O s p >>= fun t => verifyRest O t s.numVars p g h G H r) := by
  simp [verify, beforeChallenges, commitPoint]

/-- **C202, the commitments and the first phase.**  Whatever the gadgets are, if two sessions on the same transcript
have the same transcript when they draw the challenges (it is part of every question) then they have the same commitments and the same `A_I1`, `A_O1`, `S1`. -/
theorem transcript_binds_the_first_phase {α β : Type} (O O' : Transcript F V → F) (tr : Transcript F V) (prog : Prog F (Top F V) Var α)
    (prog' : Prog F (Top F V) Var β) (s s' t t' : VState F V) (hs : Reached tr prog s) (hs' : Reached tr prog' s') (p p' : R1CSProof F V)
    (ht : beforeChallenges O s p = .ok t) (ht' : beforeChallenges O' s' p' = .ok t') (he : t.tr = t'.tr) :
    firstPhase s p = firstPhase s' p' := by
  obtain ⟨_, h1⟩ := hs
  obtain ⟨_, h2⟩ := hs'
  obtain ⟨l, hl1, hl2⟩ := runV_top_tr prog _ _ _ h1
  obtain ⟨l', hl1', hl2'⟩ := runV_top_tr prog' _ _ _ h2
  have a1 := randomized_tr _ _ _ ht
  have a2 := randomized_tr _ _ _ ht'
  rw [← he] at a2
  obtain ⟨e1, a1⟩ := a1
  obtain ⟨e2, a2⟩ := a2
  rw [← a1] at a2
  simp only [VState.new, List.nil_append] at hl1 hl1' hl2 hl2'
  simp only [hl2, hl2', List.append_assoc, List.append_cancel_left_eq] at a2
  have key : ∀ (l l' : List V) (x x' : Transcript F V) (m m' : ℕ),
      l.map (Msg.point "V") ++ ([.u64 "m" m] ++ x) = l'.map (Msg.point "V") ++ ([.u64 "m" m'] ++ x') → l = l' ∧ x = x' := by
    intro l
    induction l with
    | nil => intro l' x x' m m' h; cases l' <;> simp_all
    | cons c l ih =>
      intro l' x x' m m' h
      cases l' with
      | nil => simp at h
      | cons c' l' =>
        simp only [List.map_cons, List.cons_append, List.cons.injEq, Msg.point.injEq, true_and] at h
        obtain ⟨h1, h2⟩ := ih l' x x' m m' h.2
        exact ⟨by rw [h.1, h1], h2⟩
  obtain ⟨k1, k2⟩ := key _ _ _ _ _ _ a2.symm
  simp only [List.append_eq, List.cons_append, List.nil_append, List.cons.injEq, Msg.point.injEq, true_and] at k2
  simp only [firstPhase, hl1, hl1', k1, k2]

/-- the hypotheses are met: two sessions with a commitment each and one multiplication; with different commitments the transcripts differ -/
theorem first_phase_met (O : Transcript ℚ ℚ → ℚ) (C C' : ℚ) (hC : C ≠ C') (p : R1CSProof ℚ ℚ) :
    let prog : ℚ → Prog ℚ (Top ℚ ℚ) Var Unit := fun C => .ext (.commit C) fun x => .multiply (LC.ofVar x) (LC.ofVar x) fun _ => .pure ()
    ∃ s s' t t', Reached [] (prog C) s ∧ Reached [] (prog C') s' ∧ beforeChallenges O s p = .ok t ∧ beforeChallenges O s' p = .ok t' ∧ t.tr ≠ t'.tr := by
  intro prog
  have a : Reached [] (prog C) _ := ⟨(), rfl⟩
  have b : Reached [] (prog C') _ := ⟨(), rfl⟩
  refine ⟨_, _, _, _, a, b, rfl, rfl, fun h => ?_⟩
  have := transcript_binds_the_first_phase O O [] (prog C) (prog C') _ _ _ _ a b p p rfl rfl h
  simp only [firstPhase, Prod.mk.injEq] at this
  exact hC (by simpa [VState.new, VState.multiply, VState.allocVars] using this.1)
end Verif.BP
