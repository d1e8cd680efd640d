import Verif.Props.BPR1CS
set_option linter.unusedSectionVars false
set_option linter.unusedSimpArgs false
set_option linter.unusedVariables false
/-!
# Constraint systems: the theorems about sessions (C112, C113, C114)
-/
namespace Verif.BP
variable {F V : Type} [Field F] [AddCommGroup V] [Module F V] [DecidableEq F] [DecidableEq V]

/-- a computation of the first phase with a prover: it commits to values -/
abbrev ProverSession (F α : Type) := Prog F (Top F (F × F)) Var α

/-- a computation of the first phase with a verifier: it is given commitments -/
abbrev VerifierSession (F V α : Type) := Prog F (Top F V) Var α

/-- **C112.** If the verifier makes the same calls as the prover, with the commitments to the prover's values, then whenever the prover's calls succeed the
verifier's do too; both then have the same transcript, the same constraints, the same number of multipliers and of commitments, and in the prover every
multiplier's output is the product of its inputs.  The same holds after the second phase, in which the constraints can depend on challenges. -/
theorem prover_verifier_agree (O : Transcript F V → F) (g h : V) (tr : Transcript F V) {α β : Type} (ra : α → β → Prop) (P : ProverSession F α)
    (Q : VerifierSession F V β) (rel : P.Rel (TopRel g h) ra Q) (a : α) (s : PState F V) (run : P.runP (PState.top g h) (PState.new tr) = .ok (a, s)) :
    ∃ b t, Q.runV VState.top (VState.new tr) = .ok (b, t) ∧ ra a b ∧ t.tr = s.tr ∧ t.cons = s.cons ∧
      t.numVars = s.aL.length ∧ s.aR.length = s.aL.length ∧ s.aO.length = s.aL.length ∧
      t.V = List.zipWith (fun v vb => v • g + vb • h) s.v s.vb ∧
      (∀ i < s.aL.length, s.asg.aL i * s.asg.aR i = s.asg.aO i) ∧
      ∀ tr' s', ({ s with tr := tr' } : PState F V).createRandomized O = .ok s' →
        ∃ t', ({ t with tr := tr' } : VState F V).createRandomized O = .ok t' ∧ t'.tr = s'.tr ∧ t'.cons = s'.cons ∧ t'.numVars = s'.aL.length ∧
          t'.V = List.zipWith (fun v vb => v • g + vb • h) s'.v s'.vb ∧ (∀ i < s'.aL.length, s'.asg.aL i * s'.asg.aR i = s'.asg.aO i) ∧
          ∀ i < s.aL.length, s'.asg.aL i = s.asg.aL i ∧ s'.asg.aR i = s.asg.aR i ∧ s'.asg.aO i = s.asg.aO i := by
  obtain ⟨b, t, e, hab, m⟩ := Prog.Rel.run (re := TopRel g h) (ra := ra) (extP := PState.top g h) (extV := VState.top) (fun _ _ _ _ _ _ a b c => Match.top a b c) P Q _ _ _ _ rel (Match.new g h tr) run
  refine ⟨b, t, e, hab, m.tr, m.cons, m.vars, m.wf.lenR, m.wf.lenO, m.V, fun i hi => (m.wf.gate i hi).symm, fun tr' s' e' => ?_⟩
  have m' : Match g h { s with tr := tr' } { t with tr := tr' } :=
    ⟨⟨m.wf.lenR, m.wf.lenO, m.wf.gate, m.wf.pend, m.wf.lenB⟩, rfl, m.cons, m.vars, m.V, m.deferred, m.pending⟩
  obtain ⟨t', e2, m2⟩ := m'.createRandomized O e'
  obtain ⟨fr, -⟩ := Frozen.createRandomized O m'.wf e'
  refine ⟨t', e2, m2.tr, m2.cons, m2.vars, m2.V, fun i hi => (m2.wf.gate i hi).symm, fun i hi => ?_⟩
  have key : ∀ {l l' : List F} {n : Nat}, l'.take n = l.take n → i < n → l'.getD i 0 = l.getD i 0 := by
    intro l l' n hh hi
    have := congrArg (fun z => z[i]?) hh
    simp only [List.getElem?_take, if_pos hi] at this
    simp only [List.getD_eq_getElem?_getD, this]
  exact ⟨key fr.L hi, key fr.R hi, key fr.O hi⟩

/-- **C113.** Completeness: a proof made by `prove` for values that satisfy the constraints is accepted by `verify`, for every random value `r` of the
verifier, unless one of the challenges is 0. -/
theorem r1cs_complete (O : Transcript F V → F) (g h : V) (tr : Transcript F V) {α β : Type} (ra : α → β → Prop) (P : ProverSession F α)
    (Q : VerifierSession F V β) (rel : P.Rel (TopRel g h) ra Q) (a : α) (s : PState F V) (run : P.runP (PState.top g h) (PState.new tr) = .ok (a, s))
    (ρ : Rand F) (G H : List V) (p : R1CSProof F V) (s' : PState F V) (e : prove O g h ρ s G H = .ok (p, s'))
    (hsat : ∀ lc ∈ s'.cons, s'.asg.lc lc = 0) (h31 : s'.aL.length ≤ 2 ^ 31) :
    ∃ b t, Q.runV VState.top (VState.new tr) = .ok (b, t) ∧ ra a b ∧
      ((∀ c xs, verifierDraws O t p = .ok (c, xs) → c.y ≠ 0 ∧ ∀ x ∈ xs, x ≠ 0) → ∀ r, verify O t p g h G H r = .ok ()) := by
  obtain ⟨b, t, e1, hab, m⟩ := Prog.Rel.run (re := TopRel g h) (ra := ra) (extP := PState.top g h) (extV := VState.top) (fun _ _ _ _ _ _ a b c => Match.top a b c) P Q _ _ _ _ rel (Match.new g h tr) run
  exact ⟨b, t, e1, hab, fun hne r => r1cs_complete_state O g h ρ s s' t G H p r m e hsat h31 hne⟩

/-! ## `prove` succeeds -/

theorem slice_some {α : Type} {l : List α} {i j : Nat} (h1 : i ≤ j) (h2 : j ≤ l.length) : slice l i j = .ok ((l.drop i).take (j - i)) :=
  if_pos ⟨h1, h2⟩

theorem msmUnwrap_some {a : List F} {G : List V} (h : a.length = G.length) : msmUnwrap a G = .ok (msm a G) := if_pos h

theorem commitVectors_some {G H : List V} {h : V} {a b : List F} {r : F} (h1 : a.length = G.length) (h2 : b.length = H.length) :
    commitVectors G H h a b r = .ok (msm a G + msm b H + r • h) := by
  simp only [commitVectors, msmUnwrap_some h1, msmUnwrap_some h2, Res.ok_bind, Res.pure_eq]

/-- **C114.** `prove` does not fail: it is enough that the callbacks succeed, that constraints mention existing variables only and that there are
generators for the padded number of multipliers. -/
theorem prove_succeeds (O : Transcript F V → F) (g h : V) (ρ : Rand F) (s : PState F V) (w : s.WF) (G H : List V)
    (hcr : ∀ tr', ∃ s1, ({ s with tr := tr' } : PState F V).createRandomized O = .ok s1 ∧ nextPow2 s1.aL.length ≤ G.length ∧
      nextPow2 s1.aL.length ≤ H.length ∧ ∀ lc ∈ s1.cons, ∀ x ∈ lc, x.1.InRange s1.aL.length s1.v.length) :
    ∃ p s', prove O g h ρ s G H = .ok (p, s') := by
  simp only [prove]
  have wtr : ∀ tr', ({ s with tr := tr' } : PState F V).WF := fun _ => ⟨w.lenR, w.lenO, w.gate, w.pend, w.lenB⟩
  have hl : s.aL.length ≤ G.length ∧ s.aL.length ≤ H.length := by
    obtain ⟨s1, e, h1, h2, -⟩ := hcr s.tr
    have h3 : s.aL.length ≤ s1.aL.length := (Frozen.createRandomized O (wtr _) e).1.len
    have := le_nextPow2 s1.aL.length
    omega
  rw [if_neg (by omega), slice_some (by omega) hl.1, slice_some (by omega) hl.2]
  simp only [Res.ok_bind, List.drop_zero, Nat.sub_zero]
  rw [commitVectors_some (by simp [hl.1]) (by simp [hl.2, w.lenR]), msmUnwrap_some (by simp [hl.1, w.lenO])]
  simp only [Res.ok_bind]
  rw [commitVectors_some (by simp [hl.1, randVec]) (by simp [hl.2, randVec])]
  simp only [Res.ok_bind]
  obtain ⟨s1, e, hG, hH, hr⟩ := hcr (commitPoint "S1" (msm (randVec s.aL.length ρ.sL1) (G.take s.aL.length) +
    msm (randVec s.aL.length ρ.sR1) (H.take s.aL.length) + ρ.s1 • h) (commitPoint "A_O1" (msm s.aO (G.take s.aL.length) + ρ.o1 • h)
    (commitPoint "A_I1" (msm s.aL (G.take s.aL.length) + msm s.aR (H.take s.aL.length) + ρ.i1 • h) (s.tr ++ [.u64 "m" s.v.length]))))
  rw [e]
  obtain ⟨fr, w1⟩ := Frozen.createRandomized O (wtr _) e
  have hn : s.aL.length ≤ s1.aL.length := fr.len
  have hp := le_nextPow2 s1.aL.length
  simp only [Res.ok_bind]
  rw [if_neg (by omega)]
  have h2 : ∃ b2, secondPhase ρ s1 s.aL.length G H h = .ok b2 := by
    simp only [secondPhase]
    by_cases c : s1.aL.length - s.aL.length > 0
    · rw [if_pos c, slice_some (by omega) (by omega), slice_some (by omega) (by omega)]
      simp only [Res.ok_bind]
      rw [commitVectors_some (by simp; omega) (by simp [w1.lenR]; omega), msmUnwrap_some (by simp [w1.lenO]; omega),
        commitVectors_some (by simp [randVec]; omega) (by simp [randVec]; omega)]
      exact ⟨_, rfl⟩
    · rw [if_neg c]; exact ⟨_, rfl⟩
  obtain ⟨b2, e2⟩ := h2
  rw [e2]
  simp only [Res.ok_bind, proveRest]
  generalize challengeScalar O "y" _ = cy
  obtain ⟨W, eW⟩ := flatten_some (challengeScalar O "z" cy.2).1 hr
  rw [eW, slice_some (by omega) hG, slice_some (by omega) hH]
  simp only [Res.ok_bind, List.drop_zero, Nat.sub_zero]
  have hWl := (flatten_ok eW).1
  generalize hcu : challengeScalar O "u" _ = cu
  generalize hcx : challengeScalar O "x" cu.2 = cx
  generalize hcw : challengeScalar O "w" _ = cw
  have lsL : (randVec s.aL.length ρ.sL1 ++ randVec (s1.aL.length - s.aL.length) ρ.sL2).length = s1.aL.length := by simp [randVec]; omega
  have lsR : (randVec s.aL.length ρ.sR1 ++ randVec (s1.aL.length - s.aL.length) ρ.sR2).length = s1.aL.length := by simp [randVec]; omega
  rw [lPoly_eq s1 w1 _ lsL W _ hWl cy.1 cx.1, rPoly_eq s1 w1 _ lsR W _ hWl cy.1 cx.1]
  have lg : (List.replicate s.aL.length (1 : F) ++
      List.replicate (s1.aL.length - s.aL.length + (nextPow2 s1.aL.length - s1.aL.length)) cu.1).length = nextPow2 s1.aL.length := by simp; omega
  have lG : (G.take (nextPow2 s1.aL.length)).length = nextPow2 s1.aL.length := by simp [hG]
  have lH : (H.take (nextPow2 s1.aL.length)).length = nextPow2 s1.aL.length := by simp [hH]
  simp only [createIpp]
  rw [if_neg (by rw [lG, nextPow2, Nat.log2_two_pow]; simp), if_neg (by rw [lG, lH]; simp), if_neg (by rw [lG]; simp), if_neg (by rw [lG]; simp),
    if_neg (by rw [lG, lg]; simp), if_neg (by rw [lG]; simp [powers]; omega)]
  exact ⟨_, _, rfl⟩

/-- **C114.** Too few generators are reported, before and after the second phase. -/
theorem prove_few_generators (O : Transcript F V → F) (g h : V) (ρ : Rand F) (s : PState F V) (G H : List V) (hG : G.length < s.aL.length) :
    prove O g h ρ s G H = .err (.generators G.length s.aL.length) := by
  simp only [prove]; rw [if_pos hG]

/-- **C114.** The length of `H` is not checked: the prover panics if there are enough generators `G` but too few `H` for the first phase. -/
theorem prove_short_H_panics (O : Transcript F V → F) (g h : V) (ρ : Rand F) (s : PState F V) (G H : List V) (hG : s.aL.length ≤ G.length)
    (hH : H.length < s.aL.length) : prove O g h ρ s G H = .panic := by
  simp only [prove]
  rw [if_neg (by omega), slice_some (by omega) hG]
  have : slice H 0 s.aL.length = .panic := if_neg (by omega)
  simp only [Res.ok_bind, this, Res.panic_bind]

/-- **C114.** The verifier reports too few generators. -/
theorem verify_few_generators (O : Transcript F V → F) (t t1 : VState F V) (p : R1CSProof F V) (g h : V) (G H : List V) (r : F)
    (hcr : VState.createRandomized O { t with tr := commitPoint "S1" p.S1 (commitPoint "A_O1" p.AO1 (commitPoint "A_I1" p.AI1
      (t.tr ++ [.u64 "m" t.V.length]))) } = .ok t1) (hG : G.length < nextPow2 t1.numVars) :
    verify O t p g h G H r = .err (.generators G.length (nextPow2 t1.numVars)) := by
  simp only [verify, hcr, Res.ok_bind, verifyRest]
  rw [if_pos hG]

/-- **C114.** A proof whose inner product argument has the wrong number of rounds is rejected with an error (when constraints mention existing variables). -/
theorem verify_wrong_rounds (O : Transcript F V → F) (t t1 : VState F V) (p : R1CSProof F V) (g h : V) (G H : List V) (r : F)
    (hcr : VState.createRandomized O { t with tr := commitPoint "S1" p.S1 (commitPoint "A_O1" p.AO1 (commitPoint "A_I1" p.AI1
      (t.tr ++ [.u64 "m" t.V.length]))) } = .ok t1) (hG : nextPow2 t1.numVars ≤ G.length)
    (hr : ∀ lc ∈ t1.cons, ∀ x ∈ lc, x.1.InRange t1.numVars t1.V.length)
    (hL : 32 ≤ p.ipp.L.length ∨ nextPow2 t1.numVars ≠ 2 ^ p.ipp.L.length) : verify O t p g h G H r = .err .verification := by
  simp only [verify, hcr, Res.ok_bind, verifyRest]
  rw [if_neg (by omega)]
  obtain ⟨W, eW⟩ := flatten_some (verifierChallenges O p t1.tr).1.z hr
  rw [eW]
  have : verificationScalars O p.ipp.L p.ipp.R (nextPow2 t1.numVars) (verifierChallenges O p t1.tr).2 = .err .ipp := by
    simp only [verificationScalars]
    by_cases c : p.ipp.L.length ≥ 32
    · rw [if_pos c]
    · rw [if_neg c, if_pos (by tauto)]
  simp only [Res.ok_bind, this]

/-- **C114.** A proof whose inner product argument has fewer points `R` than `L` makes the verifier panic. -/
theorem verify_short_R_panics (O : Transcript F V → F) (t t1 : VState F V) (p : R1CSProof F V) (g h : V) (G H : List V) (r : F)
    (hcr : VState.createRandomized O { t with tr := commitPoint "S1" p.S1 (commitPoint "A_O1" p.AO1 (commitPoint "A_I1" p.AI1
      (t.tr ++ [.u64 "m" t.V.length]))) } = .ok t1) (hG : nextPow2 t1.numVars ≤ G.length)
    (hr : ∀ lc ∈ t1.cons, ∀ x ∈ lc, x.1.InRange t1.numVars t1.V.length)
    (hL : nextPow2 t1.numVars = 2 ^ p.ipp.L.length) (h32 : p.ipp.L.length < 32) (hR : p.ipp.R.length < p.ipp.L.length) :
    verify O t p g h G H r = .panic := by
  simp only [verify, hcr, Res.ok_bind, verifyRest]
  rw [if_neg (by omega)]
  obtain ⟨W, eW⟩ := flatten_some (verifierChallenges O p t1.tr).1.z hr
  rw [eW, hL]
  simp only [Res.ok_bind, verificationScalars_short_panics O _ _ _ h32 hR]

/-! ## An example: knowledge of the factors of a committed product -/

/-- commit to `a`, `b`, `c`; `a·b = c` -/
def mulSession {C : Type} (ca cb cc : C) : Prog F (Top F C) Var Unit :=
  .ext (.commit ca) fun x => .ext (.commit cb) fun y => .ext (.commit cc) fun z =>
    .multiply (LC.ofVar x) (LC.ofVar y) fun o => .constrain (LC.sub (LC.ofVar o.2.2) (LC.ofVar z)) fun _ => .pure ()

/-- the prover's state after the session -/
def mulState (g h : V) (tr : Transcript F V) (a b α β γ : F) : PState F V where
  tr := tr ++ [.domSep "r1cs v1", .point "V" (a • g + α • h), .point "V" (b • g + β • h), .point "V" ((a * b) • g + γ • h)]
  cons := [[(.committed 0, 1), (.left 0, -1)], [(.committed 1, 1), (.right 0, -1)], [(.out 0, 1), (.committed 2, -1)]]
  aL := [a]
  aR := [b]
  aO := [a * b]
  v := [a, b, a * b]
  vb := [α, β, γ]
  deferred := []
  pending := none

theorem mulSession_run (g h : V) (tr : Transcript F V) (a b α β γ : F) :
    (mulSession (F := F) (a, α) (b, β) (a * b, γ)).runP (PState.top g h) (PState.new tr) = .ok ((), mulState g h tr a b α β γ) := by
  simp [mulSession, Prog.runP, PState.top, PState.commit, PState.new, Res.ok_bind, PState.multiply, PState.eval, LC.ofVar, LC.sub, evalFrom, varVal, mulState,
    PState.allocVars, commitPoint]

/-- **C112, C113, C114 are not vacuous**: for every field, module and bases there is a session of prover and verifier that satisfies the hypotheses, and the
proof is accepted. -/
theorem r1cs_complete_met (g h G0 H0 : V) (tr : Transcript F V) (a b α β γ : F) (ρ : Rand F) (r : F) :
    let O : Transcript F V → F := fun _ => 1
    let P : ProverSession F Unit := mulSession (a, α) (b, β) (a * b, γ)
    let Q : VerifierSession F V Unit := mulSession (a • g + α • h) (b • g + β • h) ((a * b) • g + γ • h)
    P.Rel (TopRel g h) (fun _ _ => True) Q ∧ P.runP (PState.top g h) (PState.new tr) = .ok ((), mulState g h tr a b α β γ) ∧
    ∃ p s', prove O g h ρ (mulState g h tr a b α β γ) [G0] [H0] = .ok (p, s') ∧ (∀ lc ∈ s'.cons, s'.asg.lc lc = 0) ∧ s'.aL.length ≤ 2 ^ 31 ∧
      ∃ t, Q.runV VState.top (VState.new tr) = .ok ((), t) ∧ (∀ c xs, verifierDraws O t p = .ok (c, xs) → c.y ≠ 0 ∧ ∀ x ∈ xs, x ≠ 0) ∧
        verify O t p g h [G0] [H0] r = .ok () := by
  intro O P Q
  have rel : P.Rel (TopRel g h) (fun _ _ => True) Q := by
    simp [P, Q, mulSession, Prog.Rel, TopRel]
  have run := mulSession_run g h tr a b α β γ
  have wf : (mulState g h tr a b α β γ).WF := ⟨rfl, rfl, by simp [mulState], by simp [mulState], rfl⟩
  have hcr : ∀ tr', ({ mulState g h tr a b α β γ with tr := tr' } : PState F V).createRandomized O =
      .ok { mulState g h tr a b α β γ with tr := tr' ++ [.domSep "r1cs-1phase"] } := by
    intro tr'; simp [PState.createRandomized, mulState]
  have hn1 : nextPow2 1 = 1 := by simp [nextPow2]
  obtain ⟨p, s', e⟩ := prove_succeeds O g h ρ _ wf [G0] [H0] (fun tr' => ⟨_, hcr tr', by simp [mulState, hn1], by simp [mulState, hn1], by
    intro lc hlc x hx
    simp only [mulState, List.mem_cons, List.not_mem_nil, or_false] at hlc
    rcases hlc with rfl | rfl | rfl <;> simp only [List.mem_cons, List.not_mem_nil, or_false] at hx <;> rcases hx with rfl | rfl <;>
      simp [mulState, Var.InRange]⟩)
  have hs' : s'.cons = (mulState g h tr a b α β γ).cons ∧ s'.asg = (mulState g h tr a b α β γ).asg ∧ s'.aL = [a] := by
    have e' := e
    simp only [prove] at e'
    rw [if_neg (by simp [mulState])] at e'
    obtain ⟨_, -, e'⟩ := Res.bind_eq_ok.1 e'
    obtain ⟨_, -, e'⟩ := Res.bind_eq_ok.1 e'
    obtain ⟨_, -, e'⟩ := Res.bind_eq_ok.1 e'
    obtain ⟨_, -, e'⟩ := Res.bind_eq_ok.1 e'
    obtain ⟨_, -, e'⟩ := Res.bind_eq_ok.1 e'
    rw [hcr] at e'
    simp only [Res.ok_bind] at e'
    rw [if_neg (by simp [mulState, hn1])] at e'
    obtain ⟨_, -, e'⟩ := Res.bind_eq_ok.1 e'
    simp only [proveRest] at e'
    obtain ⟨_, -, e'⟩ := Res.bind_eq_ok.1 e'
    obtain ⟨_, -, e'⟩ := Res.bind_eq_ok.1 e'
    obtain ⟨_, -, e'⟩ := Res.bind_eq_ok.1 e'
    obtain ⟨_, -, e'⟩ := Res.bind_eq_ok.1 e'
    simp only [Res.pure_eq, Res.ok.injEq, Prod.mk.injEq] at e'
    rw [← e'.2]
    exact ⟨rfl, rfl, rfl⟩
  have hsat : ∀ lc ∈ s'.cons, s'.asg.lc lc = 0 := by
    rw [hs'.1, hs'.2.1]
    simp [mulState, PState.asg, Asg.lc, Asg.val]
  refine ⟨rel, run, p, s', e, hsat, by simp [hs'.2.2], ?_⟩
  obtain ⟨b', t, e1, -, hv⟩ := r1cs_complete O g h tr (fun _ _ => True) P Q rel () _ run ρ [G0] [H0] p s' e hsat (by simp [hs'.2.2])
  have hne : ∀ c xs, verifierDraws O t p = .ok (c, xs) → c.y ≠ 0 ∧ ∀ x ∈ xs, x ≠ 0 := by
    intro c xs hd
    simp only [verifierDraws] at hd
    obtain ⟨t', -, hd⟩ := Res.bind_eq_ok.1 hd
    simp only [Res.pure_eq, Res.ok.injEq, Prod.mk.injEq] at hd
    obtain ⟨rfl, rfl⟩ := hd
    refine ⟨by simp [verifierChallenges, challengeScalar, O], ?_⟩
    have : ∀ (L R : List V) (tr : Transcript F V), ∀ x ∈ (ippChallenges O tr L R).1, x ≠ 0 := by
      intro L
      induction L with
      | nil => intro R tr x hx; simp [ippChallenges] at hx
      | cons l L ih =>
        intro R tr x hx
        cases R with
        | nil => simp [ippChallenges] at hx
        | cons r R =>
          simp only [ippChallenges, List.mem_cons] at hx
          rcases hx with rfl | hx
          · simp [challengeScalar, O]
          · exact ih _ _ x hx
    exact this _ _ _
  exact ⟨t, e1, hne, hv hne r⟩

/-- the verifier's state after the session -/
def mulVState (tr : Transcript F V) (A B C : V) : VState F V where
  tr := tr ++ [.domSep "r1cs v1", .point "V" A, .point "V" B, .point "V" C]
  cons := [[(.committed 0, 1), (.left 0, -1)], [(.committed 1, 1), (.right 0, -1)], [(.out 0, 1), (.committed 2, -1)]]
  numVars := 1
  V := [A, B, C]
  deferred := []
  pending := none

/-- **C114 is not vacuous**: the verifier of the example session, for every proof: the three kinds of malformed input. -/
theorem verify_errors_met (O : Transcript F V → F) (tr : Transcript F V) (A B C g h G0 H0 : V) (p : R1CSProof F V) (r : F) :
    (mulSession (F := F) A B C).runV VState.top (VState.new tr) = .ok ((), mulVState tr A B C) ∧
    verify O (mulVState tr A B C) p g h [] [] r = .err (.generators 0 1) ∧
    (p.ipp.L.length ≠ 0 → verify O (mulVState tr A B C) p g h [G0] [H0] r = .err .verification) := by
  have hn1 : nextPow2 1 = 1 := by simp [nextPow2]
  have hcr : ∀ tr', ({ mulVState (F := F) tr A B C with tr := tr' } : VState F V).createRandomized O =
      .ok { mulVState (F := F) tr A B C with tr := tr' ++ [.domSep "r1cs-1phase"] } := by
    intro tr'; simp [VState.createRandomized, mulVState]
  refine ⟨?_, ?_, fun hL => ?_⟩
  · simp [mulSession, Prog.runV, VState.top, VState.allocVars, VState.new, Res.ok_bind, VState.multiply, LC.ofVar, LC.sub, LC.neg, LC.scale, mulVState, commitPoint]
  · have := verify_few_generators O (mulVState tr A B C) _ p g h [] [] r (hcr _) (by simp [mulVState, hn1])
    simpa [mulVState, hn1] using this
  · refine verify_wrong_rounds O (mulVState tr A B C) _ p g h [G0] [H0] r (hcr _) (by simp [mulVState, hn1]) ?_ ?_
    · intro lc hlc x hx
      simp only [mulVState, List.mem_cons, List.not_mem_nil, or_false] at hlc
      rcases hlc with rfl | rfl | rfl <;> simp only [List.mem_cons, List.not_mem_nil, or_false] at hx <;> rcases hx with rfl | rfl <;>
        simp [mulVState, Var.InRange]
    · right
      simp only [mulVState, hn1]
      intro h1
      exact hL (Nat.pow_right_injective (le_refl 2) (by simpa using h1.symm))

end Verif.BP
