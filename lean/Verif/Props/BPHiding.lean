import Verif.Props.BPR1CSMain
set_option linter.unusedSectionVars false
set_option linter.unusedSimpArgs false
set_option linter.unusedVariables false
/-!
# Constraint systems: proofs do not depend on the secret values (C182)

For two provers with different values behind the same commitments, both satisfying the constraints, every proof is made by exactly as many choices of the random
values: proofs have the same distribution.
-/
namespace Verif.BP
variable {F V : Type} [Field F] [AddCommGroup V] [Module F V] [DecidableEq F] [DecidableEq V]

/-! ## What `prove` computes -/

/-- all of `sL` -/
def Rand.sL (ρ : Rand F) (n1 n : Nat) : List F := randVec n1 ρ.sL1 ++ randVec (n - n1) ρ.sL2
/-- all of `sR` -/
def Rand.sR (ρ : Rand F) (n1 n : Nat) : List F := randVec n1 ρ.sR1 ++ randVec (n - n1) ρ.sR2

/-- the coefficients of `t(x)` -/
def tOf (ρ : Rand F) (s : PState F V) (n1 : Nat) (W : Weights F) (y : F) : Poly6 F :=
  tPoly s.asg s.aL.length (fun i => (ρ.sL n1 s.aL.length).getD i 0) (fun i => (ρ.sR n1 s.aL.length).getD i 0) (fun i => W.wL.getD i 0)
    (fun i => W.wR.getD i 0) (fun i => W.wO.getD i 0) y

/-- `l(x)` -/
def lOf (ρ : Rand F) (s : PState F V) (n1 : Nat) (W : Weights F) (y x : F) : List F :=
  vec (nextPow2 s.aL.length) (lAt s.asg (fun i => (ρ.sL n1 s.aL.length).getD i 0) (fun i => W.wR.getD i 0) y x)
/-- `r(x)` -/
def rOf (ρ : Rand F) (s : PState F V) (n1 : Nat) (W : Weights F) (y x : F) : List F :=
  vec (nextPow2 s.aL.length) (rAt s.asg (fun i => (ρ.sR n1 s.aL.length).getD i 0) (fun i => W.wL.getD i 0) (fun i => W.wO.getD i 0) y x)

/-- the transcript before the second phase -/
def trPhase1 (s : PState F V) (p : R1CSProof F V) : Transcript F V :=
  commitPoint "S1" p.S1 (commitPoint "A_O1" p.AO1 (commitPoint "A_I1" p.AI1 (s.tr ++ [.u64 "m" s.v.length])))

/-- the equations between the parts of a proof, the values and the random values -/
structure Eqs (O : Transcript F V → F) (g h : V) (ρ : Rand F) (s s2 : PState F V) (G H : List V) (p : R1CSProof F V) (b : F × F × F) (c : Chal F)
    (tr trF : Transcript F V) (W : Weights F) : Prop where
  lenG : nextPow2 s2.aL.length ≤ G.length
  lenH : nextPow2 s2.aL.length ≤ H.length
  AI1 : p.AI1 = msm s.aL (G.take s.aL.length) + msm s.aR (H.take s.aL.length) + ρ.i1 • h
  AO1 : p.AO1 = msm s.aO (G.take s.aL.length) + ρ.o1 • h
  S1 : p.S1 = msm (randVec s.aL.length ρ.sL1) (G.take s.aL.length) + msm (randVec s.aL.length ρ.sR1) (H.take s.aL.length) + ρ.s1 • h
  cr : PState.createRandomized O { s with tr := trPhase1 s p } = .ok s2
  second : secondPhase ρ s2 s.aL.length G H h = .ok (b, (p.AI2, p.AO2, p.S2))
  chal : verifierChallenges O p s2.tr = (c, tr)
  flat : flatten s2.aL.length s2.v.length s2.cons c.z = .ok W
  T1 : p.T1 = (tOf ρ s2 s.aL.length W c.y).t1 • g + ρ.t1 • h
  T3 : p.T3 = (tOf ρ s2 s.aL.length W c.y).t3 • g + ρ.t3 • h
  T4 : p.T4 = (tOf ρ s2 s.aL.length W c.y).t4 • g + ρ.t4 • h
  T5 : p.T5 = (tOf ρ s2 s.aL.length W c.y).t5 • g + ρ.t5 • h
  T6 : p.T6 = (tOf ρ s2 s.aL.length W c.y).t6 • g + ρ.t6 • h
  tx : p.tx = (tOf ρ s2 s.aL.length W c.y).eval c.x
  txb : p.txb = Poly6.eval ⟨ρ.t1, inner W.wV s2.vb, ρ.t3, ρ.t4, ρ.t5, ρ.t6⟩ c.x
  eb : p.eb = c.x * (ρ.i1 + c.u * b.1 + c.x * (ρ.o1 + c.u * b.2.1 + c.x * (ρ.s1 + c.u * b.2.2)))
  ipp : createIpp O tr (c.w • g) (gFac s2.aL.length s.aL.length c.u) (hFac s2.aL.length s.aL.length c.y c.u) (G.take (nextPow2 s2.aL.length))
    (H.take (nextPow2 s2.aL.length)) (lOf ρ s2 s.aL.length W c.y c.x) (rOf ρ s2 s.aL.length W c.y c.x) = .ok (p.ipp, trF)

theorem prove_eqs (O : Transcript F V → F) (g h : V) (ρ : Rand F) (s s' : PState F V) (w : s.WF) (G H : List V) (p : R1CSProof F V)
    (e : prove O g h ρ s G H = .ok (p, s')) : ∃ s2 b c tr trF W, Eqs O g h ρ s s2 G H p b c tr trF W := by
  simp only [prove] at e
  by_cases g1 : G.length < s.aL.length
  · rw [if_pos g1] at e; simp at e
  rw [if_neg g1] at e
  obtain ⟨G1, e1, e⟩ := Res.bind_eq_ok.1 e
  obtain ⟨H1, e2, e⟩ := Res.bind_eq_ok.1 e
  obtain ⟨-, -, rfl⟩ := slice_ok e1
  obtain ⟨-, -, rfl⟩ := slice_ok e2
  simp only [List.drop_zero, Nat.sub_zero] at e
  obtain ⟨AI1, eI, e⟩ := Res.bind_eq_ok.1 e
  obtain ⟨AO1', eO, e⟩ := Res.bind_eq_ok.1 e
  obtain ⟨S1, eS, e⟩ := Res.bind_eq_ok.1 e
  obtain ⟨s1, ecr, e⟩ := Res.bind_eq_ok.1 e
  have hI := commitVectors_ok eI
  have hO := (msmUnwrap_ok eO).2
  have hS := commitVectors_ok eS
  by_cases g2 : G.length < nextPow2 s1.aL.length
  · rw [if_pos g2] at e; simp at e
  rw [if_neg g2] at e
  obtain ⟨b2, e2p, e⟩ := Res.bind_eq_ok.1 e
  have wtr : ∀ tr', ({ s with tr := tr' } : PState F V).WF := fun _ => ⟨w.lenR, w.lenO, w.gate, w.pend, w.lenB⟩
  obtain ⟨fr, w1⟩ := Frozen.createRandomized O (wtr _) ecr
  have hn : s.aL.length ≤ s1.aL.length := fr.len
  simp only [proveRest] at e
  generalize hcy : challengeScalar O "y" _ = cy at e
  generalize hcz : challengeScalar O "z" cy.2 = cz at e
  obtain ⟨W, eW, e⟩ := Res.bind_eq_ok.1 e
  have hWl := (flatten_ok eW).1
  have lsL : (ρ.sL s.aL.length s1.aL.length).length = s1.aL.length := by simp [Rand.sL, randVec]; omega
  have lsR : (ρ.sR s.aL.length s1.aL.length).length = s1.aL.length := by simp [Rand.sR, randVec]; omega
  change (_ : Res Err _) = _ at e
  rw [show randVec s.aL.length ρ.sL1 ++ randVec (s1.aL.length - s.aL.length) ρ.sL2 = ρ.sL s.aL.length s1.aL.length from rfl,
    show randVec s.aL.length ρ.sR1 ++ randVec (s1.aL.length - s.aL.length) ρ.sR2 = ρ.sR s.aL.length s1.aL.length from rfl,
    specialInner_eq s1 w1 _ _ lsL lsR W _ hWl cy.1] at e
  generalize hcu : challengeScalar O "u" _ = cu at e
  generalize hcx : challengeScalar O "x" cu.2 = cx at e
  generalize hcw : challengeScalar O "w" _ = cw at e
  rw [lPoly_eq s1 w1 _ lsL W _ hWl cy.1 cx.1, rPoly_eq s1 w1 _ lsR W _ hWl cy.1 cx.1] at e
  obtain ⟨Gp, eGp, e⟩ := Res.bind_eq_ok.1 e
  obtain ⟨Hp, eHp, e⟩ := Res.bind_eq_ok.1 e
  obtain ⟨-, hG, rfl⟩ := slice_ok eGp
  obtain ⟨-, hH, rfl⟩ := slice_ok eHp
  simp only [List.drop_zero, Nat.sub_zero] at e
  obtain ⟨⟨ip, trF⟩, eipp, e⟩ := Res.bind_eq_ok.1 e
  simp only [Res.pure_eq, Res.ok.injEq, Prod.mk.injEq] at e
  obtain ⟨hpr, -⟩ := e
  have hp := le_nextPow2 s1.aL.length
  have hgf := ones_vec s.aL.length s1.aL.length (nextPow2 s1.aL.length) cu.1 hn hp
  have hgf' : List.replicate s.aL.length (1 : F) ++ List.replicate (s1.aL.length - s.aL.length + (nextPow2 s1.aL.length - s1.aL.length)) cu.1 =
    gFac s1.aL.length s.aL.length cu.1 := hgf
  have hhf : List.zipWith (· * ·) (powers cy.1⁻¹ (nextPow2 s1.aL.length)) (gFac s1.aL.length s.aL.length cu.1) = hFac s1.aL.length s.aL.length cy.1 cu.1 := by
    rw [gFac, powers_vec, vec_zipWith]; rfl
  rw [hgf', hhf] at eipp
  have hch : verifierChallenges O p s1.tr = (⟨cy.1, cz.1, cu.1, cx.1, cw.1⟩, cw.2) := by
    simp only [verifierChallenges, ← hpr]
    rw [hcy]
    simp only [hcz, hcu, hcx, hcw]
  refine ⟨s1, b2.1, ⟨cy.1, cz.1, cu.1, cx.1, cw.1⟩, cw.2, trF, W, hG, hH, ?_, ?_, ?_, ?_, ?_, hch, eW, ?_, ?_, ?_, ?_, ?_, ?_, ?_, ?_, ?_⟩
  · rw [← hpr]; exact hI
  · rw [← hpr, ← hO]
  · rw [← hpr]; exact hS
  · rw [← ecr, trPhase1, ← hpr]
  · rw [← hpr]; exact e2p
  all_goals (rw [← hpr]; try first | rfl | exact eipp)

theorem eqs_prove (O : Transcript F V → F) (g h : V) (ρ : Rand F) (s s2 : PState F V) (w : s.WF) (G H : List V) (p : R1CSProof F V) (b : F × F × F)
    (c : Chal F) (tr trF : Transcript F V) (W : Weights F) (E : Eqs O g h ρ s s2 G H p b c tr trF W) : ∃ s', prove O g h ρ s G H = .ok (p, s') := by
  have wtr : ∀ tr', ({ s with tr := tr' } : PState F V).WF := fun _ => ⟨w.lenR, w.lenO, w.gate, w.pend, w.lenB⟩
  obtain ⟨fr, w1⟩ := Frozen.createRandomized O (wtr _) E.cr
  have hn : s.aL.length ≤ s2.aL.length := fr.len
  have hp := le_nextPow2 s2.aL.length
  have hG := E.lenG
  have hH := E.lenH
  have hWl := (flatten_ok E.flat).1
  have lsL : (ρ.sL s.aL.length s2.aL.length).length = s2.aL.length := by simp [Rand.sL, randVec]; omega
  have lsR : (ρ.sR s.aL.length s2.aL.length).length = s2.aL.length := by simp [Rand.sR, randVec]; omega
  simp only [prove]
  rw [if_neg (by omega), slice_some (by omega) (by omega), slice_some (by omega) (by omega)]
  simp only [Res.ok_bind, List.drop_zero, Nat.sub_zero]
  rw [commitVectors_some (by simp; omega) (by simp [w.lenR]; omega), msmUnwrap_some (by simp [w.lenO]; omega)]
  simp only [Res.ok_bind]
  rw [commitVectors_some (by simp [randVec]; omega) (by simp [randVec]; omega)]
  simp only [Res.ok_bind]
  rw [← E.AI1, ← E.AO1, ← E.S1]
  have hcr := E.cr
  rw [trPhase1] at hcr
  rw [hcr]
  simp only [Res.ok_bind]
  rw [if_neg (by omega), E.second]
  simp only [Res.ok_bind, proveRest]
  have hch := E.chal
  simp only [verifierChallenges, Prod.mk.injEq] at hch
  generalize hcy : challengeScalar O "y" _ = cy at hch ⊢
  generalize hcz : challengeScalar O "z" cy.2 = cz at hch ⊢
  generalize hcu : challengeScalar O "u" _ = cu at hch
  generalize hcx : challengeScalar O "x" cu.2 = cx at hch
  generalize hcw : challengeScalar O "w" _ = cw at hch
  obtain ⟨rfl, rfl⟩ := hch
  rw [E.flat]
  simp only [Res.ok_bind]
  rw [show randVec s.aL.length ρ.sL1 ++ randVec (s2.aL.length - s.aL.length) ρ.sL2 = ρ.sL s.aL.length s2.aL.length from rfl,
    show randVec s.aL.length ρ.sR1 ++ randVec (s2.aL.length - s.aL.length) ρ.sR2 = ρ.sR s.aL.length s2.aL.length from rfl,
    specialInner_eq s2 w1 _ _ lsL lsR W _ hWl cy.1]
  have e1 := E.T1
  have e3 := E.T3
  have e4 := E.T4
  have e5 := E.T5
  have e6 := E.T6
  have ex := E.tx
  have exb := E.txb
  have eb := E.eb
  have ei := E.ipp
  simp only [tOf] at e1 e3 e4 e5 e6 ex
  simp only at exb eb ei
  rw [← e1, ← e3, ← e4, ← e5, ← e6, hcu, hcx, ← ex, ← exb, ← eb, hcw, slice_some (by omega) hG, slice_some (by omega) hH]
  simp only [Res.ok_bind, List.drop_zero, Nat.sub_zero]
  rw [lPoly_eq s2 w1 _ lsL W _ hWl cy.1 cx.1, rPoly_eq s2 w1 _ lsR W _ hWl cy.1 cx.1]
  have hgf := ones_vec s.aL.length s2.aL.length (nextPow2 s2.aL.length) cu.1 hn hp
  have hgf' : List.replicate s.aL.length (1 : F) ++ List.replicate (s2.aL.length - s.aL.length + (nextPow2 s2.aL.length - s2.aL.length)) cu.1 =
    gFac s2.aL.length s.aL.length cu.1 := hgf
  have hhf : List.zipWith (· * ·) (powers cy.1⁻¹ (nextPow2 s2.aL.length)) (gFac s2.aL.length s.aL.length cu.1) = hFac s2.aL.length s.aL.length cy.1 cu.1 := by
    rw [gFac, powers_vec, vec_zipWith]; rfl
  rw [hgf', hhf]
  simp only [lOf, rOf] at ei
  rw [ei]
  simp only [Res.ok_bind, Res.pure_eq]
  exact ⟨_, rfl⟩

/-! ## The second phase, in both directions -/

/-- the commitments of the second phase -/
theorem secondPhase_iff (ρ : Rand F) (s : PState F V) (w : s.WF) (n1 : Nat) (G H : List V) (h : V) (hn : n1 ≤ s.aL.length) (hG : s.aL.length ≤ G.length)
    (hH : s.aL.length ≤ H.length) (b : F × F × F) (A B C : V) :
    secondPhase ρ s n1 G H h = .ok (b, (A, B, C)) ↔
      if s.aL.length - n1 > 0 then b = (ρ.i2, ρ.o2, ρ.s2) ∧
        A = msm (s.aL.drop n1) ((G.drop n1).take (s.aL.length - n1)) + msm (s.aR.drop n1) ((H.drop n1).take (s.aL.length - n1)) + ρ.i2 • h ∧
        B = msm (s.aO.drop n1) ((G.drop n1).take (s.aL.length - n1)) + ρ.o2 • h ∧
        C = msm (randVec (s.aL.length - n1) ρ.sL2) ((G.drop n1).take (s.aL.length - n1)) +
          msm (randVec (s.aL.length - n1) ρ.sR2) ((H.drop n1).take (s.aL.length - n1)) + ρ.s2 • h
      else b = (0, 0, 0) ∧ A = 0 ∧ B = 0 ∧ C = 0 := by
  simp only [secondPhase]
  by_cases c : s.aL.length - n1 > 0
  · rw [if_pos c, if_pos c, slice_some hn hG, slice_some hn hH]
    simp only [Res.ok_bind]
    rw [commitVectors_some (by simp; omega) (by simp [w.lenR]; omega), msmUnwrap_some (by simp [w.lenO]; omega),
      commitVectors_some (by simp [randVec]; omega) (by simp [randVec]; omega)]
    simp only [Res.ok_bind, Res.pure_eq, Res.ok.injEq, Prod.mk.injEq, eq_comm]
  · rw [if_neg c, if_neg c]
    simp only [Res.ok.injEq, Prod.mk.injEq, eq_comm]

/-! ## Finitely many random values -/

/-- the random values of a run with at most `N` multipliers: the eleven blindings `i1, o1, s1, i2, o2, s2, t1, t3, t4, t5, t6` and the vectors
`sL1, sR1, sL2, sR2` -/
abbrev Coins (F : Type) (N : Nat) := (Fin 11 → F) × (Fin 4 → Fin N → F)

/-- entries that are never read are 0 -/
def extend {N : Nat} (f : Fin N → F) (i : Nat) : F := if hi : i < N then f ⟨i, hi⟩ else 0

/-- the random values as `prove` takes them -/
def Coins.rand {N : Nat} (q : Coins F N) : Rand F where
  i1 := q.1 0
  o1 := q.1 1
  s1 := q.1 2
  i2 := q.1 3
  o2 := q.1 4
  s2 := q.1 5
  t1 := q.1 6
  t3 := q.1 7
  t4 := q.1 8
  t5 := q.1 9
  t6 := q.1 10
  sL1 := extend (q.2 0)
  sR1 := extend (q.2 1)
  sL2 := extend (q.2 2)
  sR2 := extend (q.2 3)

/-! ## The correction of the random values -/

/-- what has to be added to `sL` -/
def dL (s2 s2' : PState F V) (x : F) (i : Nat) : F := ((s2.aL.getD i 0 - s2'.aL.getD i 0) + x * (s2.aO.getD i 0 - s2'.aO.getD i 0)) * (x * x)⁻¹
/-- what has to be added to `sR` -/
def dR (s2 s2' : PState F V) (x : F) (i : Nat) : F := (s2.aR.getD i 0 - s2'.aR.getD i 0) * (x * x)⁻¹

/-- the vectors for the other values -/
def vecs {N : Nat} (s2 s2' : PState F V) (n1 : Nat) (x : F) (q : Coins F N) : Fin 4 → Fin N → F :=
  ![fun i => q.2 0 i + dL s2 s2' x i, fun i => q.2 1 i + dR s2 s2' x i, fun i => q.2 2 i + dL s2 s2' x (n1 + i), fun i => q.2 3 i + dR s2 s2' x (n1 + i)]

/-- the random values with which the other values give the same proof; `log` is the discrete logarithm for `h` -/
def shift {N : Nat} (log : V → F) (g : V) (s' s2 s2' : PState F V) (G H : List V) (p : R1CSProof F V) (c : Chal F) (W : Weights F) (q : Coins F N) :
    Coins F N :=
  let n1 := s'.aL.length
  let n2 := s2'.aL.length - n1
  let ρ : Rand F := Coins.rand (q.1, vecs s2 s2' n1 c.x q)
  let t := tOf ρ s2' n1 W c.y
  let G2 := (G.drop n1).take n2
  let H2 := (H.drop n1).take n2
  (![log (p.AI1 - (msm s'.aL (G.take n1) + msm s'.aR (H.take n1))), log (p.AO1 - msm s'.aO (G.take n1)),
     log (p.S1 - (msm (randVec n1 ρ.sL1) (G.take n1) + msm (randVec n1 ρ.sR1) (H.take n1))),
     if n2 > 0 then log (p.AI2 - (msm (s2'.aL.drop n1) G2 + msm (s2'.aR.drop n1) H2)) else q.1 3,
     if n2 > 0 then log (p.AO2 - msm (s2'.aO.drop n1) G2) else q.1 4,
     if n2 > 0 then log (p.S2 - (msm (randVec n2 ρ.sL2) G2 + msm (randVec n2 ρ.sR2) H2)) else q.1 5,
     log (p.T1 - t.t1 • g), log (p.T3 - t.t3 • g), log (p.T4 - t.t4 • g), log (p.T5 - t.t5 • g), log (p.T6 - t.t6 • g)], vecs s2 s2' n1 c.x q)

theorem lAt_shift (A A' : Asg F) (sL sL' : Nat → F) (wR : Nat → F) (y x : F) (i : Nat)
    (h : sL' i = sL i + ((A.aL i - A'.aL i) + x * (A.aO i - A'.aO i)) * (x * x)⁻¹) : lAt A' sL' wR y x i = lAt A sL wR y x i := by
  simp only [lAt, h]
  by_cases hx : x = 0
  · simp [hx]
  · field_simp; ring

theorem rAt_shift (A A' : Asg F) (sR sR' : Nat → F) (wL wO : Nat → F) (y x : F) (i : Nat)
    (h : sR' i = sR i + (A.aR i - A'.aR i) * (x * x)⁻¹) : rAt A' sR' wL wO y x i = rAt A sR wL wO y x i := by
  simp only [rAt, h]
  by_cases hx : x = 0
  · simp [hx]
  · field_simp; ring

theorem sL_getD {N : Nat} (q : Coins F N) (s2 s2' : PState F V) (n1 n : Nat) (x : F) (hn : n1 ≤ n) (hN : n ≤ N) (h2 : s2.aL.length = n)
    (h2' : s2'.aL.length = n) (w : s2.WF) (w' : s2'.WF) (β : Fin 11 → F) (i : Nat) :
    ((Coins.rand (β, vecs s2 s2' n1 x q)).sL n1 n).getD i 0 = (q.rand.sL n1 n).getD i 0 + dL s2 s2' x i := by
  simp only [Rand.sL, randVec, List.getD_eq_getElem?_getD, List.getElem?_append, List.length_map, List.length_range]
  by_cases c1 : i < n1
  · have hi : i < N := by omega
    simp [c1, Coins.rand, extend, vecs, hi]
  · by_cases c2 : i < n
    · have hi : i - n1 < N := by omega
      have hi2 : i - n1 < n - n1 := by omega
      have hi3 : n1 + (i - n1) = i := by omega
      simp [c1, Coins.rand, extend, vecs, hi, hi2, hi3]
    · have hi2 : ¬ i - n1 < n - n1 := by omega
      have z1 : s2.aL.getD i 0 = 0 := List.getD_eq_default _ _ (by omega)
      have z2 : s2'.aL.getD i 0 = 0 := List.getD_eq_default _ _ (by omega)
      have z3 : s2.aO.getD i 0 = 0 := List.getD_eq_default _ _ (by rw [w.lenO]; omega)
      have z4 : s2'.aO.getD i 0 = 0 := List.getD_eq_default _ _ (by rw [w'.lenO]; omega)
      simp only [dL, z1, z2, z3, z4]
      simp [c1, hi2]

theorem sR_getD {N : Nat} (q : Coins F N) (s2 s2' : PState F V) (n1 n : Nat) (x : F) (hn : n1 ≤ n) (hN : n ≤ N) (h2 : s2.aL.length = n)
    (h2' : s2'.aL.length = n) (w : s2.WF) (w' : s2'.WF) (β : Fin 11 → F) (i : Nat) :
    ((Coins.rand (β, vecs s2 s2' n1 x q)).sR n1 n).getD i 0 = (q.rand.sR n1 n).getD i 0 + dR s2 s2' x i := by
  simp only [Rand.sR, randVec, List.getD_eq_getElem?_getD, List.getElem?_append, List.length_map, List.length_range]
  by_cases c1 : i < n1
  · have hi : i < N := by omega
    simp [c1, Coins.rand, extend, vecs, hi]
  · by_cases c2 : i < n
    · have hi : i - n1 < N := by omega
      have hi2 : i - n1 < n - n1 := by omega
      have hi3 : n1 + (i - n1) = i := by omega
      simp [c1, Coins.rand, extend, vecs, hi, hi2, hi3]
    · have hi2 : ¬ i - n1 < n - n1 := by omega
      have z1 : s2.aR.getD i 0 = 0 := List.getD_eq_default _ _ (by rw [w.lenR]; omega)
      have z2 : s2'.aR.getD i 0 = 0 := List.getD_eq_default _ _ (by rw [w'.lenR]; omega)
      simp only [dR, z1, z2]
      simp [c1, hi2]

/-- the combined equation for the points of the proof -/
theorem Eqs.point {h : V} {ρ : Rand F} {s s2 : PState F V} {G H : List V} {p : R1CSProof F V} {b : F × F × F} {c : Chal F}
    (w : s.WF) (fr : Frozen s.aL.length s s2) (w2 : s2.WF) (W : Weights F) (hy : c.y ≠ 0)
    (lenG : nextPow2 s2.aL.length ≤ G.length) (lenH : nextPow2 s2.aL.length ≤ H.length)
    (AI1 : p.AI1 = msm s.aL (G.take s.aL.length) + msm s.aR (H.take s.aL.length) + ρ.i1 • h)
    (AO1 : p.AO1 = msm s.aO (G.take s.aL.length) + ρ.o1 • h)
    (S1 : p.S1 = msm (randVec s.aL.length ρ.sL1) (G.take s.aL.length) + msm (randVec s.aL.length ρ.sR1) (H.take s.aL.length) + ρ.s1 • h)
    (second : secondPhase ρ s2 s.aL.length G H h = .ok (b, (p.AI2, p.AO2, p.S2)))
    (eb : p.eb = c.x * (ρ.i1 + c.u * b.1 + c.x * (ρ.o1 + c.u * b.2.1 + c.x * (ρ.s1 + c.u * b.2.2)))) :
    pPoint c s2.aL.length s.aL.length W p h (G.take (nextPow2 s2.aL.length)) (H.take (nextPow2 s2.aL.length)) =
      msm (hadamard (lOf ρ s2 s.aL.length W c.y c.x) (gFac s2.aL.length s.aL.length c.u)) (G.take (nextPow2 s2.aL.length)) +
      msm (hadamard (rOf ρ s2 s.aL.length W c.y c.x) (hFac s2.aL.length s.aL.length c.y c.u)) (H.take (nextPow2 s2.aL.length)) := by
  have t1 : s2.aL.take s.aL.length = s.aL := by rw [fr.L, List.take_length]
  have t2 : s2.aR.take s.aL.length = s.aR := by rw [fr.R, ← w.lenR, List.take_length]
  have t3 : s2.aO.take s.aL.length = s.aO := by rw [fr.O, ← w.lenO, List.take_length]
  obtain ⟨k1, k2, k3⟩ := secondPhase_ok w2 second fr.len _ (le_nextPow2 _) lenG lenH c.u
  rw [t1, t2] at k1
  rw [t3] at k2
  refine pPoint_honest s2 w2 (ρ.sL s.aL.length s2.aL.length) (ρ.sR s.aL.length s2.aL.length) W c hy s.aL.length p h _ _ _ _ _ ?_ ?_ ?_ eb
  · rw [AI1]; exact k1
  · rw [AO1]; exact k2
  · rw [S1]; exact k3

/-- the same proof, for the other values -/
theorem Eqs.transfer {O : Transcript F V → F} {g h : V} (hh : h ≠ 0) (log : V → F) (hlog : ∀ P, log P • h = P) {s s' s2 s2' : PState F V}
    {t : VState F V} (M : Match g h s t) (M' : Match g h s' t) {G H : List V} {p : R1CSProof F V} {b : F × F × F} {c : Chal F} (hy : c.y ≠ 0)
    {tr trF : Transcript F V} {W : Weights F} {q : Coins F G.length} (E : Eqs O g h q.rand s s2 G H p b c tr trF W)
    (hs2 : ∀ lc ∈ s2.cons, s2.asg.lc lc = 0) (cr' : PState.createRandomized O { s' with tr := trPhase1 s' p } = .ok s2')
    (hs2' : ∀ lc ∈ s2'.cons, s2'.asg.lc lc = 0) :
    ∃ b', Eqs O g h (shift log g s' s2 s2' G H p c W q).rand s' s2' G H p b' c tr trF W := by
  have htr : s'.tr = s.tr := M'.tr.symm.trans M.tr
  have hvl : s'.v.length = s.v.length := by
    have h1 : t.V.length = s.v.length := by rw [M.V]; simp [M.wf.lenB]
    have h2 : t.V.length = s'.v.length := by rw [M'.V]; simp [M'.wf.lenB]
    omega
  have hn1 : s'.aL.length = s.aL.length := M'.vars.symm.trans M.vars
  have htr1 : trPhase1 s' p = trPhase1 s p := by simp only [trPhase1, htr, hvl]
  have mtr : ∀ {s : PState F V} (m : Match g h s t) (tr : Transcript F V), Match g h { s with tr := tr } { t with tr := tr } := fun m tr =>
    ⟨⟨m.wf.lenR, m.wf.lenO, m.wf.gate, m.wf.pend, m.wf.lenB⟩, rfl, m.cons, m.vars, m.V, m.deferred, m.pending⟩
  obtain ⟨t2, et2, m2⟩ := (mtr M _).createRandomized O E.cr
  rw [htr1] at cr'
  obtain ⟨t2', et2', m2'⟩ := (mtr M' _).createRandomized O cr'
  rw [et2] at et2'
  simp only [Res.ok.injEq] at et2'
  subst et2'
  obtain ⟨fr, -⟩ := Frozen.createRandomized O (mtr M (trPhase1 s p)).wf E.cr
  obtain ⟨fr', -⟩ := Frozen.createRandomized O (mtr M' (trPhase1 s p)).wf cr'
  have fr : Frozen s.aL.length s s2 := ⟨fr.len, fr.L, fr.R, fr.O, fr.pend⟩
  have fr' : Frozen s'.aL.length s' s2' := ⟨fr'.len, fr'.L, fr'.R, fr'.O, fr'.pend⟩
  have hn : s2'.aL.length = s2.aL.length := m2'.vars.symm.trans m2.vars
  have hv2 : s2'.v.length = s2.v.length := by
    have h1 : t2.V.length = s2.v.length := by rw [m2.V]; simp [m2.wf.lenB]
    have h2 : t2.V.length = s2'.v.length := by rw [m2'.V]; simp [m2'.wf.lenB]
    omega
  have hcons : s2'.cons = s2.cons := m2'.cons.symm.trans m2.cons
  have hp := le_nextPow2 s2.aL.length
  have lG := E.lenG
  have lH := E.lenH
  have hnn : s.aL.length ≤ s2.aL.length := fr.len
  generalize hq' : shift log g s' s2 s2' G H p c W q = q'
  have hvs : q' = (q'.1, vecs s2 s2' s.aL.length c.x q) := by rw [← hq', shift, hn1]
  have eL : ∀ i, (q'.rand.sL s.aL.length s2.aL.length).getD i 0 = (q.rand.sL s.aL.length s2.aL.length).getD i 0 + dL s2 s2' c.x i := by
    intro i; rw [hvs]; exact sL_getD q s2 s2' _ _ c.x hnn (by omega) rfl hn m2.wf m2'.wf _ i
  have eR : ∀ i, (q'.rand.sR s.aL.length s2.aL.length).getD i 0 = (q.rand.sR s.aL.length s2.aL.length).getD i 0 + dR s2 s2' c.x i := by
    intro i; rw [hvs]; exact sR_getD q s2 s2' _ _ c.x hnn (by omega) rfl hn m2.wf m2'.wf _ i
  have hlOf : lOf q'.rand s2' s'.aL.length W c.y c.x = lOf q.rand s2 s.aL.length W c.y c.x := by
    rw [lOf, lOf, hn, hn1]
    apply vec_congr
    intro i _
    exact lAt_shift s2.asg s2'.asg _ _ _ _ _ i (eL i)
  have hrOf : rOf q'.rand s2' s'.aL.length W c.y c.x = rOf q.rand s2 s.aL.length W c.y c.x := by
    rw [rOf, rOf, hn, hn1]
    apply vec_congr
    intro i _
    exact rAt_shift s2.asg s2'.asg _ _ _ _ _ _ i (eR i)
  have lg : ∀ P Q : V, Q + log (P - Q) • h = P := by intro P Q; rw [hlog]; abel
  have htx : (tOf q'.rand s2' s'.aL.length W c.y).eval c.x = (tOf q.rand s2 s.aL.length W c.y).eval c.x := by
    rw [tOf, tOf, tPoly_eval, tPoly_eval, hn, hn1]
    apply Finset.sum_congr rfl
    intro i _
    have k1 := lAt_shift s2.asg s2'.asg (fun i => (q.rand.sL s.aL.length s2.aL.length).getD i 0) (fun i => (q'.rand.sL s.aL.length s2.aL.length).getD i 0)
      (fun i => W.wR.getD i 0) c.y c.x i (eL i)
    have k2 := rAt_shift s2.asg s2'.asg (fun i => (q.rand.sR s.aL.length s2.aL.length).getD i 0) (fun i => (q'.rand.sR s.aL.length s2.aL.length).getD i 0)
      (fun i => W.wL.getD i 0) (fun i => W.wO.getD i 0) c.y c.x i (eR i)
    rw [k1, k2]
  have hrand : ∀ β, Coins.rand (β, vecs s2 s2' s.aL.length c.x q) = Coins.rand (β, q'.2) := by intro β; rw [hvs]
  have AI1' : p.AI1 = msm s'.aL (G.take s'.aL.length) + msm s'.aR (H.take s'.aL.length) + q'.rand.i1 • h := by
    rw [← hq']; exact (lg _ _).symm
  have AO1' : p.AO1 = msm s'.aO (G.take s'.aL.length) + q'.rand.o1 • h := by
    rw [← hq']; exact (lg _ _).symm
  have S1' : p.S1 = msm (randVec s'.aL.length q'.rand.sL1) (G.take s'.aL.length) + msm (randVec s'.aL.length q'.rand.sR1) (H.take s'.aL.length) +
      q'.rand.s1 • h := by
    rw [← hq']; exact (lg _ _).symm
  have T1' : p.T1 = (tOf q'.rand s2' s'.aL.length W c.y).t1 • g + q'.rand.t1 • h := by rw [← hq']; exact (lg _ _).symm
  have T3' : p.T3 = (tOf q'.rand s2' s'.aL.length W c.y).t3 • g + q'.rand.t3 • h := by rw [← hq']; exact (lg _ _).symm
  have T4' : p.T4 = (tOf q'.rand s2' s'.aL.length W c.y).t4 • g + q'.rand.t4 • h := by rw [← hq']; exact (lg _ _).symm
  have T5' : p.T5 = (tOf q'.rand s2' s'.aL.length W c.y).t5 • g + q'.rand.t5 • h := by rw [← hq']; exact (lg _ _).symm
  have T6' : p.T6 = (tOf q'.rand s2' s'.aL.length W c.y).t6 • g + q'.rand.t6 • h := by rw [← hq']; exact (lg _ _).symm
  have sec' : ∃ b', secondPhase q'.rand s2' s'.aL.length G H h = .ok (b', (p.AI2, p.AO2, p.S2)) := by
    have es := (secondPhase_iff q.rand s2 m2.wf s.aL.length G H h hnn (by omega) (by omega) b _ _ _).1 E.second
    by_cases c2 : s2'.aL.length - s'.aL.length > 0
    · refine ⟨(q'.rand.i2, q'.rand.o2, q'.rand.s2), (secondPhase_iff q'.rand s2' m2'.wf _ G H h (by omega) (by omega) (by omega) _ _ _ _).2 ?_⟩
      rw [if_pos c2]
      refine ⟨rfl, ?_, ?_, ?_⟩ <;> rw [← hq'] <;> simp only [shift, if_pos c2] <;> exact (lg _ _).symm
    · refine ⟨(0, 0, 0), (secondPhase_iff q'.rand s2' m2'.wf _ G H h (by omega) (by omega) (by omega) _ _ _ _).2 ?_⟩
      rw [if_neg (by omega)] at es
      rw [if_neg c2]
      exact ⟨rfl, es.2⟩
  obtain ⟨b', sec'⟩ := sec'
  -- the blinding of the vectors
  have hcr1 := Eqs.point M.wf fr m2.wf W hy E.lenG E.lenH E.AI1 E.AO1 E.S1 E.second E.eb
  have eb' : p.eb = c.x * (q'.rand.i1 + c.u * b'.1 + c.x * (q'.rand.o1 + c.u * b'.2.1 + c.x * (q'.rand.s1 + c.u * b'.2.2))) := by
    generalize he : c.x * (q'.rand.i1 + c.u * b'.1 + c.x * (q'.rand.o1 + c.u * b'.2.1 + c.x * (q'.rand.s1 + c.u * b'.2.2))) = e
    have hcr2 := Eqs.point (p := { p with eb := e }) M'.wf fr' m2'.wf W hy (by rw [hn]; exact E.lenG) (by rw [hn]; exact E.lenH) AI1' AO1' S1'
      sec' he.symm
    rw [hlOf, hrOf, hn, hn1, ← hcr1] at hcr2
    simp only [pPoint] at hcr2
    have : (p.eb - e) • h = 0 := by
      rw [sub_smul]
      have := congrArg (fun z => z - pPoint c s2.aL.length s.aL.length W p h (G.take (nextPow2 s2.aL.length)) (H.take (nextPow2 s2.aL.length))) hcr2
      simp only [pPoint] at this
      rw [sub_self] at this
      rw [← this]
      abel
    rcases smul_eq_zero.1 this with h0 | h0
    · exact sub_eq_zero.1 h0
    · exact absurd h0 hh
  have gt := tGap_honest s2.asg s2.aL.length W s2.vb c hy s2.v rfl (flatten_ok E.flat).1 m2.wf.lenB _ _ (fun i hi => (m2.wf.gate i hi).symm)
    (Weights.sum_zero E.flat _ hs2) p g h _ _ _ _ _ _ rfl E.T1 E.T3 E.T4 E.T5 E.T6 E.tx E.txb
  have flat' : flatten s2'.aL.length s2'.v.length s2'.cons c.z = .ok W := by rw [hn, hv2, hcons]; exact E.flat
  have txb' : p.txb = Poly6.eval ⟨q'.rand.t1, inner W.wV s2'.vb, q'.rand.t3, q'.rand.t4, q'.rand.t5, q'.rand.t6⟩ c.x := by
    generalize he : Poly6.eval ⟨q'.rand.t1, inner W.wV s2'.vb, q'.rand.t3, q'.rand.t4, q'.rand.t5, q'.rand.t6⟩ c.x = e
    have gt' := tGap_honest s2'.asg s2'.aL.length W s2'.vb c hy s2'.v rfl (flatten_ok flat').1 m2'.wf.lenB _ _ (fun i hi => (m2'.wf.gate i hi).symm)
      (Weights.sum_zero flat' _ hs2') { p with txb := e } g h _ _ _ _ _ _ rfl T1' T3' T4' T5' T6' (E.tx.trans htx.symm) he.symm
    rw [← m2'.V, hn] at gt'
    rw [← m2.V] at gt
    have : (p.txb - e) • h = 0 := by
      rw [sub_smul]
      have := gt'.trans gt.symm
      simp only [tGap] at this
      have := congrArg (fun z => z - tGap c s2.aL.length W p g h t2.V) this
      simp only [tGap] at this
      rw [sub_self] at this
      rw [← this]
      abel
    rcases smul_eq_zero.1 this with h0 | h0
    · exact sub_eq_zero.1 h0
    · exact absurd h0 hh
  refine ⟨b', ?_, ?_, AI1', AO1', S1', ?_, sec', ?_, flat', T1', T3', T4', T5', T6', E.tx.trans htx.symm, txb', eb', ?_⟩
  · rw [hn]; exact E.lenG
  · rw [hn]; exact E.lenH
  · rw [htr1]; exact cr'
  · rw [← m2'.tr, m2.tr]; exact E.chal
  · rw [hlOf, hrOf, hn, hn1]; exact E.ipp

/-! ## Proofs have the same distribution -/

/-- the values of the prover satisfy the statement: whatever the challenges, the second phase succeeds and all constraints hold -/
def PState.Satisfies (O : Transcript F V → F) (s : PState F V) : Prop :=
  ∀ tr', ∃ s2, ({ s with tr := tr' } : PState F V).createRandomized O = .ok s2 ∧ ∀ lc ∈ s2.cons, s2.asg.lc lc = 0

/-- the random values with which `prove` makes the proof `p` -/
def Makes (O : Transcript F V → F) (g h : V) (s : PState F V) (G H : List V) (p : R1CSProof F V) : Type :=
  { q : Coins F G.length // ∃ s', prove O g h q.rand s G H = .ok (p, s') }

instance [Finite F] (O : Transcript F V → F) (g h : V) (s : PState F V) (G H : List V) (p : R1CSProof F V) : Finite (Makes O g h s G H p) :=
  inferInstanceAs (Finite { q : Coins F G.length // ∃ s', prove O g h q.rand s G H = .ok (p, s') })

theorem smul_inj {h : V} (hh : h ≠ 0) {a b : F} (e : a • h = b • h) : a = b := by
  have : (a - b) • h = 0 := by rw [sub_smul, e, sub_self]
  rcases smul_eq_zero.1 this with h0 | h0
  · exact sub_eq_zero.1 h0
  · exact absurd h0 hh

theorem hiding_le [Finite F] (O : Transcript F V → F) (g h : V) (hh : h ≠ 0) (hlog : ∀ P : V, ∃ r : F, r • h = P) (s s' : PState F V) (t : VState F V)
    (M : Match g h s t) (M' : Match g h s' t) (S : s.Satisfies O) (S' : s'.Satisfies O) (G H : List V) (p : R1CSProof F V)
    (hy : ∀ c xs, verifierDraws O t p = .ok (c, xs) → c.y ≠ 0) :
    Nat.card (Makes O g h s G H p) ≤ Nat.card (Makes O g h s' G H p) := by
  by_cases hemp : IsEmpty (Makes O g h s G H p)
  · rw [Nat.card_of_isEmpty]; exact Nat.zero_le _
  obtain ⟨q0, s0, e0⟩ := not_isEmpty_iff.1 hemp
  obtain ⟨s2, b0, c, tr, trF0, W, E0⟩ := prove_eqs O g h _ s _ M.wf G H p e0
  obtain ⟨s2', cr', sat'⟩ := S' (trPhase1 s' p)
  have sat : ∀ lc ∈ s2.cons, s2.asg.lc lc = 0 := by
    obtain ⟨s2c, crc, satc⟩ := S (trPhase1 s p)
    rw [E0.cr] at crc
    simp only [Res.ok.injEq] at crc
    subst crc
    exact satc
  have mtr : ∀ {s : PState F V} (m : Match g h s t) (tr : Transcript F V), Match g h { s with tr := tr } { t with tr := tr } := fun m tr =>
    ⟨⟨m.wf.lenR, m.wf.lenO, m.wf.gate, m.wf.pend, m.wf.lenB⟩, rfl, m.cons, m.vars, m.V, m.deferred, m.pending⟩
  have hVl : t.V.length = s.v.length := by rw [M.V]; simp [M.wf.lenB]
  obtain ⟨t2, et2, m2⟩ := (mtr M _).createRandomized O E0.cr
  have hcy : c.y ≠ 0 := by
    refine hy c (ippChallenges O (ippDomSep (nextPow2 t2.numVars) tr) p.ipp.L p.ipp.R).1 ?_
    simp only [verifierDraws]
    rw [M.tr, hVl]
    rw [trPhase1] at et2
    rw [et2]
    simp only [Res.ok_bind, Res.pure_eq, m2.tr, E0.chal]
  choose log hlog using hlog
  -- the equations for each choice of random values
  have key : ∀ x : Makes O g h s G H p, ∃ b trF, Eqs O g h x.1.rand s s2 G H p b c tr trF W := by
    rintro ⟨q, s1, e⟩
    obtain ⟨a2, b, c', tr', trF, W', E⟩ := prove_eqs O g h _ s _ M.wf G H p e
    have h2 := E.cr
    rw [E0.cr] at h2
    simp only [Res.ok.injEq] at h2
    subst h2
    have h3 := E.chal
    rw [E0.chal] at h3
    simp only [Prod.mk.injEq] at h3
    obtain ⟨rfl, rfl⟩ := h3
    have h4 := E.flat
    rw [E0.flat] at h4
    simp only [Res.ok.injEq] at h4
    subst h4
    exact ⟨b, trF, E⟩
  have img : ∀ x : Makes O g h s G H p, ∃ s1, prove O g h (shift log g s' s2 s2' G H p c W x.1).rand s' G H = .ok (p, s1) := by
    intro x
    obtain ⟨b, trF, E⟩ := key x
    obtain ⟨b', E'⟩ := E.transfer hh log hlog M M' hcy sat cr' sat'
    exact eqs_prove O g h _ s' s2' M'.wf G H p b' c tr trF W E'
  refine Nat.card_le_card_of_injective (fun x : Makes O g h s G H p => (⟨_, img x⟩ : Makes O g h s' G H p)) ?_
  intro x y hxy
  have hxy := congrArg Subtype.val hxy
  simp only at hxy
  obtain ⟨bx, tx, Ex⟩ := key x
  obtain ⟨bx', Ex'⟩ := Ex.transfer hh log hlog M M' hcy sat cr' sat'
  obtain ⟨by', ty, Ey⟩ := key y
  have hv : x.1.2 = y.1.2 := by
    have h2 := congrArg Prod.snd hxy
    have k0 : ∀ i, x.1.2 0 i = y.1.2 0 i := fun i => add_right_cancel (congrFun (congrFun h2 0) i)
    have k1 : ∀ i, x.1.2 1 i = y.1.2 1 i := fun i => add_right_cancel (congrFun (congrFun h2 1) i)
    have k2 : ∀ i, x.1.2 2 i = y.1.2 2 i := fun i => add_right_cancel (congrFun (congrFun h2 2) i)
    have k3 : ∀ i, x.1.2 3 i = y.1.2 3 i := fun i => add_right_cancel (congrFun (congrFun h2 3) i)
    funext k i
    fin_cases k
    exacts [k0 i, k1 i, k2 i, k3 i]
  have hsec : secondPhase x.1.rand s2 s.aL.length G H h = .ok (bx, (p.AI2, p.AO2, p.S2)) := Ex.second
  have hsL : x.1.rand.sL s.aL.length s2.aL.length = y.1.rand.sL s.aL.length s2.aL.length := by simp only [Rand.sL, Coins.rand, hv]
  have hsR : x.1.rand.sR s.aL.length s2.aL.length = y.1.rand.sR s.aL.length s2.aL.length := by simp only [Rand.sR, Coins.rand, hv]
  have ht : tOf x.1.rand s2 s.aL.length W c.y = tOf y.1.rand s2 s.aL.length W c.y := by simp only [tOf, hsL, hsR]
  have c1 : x.1.rand.i1 = y.1.rand.i1 := smul_inj hh (add_left_cancel (Ex.AI1.symm.trans Ey.AI1))
  have c2 : x.1.rand.o1 = y.1.rand.o1 := smul_inj hh (add_left_cancel (Ex.AO1.symm.trans Ey.AO1))
  have c3 : x.1.rand.s1 = y.1.rand.s1 := by
    have := Ex.S1.symm.trans Ey.S1
    simp only [Coins.rand, hv] at this
    exact smul_inj hh (add_left_cancel this)
  have e1 := Ex.T1.symm.trans Ey.T1
  have e3 := Ex.T3.symm.trans Ey.T3
  have e4 := Ex.T4.symm.trans Ey.T4
  have e5 := Ex.T5.symm.trans Ey.T5
  have e6 := Ex.T6.symm.trans Ey.T6
  rw [ht] at e1 e3 e4 e5 e6
  have d1 := smul_inj hh (add_left_cancel e1)
  have d3 := smul_inj hh (add_left_cancel e3)
  have d4 := smul_inj hh (add_left_cancel e4)
  have d5 := smul_inj hh (add_left_cancel e5)
  have d6 := smul_inj hh (add_left_cancel e6)
  have hn1 : s'.aL.length = s.aL.length := M'.vars.symm.trans M.vars
  have hsecs : x.1.rand.i2 = y.1.rand.i2 ∧ x.1.rand.o2 = y.1.rand.o2 ∧ x.1.rand.s2 = y.1.rand.s2 := by
    have hnn : s.aL.length ≤ s2.aL.length := (Frozen.createRandomized O (mtr M (trPhase1 s p)).wf Ex.cr).1.len
    have hp := le_nextPow2 s2.aL.length
    have lG := Ex.lenG
    have lH := Ex.lenH
    have ax := (secondPhase_iff _ s2 m2.wf s.aL.length G H h hnn (by omega) (by omega) _ _ _ _).1 Ex.second
    have ay := (secondPhase_iff _ s2 m2.wf s.aL.length G H h hnn (by omega) (by omega) _ _ _ _).1 Ey.second
    by_cases cc : s2.aL.length - s.aL.length > 0
    · rw [if_pos cc] at ax ay
      refine ⟨smul_inj hh (add_left_cancel (ax.2.1.symm.trans ay.2.1)), smul_inj hh (add_left_cancel (ax.2.2.1.symm.trans ay.2.2.1)), ?_⟩
      have := ax.2.2.2.symm.trans ay.2.2.2
      simp only [Coins.rand, hv] at this
      exact smul_inj hh (add_left_cancel this)
    · have hn : s2'.aL.length = s2.aL.length := by
        have htr : s'.tr = s.tr := M'.tr.symm.trans M.tr
        have hvl : s'.v.length = s.v.length := by
          have h2 : t.V.length = s'.v.length := by rw [M'.V]; simp [M'.wf.lenB]
          omega
        have htr1 : trPhase1 s' p = trPhase1 s p := by simp only [trPhase1, htr, hvl]
        rw [htr1] at cr'
        obtain ⟨t2', et2', m2'⟩ := (mtr M' _).createRandomized O cr'
        rw [et2] at et2'
        simp only [Res.ok.injEq] at et2'
        subst et2'
        exact m2'.vars.symm.trans m2.vars
      have hz : ¬ s2'.aL.length - s'.aL.length > 0 := by omega
      have h2 := congrArg Prod.fst hxy
      simp only [shift, if_neg hz] at h2
      exact ⟨congrFun h2 3, congrFun h2 4, congrFun h2 5⟩
  apply Subtype.ext
  apply Prod.ext _ hv
  funext k
  fin_cases k
  exacts [c1, c2, c3, hsecs.1, hsecs.2.1, hsecs.2.2, d1, d3, d4, d5, d6]

/-- **C182.** Proofs do not depend on the secret values.  Take two provers that have built the same statement with the same commitments, with values that
satisfy it — any values.  Then every proof `p` is made by as many choices of the random values by the one as by the other: the two distributions of proofs are the
same, so a proof tells nothing about which of all values that satisfy the statement were used.  The only condition on `p` is that the challenge `y` is not 0. -/
theorem r1cs_hiding [Finite F] (O : Transcript F V → F) (g h : V) (hh : h ≠ 0) (hlog : ∀ P : V, ∃ r : F, r • h = P) (s s' : PState F V) (t : VState F V)
    (M : Match g h s t) (M' : Match g h s' t) (S : s.Satisfies O) (S' : s'.Satisfies O) (G H : List V) (p : R1CSProof F V)
    (hy : ∀ c xs, verifierDraws O t p = .ok (c, xs) → c.y ≠ 0) :
    Nat.card { q : Coins F G.length // ∃ s1, prove O g h q.rand s G H = .ok (p, s1) } =
      Nat.card { q : Coins F G.length // ∃ s1, prove O g h q.rand s' G H = .ok (p, s1) } :=
  le_antisymm (hiding_le O g h hh hlog s s' t M M' S S' G H p hy) (hiding_le O g h hh hlog s' s t M' M S' S G H p hy)

/-- **C182**, for sessions: two provers whose calls correspond to the calls of the same verifier. -/
theorem r1cs_hiding_session [Finite F] (O : Transcript F V → F) (g h : V) (hh : h ≠ 0) (hlog : ∀ P : V, ∃ r : F, r • h = P) (tr : Transcript F V)
    {α α' β : Type} (ra : α → β → Prop) (ra' : α' → β → Prop) (P : ProverSession F α) (P' : ProverSession F α') (Q : VerifierSession F V β)
    (rel : P.Rel (TopRel g h) ra Q) (rel' : P'.Rel (TopRel g h) ra' Q) (a : α) (a' : α') (s s' : PState F V)
    (run : P.runP (PState.top g h) (PState.new tr) = .ok (a, s)) (run' : P'.runP (PState.top g h) (PState.new tr) = .ok (a', s'))
    (S : s.Satisfies O) (S' : s'.Satisfies O) (G H : List V) :
    ∃ b t, Q.runV VState.top (VState.new tr) = .ok (b, t) ∧ ∀ p, (∀ c xs, verifierDraws O t p = .ok (c, xs) → c.y ≠ 0) →
      Nat.card { q : Coins F G.length // ∃ s1, prove O g h q.rand s G H = .ok (p, s1) } =
        Nat.card { q : Coins F G.length // ∃ s1, prove O g h q.rand s' G H = .ok (p, s1) } := by
  obtain ⟨b, t, e, -, m⟩ := Prog.Rel.run (re := TopRel g h) (ra := ra) (extP := PState.top g h) (extV := VState.top) (fun _ _ _ _ _ _ a b c => Match.top a b c)
    P Q _ _ _ _ rel (Match.new g h tr) run
  obtain ⟨b', t', e', -, m'⟩ := Prog.Rel.run (re := TopRel g h) (ra := ra') (extP := PState.top g h) (extV := VState.top)
    (fun _ _ _ _ _ _ a b c => Match.top a b c) P' Q _ _ _ _ rel' (Match.new g h tr) run'
  rw [e] at e'
  simp only [Res.ok.injEq, Prod.mk.injEq] at e'
  obtain ⟨rfl, rfl⟩ := e'
  exact ⟨b, t, e, fun p hy => r1cs_hiding O g h hh hlog s s' t m m' S S' G H p hy⟩

/-- **C182 is not vacuous**: a proof that a committed number is the product of two others.  For every finite field, any two pairs of factors: with suitable
blindings the commitments are the same, the hypotheses hold, and proofs are made. -/
theorem r1cs_hiding_met [Finite F] (g G0 H0 : F) (tr : Transcript F F) (a b α β γ a' b' : F) :
    let O : Transcript F F → F := fun _ => 1
    let P : ProverSession F Unit := mulSession (a, α) (b, β) (a * b, γ)
    let P' : ProverSession F Unit := mulSession (a', α + (a - a') * g) (b', β + (b - b') * g) (a' * b', γ + (a * b - a' * b') * g)
    let Q : VerifierSession F F Unit := mulSession (a • g + α • (1 : F)) (b • g + β • (1 : F)) ((a * b) • g + γ • (1 : F))
    let s := mulState g 1 tr a b α β γ
    let s' := mulState g 1 tr a' b' (α + (a - a') * g) (β + (b - b') * g) (γ + (a * b - a' * b') * g)
    P.Rel (TopRel g 1) (fun _ _ => True) Q ∧ P'.Rel (TopRel g 1) (fun _ _ => True) Q ∧
    P.runP (PState.top g 1) (PState.new tr) = .ok ((), s) ∧ P'.runP (PState.top g 1) (PState.new tr) = .ok ((), s') ∧
    s.Satisfies O ∧ s'.Satisfies O ∧
    ∀ q : Coins F 1, ∃ p s1, prove O g 1 q.rand s [G0] [H0] = .ok (p, s1) ∧ ∃ q' : Coins F 1, ∃ s1', prove O g 1 q'.rand s' [G0] [H0] = .ok (p, s1') := by
  intro O P P' Q s s'
  have e1 : ∀ x x' z : F, x' • g + (z + (x - x') * g) • (1 : F) = x • g + z • (1 : F) := by intro x x' z; simp only [smul_eq_mul]; ring
  have rel : P.Rel (TopRel g 1) (fun _ _ => True) Q := by simp [P, Q, mulSession, Prog.Rel, TopRel]
  have rel' : P'.Rel (TopRel g 1) (fun _ _ => True) Q := by
    simp only [P', Q]
    rw [← e1 a a' α, ← e1 b b' β, ← e1 (a * b) (a' * b') γ]
    simp [mulSession, Prog.Rel, TopRel]
  have run : P.runP (PState.top g 1) (PState.new tr) = .ok ((), s) := mulSession_run g 1 tr a b α β γ
  have run' : P'.runP (PState.top g 1) (PState.new tr) = .ok ((), s') := mulSession_run g 1 tr a' b' _ _ _
  have hcr : ∀ a b α β γ tr', ({ mulState g 1 tr a b α β γ with tr := tr' } : PState F F).createRandomized O =
      .ok { mulState g 1 tr a b α β γ with tr := tr' ++ [.domSep "r1cs-1phase"] } := by
    intro a b α β γ tr'; simp [PState.createRandomized, mulState]
  have sat : ∀ a b α β γ, (mulState (F := F) g 1 tr a b α β γ).Satisfies O := fun a b α β γ tr' =>
    ⟨_, hcr a b α β γ tr', by simp [mulState, PState.asg, Asg.lc, Asg.val]⟩
  have hn1 : nextPow2 1 = 1 := by simp [nextPow2]
  refine ⟨rel, rel', run, run', sat _ _ _ _ _, sat _ _ _ _ _, fun q => ?_⟩
  have wf : s.WF := ⟨rfl, rfl, by simp [s, mulState], by simp [s, mulState], rfl⟩
  obtain ⟨p, s1, e⟩ := prove_succeeds O g 1 q.rand s wf [G0] [H0] (fun tr' => ⟨_, hcr _ _ _ _ _ tr', by simp [mulState, hn1], by simp [mulState, hn1], by
    intro lc hlc x hx
    simp only [mulState, List.mem_cons, List.not_mem_nil, or_false] at hlc
    rcases hlc with rfl | rfl | rfl <;> simp only [List.mem_cons, List.not_mem_nil, or_false] at hx <;> rcases hx with rfl | rfl <;>
      simp [mulState, Var.InRange]⟩)
  refine ⟨p, s1, e, ?_⟩
  obtain ⟨-, t, -, hc⟩ := r1cs_hiding_session O g 1 one_ne_zero (fun P => ⟨P, by simp⟩) tr (fun _ _ => True) (fun _ _ => True) P P' Q rel rel' () () s s' run run'
    (sat _ _ _ _ _) (sat _ _ _ _ _) [G0] [H0]
  have hy : ∀ c xs, verifierDraws O t p = .ok (c, xs) → c.y ≠ 0 := by
    intro c xs hd
    simp only [verifierDraws] at hd
    obtain ⟨t', -, hd⟩ := Res.bind_eq_ok.1 hd
    simp only [Res.pure_eq, Res.ok.injEq, Prod.mk.injEq] at hd
    obtain ⟨rfl, rfl⟩ := hd
    simp [verifierChallenges, challengeScalar, O]
  have hc := hc p hy
  have : 0 < Nat.card { q : Coins F 1 // ∃ s1, prove O g 1 q.rand s [G0] [H0] = .ok (p, s1) } :=
    Nat.card_pos_iff.2 ⟨⟨⟨q, s1, e⟩⟩, inferInstance⟩
  rw [show Nat.card { q : Coins F 1 // ∃ s1, prove O g 1 q.rand s [G0] [H0] = .ok (p, s1) } = _ from hc] at this
  obtain ⟨⟨⟨q', s1', e'⟩⟩, -⟩ := Nat.card_pos_iff.1 this
  exact ⟨q', s1', e'⟩

/-- **C182.** The commitments themselves tell nothing: every point is the commitment of every value, with exactly one blinding. -/
theorem commitment_hiding (g h : V) (hh : h ≠ 0) (hlog : ∀ P : V, ∃ r : F, r • h = P) (s : PState F V) (v : F) (C : V) :
    ∃! r : F, (s.commit g h v r).1 = C := by
  obtain ⟨r, hr⟩ := hlog (C - v • g)
  refine ⟨r, by simp only [PState.commit, hr]; abel, fun r' hr' => ?_⟩
  simp only [PState.commit] at hr'
  apply smul_inj hh
  rw [hr, ← hr']
  abel

end Verif.BP
