import Verif.Props.BPSound
set_option linter.unusedSectionVars false
set_option linter.unusedSimpArgs false
set_option linter.unusedVariables false
/-!
# Constraint systems: the hypotheses of `r1cs_sound` are met by honest provers, for every satisfied system (C115)
-/
namespace Verif.BP
variable {F V : Type} [Field F] [AddCommGroup V] [Module F V] [DecidableEq F] [DecidableEq V]

theorem ippChallenges_congr {O O' : Transcript F V → F} (L : List V) : ∀ (R : List V) (tr : Transcript F V),
    (∀ t, tr.length < t.length → O t = O' t) → ippChallenges O tr L R = ippChallenges O' tr L R := by
  induction L with
  | nil => intro R tr _; simp [ippChallenges]
  | cons l L ih =>
    intro R tr h
    cases R with
    | nil => simp [ippChallenges]
    | cons r R =>
      simp only [ippChallenges, challengeScalar, commitPoint]
      rw [h _ (by simp), ih R _ fun t ht => h t (by simp at ht; omega)]

theorem challenges_exist (p : R1CSProof F V) (tr : Transcript F V) (c : Chal F) (xs : List F) (N : Nat) (hR : p.ipp.R.length = p.ipp.L.length)
    (hx : xs.length = p.ipp.L.length) : ∃ O : Transcript F V → F, (verifierChallenges O p tr).1 = c ∧
      (ippChallenges O (ippDomSep N (verifierChallenges O p tr).2) p.ipp.L p.ipp.R).1 = xs := by
  have h2 : ∀ O O' : Transcript F V → F, (verifierChallenges O p tr).2 = (verifierChallenges O' p tr).2 := fun O O' => rfl
  have hlen : ∀ O : Transcript F V → F, (verifierChallenges O p tr).2.length = tr.length + 16 := by
    intro O; simp [verifierChallenges, challengeScalar, commitPoint, commitScalar]
  obtain ⟨O1, h1⟩ := oracle_exists p.ipp.L p.ipp.R xs (ippDomSep N (verifierChallenges (fun _ => 0) p tr).2) hR hx
  let O : Transcript F V → F := fun t =>
    if t.length = tr.length + 4 then c.y else if t.length = tr.length + 5 then c.z else if t.length = tr.length + 11 then c.u
    else if t.length = tr.length + 12 then c.x else if t.length = tr.length + 16 then c.w else O1 t
  refine ⟨O, ?_, ?_⟩
  · simp [verifierChallenges, challengeScalar, commitPoint, commitScalar, O]
  · rw [h2 O fun _ => 0, ippChallenges_congr (O' := O1), h1]
    intro t ht
    simp only [ippDomSep, List.length_append, hlen] at ht
    simp only [List.length_cons, List.length_nil] at ht
    simp only [O]
    rw [if_neg (by omega), if_neg (by omega), if_neg (by omega), if_neg (by omega), if_neg (by omega)]

/-- **C115 is not vacuous.** For every verifier without second phase, all values that satisfy its constraints, openings of its commitments and
challenges that branch as required, there is a tree of accepted proofs. -/
theorem r1cs_sound_hypotheses_met (t0 : VState F V) (hd : t0.deferred = []) (g h : V) (G H : List V) (aL aR aO v vb sL sR : List F)
    (lL : aL.length = t0.numVars) (lR : aR.length = t0.numVars) (lO : aO.length = t0.numVars) (lsL : sL.length = t0.numVars) (lv : vb.length = v.length)
    (hsat : Sat t0.numVars t0.cons ⟨fun i => aL.getD i 0, fun i => aR.getD i 0, fun i => aO.getD i 0, fun i => v.getD i 0⟩)
    (hV : t0.V = List.zipWith (fun v vb => v • g + vb • h) v vb)
    (hr : ∀ lc ∈ t0.cons, ∀ x ∈ lc, x.1.InRange t0.numVars t0.V.length) (h32 : Nat.clog 2 t0.numVars < 32)
    (hG : nextPow2 t0.numVars ≤ G.length) (hH : nextPow2 t0.numVars ≤ H.length)
    (y z : Nat → F) (u : Fin 5 → F) (x : Fin 6 → F) (w : Fin 2 → F) (x4 : Fin 4 → F)
    (y0 : ∀ i < nextPow2 t0.numVars, y i ≠ 0) (yd : ∀ i < nextPow2 t0.numVars, ∀ i' < nextPow2 t0.numVars, y i = y i' → i = i')
    (zd : ∀ j < t0.cons.length + 1, ∀ j' < t0.cons.length + 1, z j = z j' → j = j') (u0 : ∀ a, u a ≠ 0) (ud : Function.Injective u)
    (x0 : ∀ b, x b ≠ 0) (xd : Function.Injective x) (w0 : ∀ m, w m ≠ 0) (wd : w 0 ≠ w 1) (x40 : ∀ i, x4 i ≠ 0)
    (x4d : ∀ i j, x4 i * x4 i = x4 j * x4 j → i = j) :
    ∃ (T : STree F V) (t1 : VState F V) (W : Nat → Weights F), t1.numVars = t0.numVars ∧ t1.cons = t0.cons ∧ t1.V = t0.V ∧
      T.Good (nextPow2 t1.numVars) (t1.cons.length + 1) (Nat.clog 2 t1.numVars) ∧
      T.Accepted t0 t1 g h G H (nextPow2 t1.numVars) (t1.cons.length + 1) ∧
      ∀ j < t1.cons.length + 1, flatten t1.numVars t1.V.length t1.cons (T.z j) = .ok (W j) := by
  have hVl : t0.V.length = v.length := by rw [hV]; simp [lv]
  let s : PState F V := ⟨[], t0.cons, aL, aR, aO, v, vb, [], none⟩
  have ws : s.WF := ⟨by simp [s, lR, lL], by simp [s, lO, lL], fun i hi => (hsat.gate i (by simpa [s, lL] using hi)).symm, by simp [s], lv⟩
  have hsl : s.aL.length = t0.numVars := lL
  choose W hW using fun j : Nat => flatten_some (z j) hr
  have hWl := fun j => (flatten_ok (hW j)).1
  generalize hN : nextPow2 t0.numVars = N at *
  have hNk : N = 2 ^ Nat.clog 2 t0.numVars := by rw [← hN]; rfl
  let tp (i j : Nat) : Poly6 F := tPoly s.asg t0.numVars (fun e => sL.getD e 0) (fun e => sR.getD e 0) (fun e => (W j).wL.getD e 0)
    (fun e => (W j).wR.getD e 0) (fun e => (W j).wO.getD e 0) (y i)
  let la (i j : Nat) (b : Fin 6) : List F := vec N (lAt s.asg (fun e => sL.getD e 0) (fun e => (W j).wR.getD e 0) (y i) (x b))
  let ra (i j : Nat) (b : Fin 6) : List F := vec N (rAt s.asg (fun e => sR.getD e 0) (fun e => (W j).wL.getD e 0) (fun e => (W j).wO.getD e 0) (y i) (x b))
  let T : STree F V :=
    { AI1 := ev N (G.take N) (fun e => aL.getD e 0) + ev N (H.take N) (fun e => aR.getD e 0)
      AO1 := ev N (G.take N) (fun e => aO.getD e 0)
      S1 := ev N (G.take N) (fun e => uFac t0.numVars 0 e * sL.getD e 0) + ev N (H.take N) (fun e => uFac t0.numVars 0 e * sR.getD e 0)
      AI2 := 0
      AO2 := 0
      S2 := ev N (G.take N) (fun e => (uFac t0.numVars 1 e - uFac t0.numVars 0 e) * sL.getD e 0) +
        ev N (H.take N) (fun e => (uFac t0.numVars 1 e - uFac t0.numVars 0 e) * sR.getD e 0)
      y := y
      z := z
      T1 := fun i j => (tp i j).t1 • g
      T3 := fun i j => (tp i j).t3 • g
      T4 := fun i j => (tp i j).t4 • g
      T5 := fun i j => (tp i j).t5 • g
      T6 := fun i j => (tp i j).t6 • g
      u := fun _ _ => u
      x := fun _ _ _ => x
      tx := fun i j _ b => (tp i j).eval (x b)
      txb := fun i j _ b => Poly6.eval ⟨0, inner (W j).wV vb, 0, 0, 0, 0⟩ (x b)
      eb := fun _ _ _ _ => 0
      w := fun _ _ _ _ => w
      ipp := fun i j a b m => honestFork (w m • g) x4 (Nat.clog 2 t0.numVars) (scaleBy (gFac t0.numVars t0.numVars (u a)) (G.take N))
        (scaleBy (hFac t0.numVars t0.numVars (y i) (u a)) (H.take N)) (la i j b) (ra i j b) }
  let t1 : VState F V := { t0 with pending := none, tr := commitPoint "S1" T.S1 (commitPoint "A_O1" T.AO1 (commitPoint "A_I1" T.AI1
      (t0.tr ++ [.u64 "m" t0.V.length]))) ++ [.domSep "r1cs-1phase"] }
  refine ⟨T, t1, W, rfl, rfl, rfl, ?_, ?_, fun j _ => hW j⟩
  · exact ⟨fun i hi => y0 i (by rw [← hN]; exact hi), fun i hi i' hi' => yd i (by rw [← hN]; exact hi) i' (by rw [← hN]; exact hi'), zd, fun _ _ _ _ => u0, fun _ _ _ _ => ud, fun _ _ _ _ _ => x0,
      fun _ _ _ _ _ => xd, fun _ _ _ _ _ _ => w0, fun _ _ _ _ _ _ => wd, fun _ _ _ _ _ _ _ => honestFork_good _ _ x40 x4d _ _ _ _ _⟩
  intro i hi j hj a b m Ls Rs xs a' b' hp
  have hi : i < N := by rw [← hN]; exact hi
  have lG : (G.take N).length = N := by simp [hG]
  have lH : (H.take N).length = N := by simp [hH]
  have gl : (gFac t0.numVars t0.numVars (u a)).length = N := by simp [gFac, vec, hN]
  have hl : (hFac t0.numVars t0.numVars (y i) (u a)).length = N := by simp [hFac, vec, hN]
  have hgd := honestFork_good (w m • g) x4 x40 x4d (Nat.clog 2 t0.numVars) (scaleBy (gFac t0.numVars t0.numVars (u a)) (G.take N))
        (scaleBy (hFac t0.numVars t0.numVars (y i) (u a)) (H.take N)) (la i j b) (ra i j b)
  have heq := honestFork_eq (w m • g) x4 x40 x4d (Nat.clog 2 t0.numVars) (scaleBy (gFac t0.numVars t0.numVars (u a)) (G.take N))
        (scaleBy (hFac t0.numVars t0.numVars (y i) (u a)) (H.take N)) (la i j b) (ra i j b) (by rw [scaleBy_length _ _ (by omega), lG, hNk])
        (by rw [scaleBy_length _ _ (by omega), lH, hNk]) (by simp [la, vec, hNk]) (by simp [ra, vec, hNk]) _ _ _ _ _ hp
  obtain ⟨l1, l2, l3⟩ := hp.length hgd
  obtain ⟨O, hO1, hO2⟩ := challenges_exist (T.proof i j a b ⟨Ls, Rs, a', b'⟩) t1.tr (T.chal i j a b m) xs (nextPow2 t1.numVars)
    (by simp [STree.proof, l2, l3]) (by simp [STree.proof, l1, l2])
  have hcr : VState.createRandomized O { t0 with tr := commitPoint "S1" T.S1 (commitPoint "A_O1" T.AO1 (commitPoint "A_I1" T.AI1
      (t0.tr ++ [.u64 "m" t0.V.length]))) } = .ok t1 := by
    rw [VState.createRandomized, if_pos (by simp [hd])]
  have hver : ∀ r, verify O t0 (T.proof i j a b ⟨Ls, Rs, a', b'⟩) g h G H r = .ok () := by
    intro r
    rw [verify]
    refine Eq.trans (congrArg (· >>= fun s' => verifyRest O s' t0.numVars (T.proof i j a b ⟨Ls, Rs, a', b'⟩) g h G H r) hcr) ?_
    rw [Res.ok_bind, verifyRest_iff O t1 t0.numVars (T.proof i j a b ⟨Ls, Rs, a', b'⟩) g h G H r (W j) (le_refl _) (by rw [hN.symm] at hG; exact hG)
      (by rw [hN.symm] at hH; exact hH) (by simp only [STree.proof]; exact l2) (by simp [STree.proof, l2, l3]) (by simp only [STree.proof]; omega)
      (T.chal i j a b m) _ (Prod.ext hO1 rfl) (hW j) xs hO2 (hp.ne_zero hgd), if_pos]
    have hpp := pPoint_honest s ws sL sR (W j) (T.chal i j a b m) (y0 i hi) t0.numVars (T.proof i j a b ⟨Ls, Rs, a', b'⟩) h (G.take N) (H.take N) 0 0 0
      ?_ ?_ ?_ (by simp [STree.proof, T])
    · have htg := tGap_honest (V := V) s.asg t0.numVars (W j) vb (T.chal i j a b m) (y0 i hi) v rfl (by rw [← hVl]; exact hWl j) lv
        (fun e => sL.getD e 0) (fun e => sR.getD e 0) (fun e he => hsat.gate e he)
        (by rw [← hVl]; exact Weights.sum_zero (hW j) s.asg hsat.zero)
        (T.proof i j a b ⟨Ls, Rs, a', b'⟩) g h 0 0 0 0 0 (tp i j) rfl (by simp [STree.proof, T]) (by simp [STree.proof, T]) (by simp [STree.proof, T])
        (by simp [STree.proof, T]) (by simp [STree.proof, T]) rfl rfl
      have hV1 : t1.V = List.zipWith (fun v vb => v • g + vb • h) v vb := hV
      have hn1 : t1.numVars = t0.numVars := rfl
      have hin := inner_lr s ws sL sR (by rw [hsl]; exact lsL) (W j) t0.V.length (by rw [hsl]; exact hWl j) (y i) (x b)
      rw [hsl, hN] at hpp hin
      rw [hn1, hV1, htg, smul_zero, add_zero, ippGap, hN, hpp, sub_eq_zero, ippRhs]
      simp only [PathEq] at heq
      rw [msm_hadamard, msm_hadamard]
      refine Eq.trans ?_ heq
      have : inner (la i j b) (ra i j b) = (tp i j).eval (x b) := hin
      rw [this, smul_smul, mul_comm]
      rfl
    · have e1 : ∀ q : List F, q.length = t0.numVars → (fun e => uFac t0.numVars (T.chal i j a b m).u e * q.getD e 0) = fun e => q.getD e 0 := by
        intro q hq; funext e
        simp only [uFac]
        split
        · rw [one_mul]
        · rw [List.getD_eq_default _ _ (by omega), mul_zero]
      rw [hsl, hN]
      simp only [s]
      rw [e1 aL lL, e1 aR lR]
      simp [STree.proof, T]
    · have e1 : ∀ q : List F, q.length = t0.numVars → (fun e => uFac t0.numVars (T.chal i j a b m).u e * q.getD e 0) = fun e => q.getD e 0 := by
        intro q hq; funext e
        simp only [uFac]
        split
        · rw [one_mul]
        · rw [List.getD_eq_default _ _ (by omega), mul_zero]
      rw [hsl, hN]
      simp only [s]
      rw [e1 aO lO]
      simp [STree.proof, T]
    · rw [hsl, hN]
      have e1 : ∀ (q : List F) (B : List V), ev N B (fun e => uFac t0.numVars (T.chal i j a b m).u e * q.getD e 0) =
          ev N B (fun e => uFac t0.numVars 0 e * q.getD e 0) + u a • ev N B (fun e => (uFac t0.numVars 1 e - uFac t0.numVars 0 e) * q.getD e 0) := by
        intro q B
        rw [← map_smul, ← map_add]
        congr 1
        funext e
        simp only [uFac, STree.chal, T, Pi.add_apply, Pi.smul_apply, smul_eq_mul]
        split <;> ring
      rw [e1, e1]
      simp only [STree.proof, T, STree.chal]
      module
  exact ⟨O, 0, 1, zero_ne_one, hcr, hO1, hO2, hver 0, hver 1⟩

end Verif.BP
