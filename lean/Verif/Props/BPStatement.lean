import Verif.Props.BPBinding
import Verif.Props.BPSets
import Verif.Props.BPMerkleLevels
set_option linter.unusedSectionVars false
set_option linter.unusedSimpArgs false
set_option linter.unusedVariables false
/-!
# C203: the statement is not bound by the challenges of a Bulletproof
-/
namespace Verif.BP
variable {F V : Type} [Field F] [AddCommGroup V] [Module F V] [DecidableEq F] [DecidableEq V]

/-- a transcript with every point labelled `T_1` moved by `D` -/
def moveT1 (D : V) : Msg F V → Msg F V
  | .point l P => .point l (if l = "T_1" then P + D else P)
  | m => m

/-- the challenges of a proof whose `T_1` is moved, drawn with `O`, are those of the proof drawn with `moved D O` -/
def moved (D : V) (O : Transcript F V → F) : Transcript F V → F := fun tr => O (tr.map (moveT1 D))

theorem map_moveT1 (D : V) (tr : Transcript F V) (h : ∀ P, Msg.point "T_1" P ∉ tr) : tr.map (moveT1 D) = tr := by
  conv_rhs => rw [← List.map_id tr]
  refine List.map_congr_left fun m hm => ?_
  cases m with
  | point l P =>
    have : l ≠ "T_1" := by rintro rfl; exact h P hm
    simp [moveT1, this]
  | _ => rfl

theorem challenges_moved (D : V) (O : Transcript F V → F) (p : R1CSProof F V) (tr : Transcript F V) :
    verifierChallenges O { p with T1 := p.T1 + D } (tr.map (moveT1 D)) =
      ((verifierChallenges (moved D O) p tr).1, (verifierChallenges (moved D O) p tr).2.map (moveT1 D)) := by
  simp [verifierChallenges, challengeScalar, commitPoint, commitScalar, moved, moveT1]

theorem ipp_moved (D : V) (O : Transcript F V → F) (L R : List V) (tr : Transcript F V) :
    ippChallenges O (tr.map (moveT1 D)) L R =
      ((ippChallenges (moved D O) tr L R).1, (ippChallenges (moved D O) tr L R).2.map (moveT1 D)) := by
  induction L generalizing R tr with
  | nil => simp [ippChallenges]
  | cons P L ih =>
    cases R with
    | nil => simp [ippChallenges]
    | cons Q R =>
      have h : (challengeScalar O "x" (commitPoint "R" Q (commitPoint "L" P (tr.map (moveT1 D))))) =
          ((challengeScalar (moved D O) "x" (commitPoint "R" Q (commitPoint "L" P tr))).1,
            (challengeScalar (moved D O) "x" (commitPoint "R" Q (commitPoint "L" P tr))).2.map (moveT1 D)) := by
        simp [challengeScalar, commitPoint, moved, moveT1]
      simp only [ippChallenges, h, ih]

theorem scalars_moved (D : V) (O : Transcript F V → F) (L R : List V) (n : ℕ) (tr : Transcript F V) :
    ∀ q tr', verificationScalars (moved D O) L R n tr = .ok (q, tr') →
      verificationScalars O L R n (tr.map (moveT1 D)) = .ok (q, tr'.map (moveT1 D)) := by
  intro q tr' h
  have hd : ippDomSep n (tr.map (moveT1 D)) = (ippDomSep n tr).map (moveT1 D) := by simp [ippDomSep, moveT1]
  simp only [verificationScalars, hd, ipp_moved] at h ⊢
  split at h
  · simp at h
  rw [if_neg ‹_›]
  split at h
  · simp at h
  rw [if_neg ‹_›]
  split at h
  · simp at h
  rw [if_neg ‹_›]
  obtain ⟨s, h1, h2⟩ := Res.bind_eq_ok.1 h
  rw [h1]
  simp only [Res.ok_bind, Res.pure_eq, Res.ok.injEq, Prod.mk.injEq] at h2 ⊢
  exact ⟨h2.1, by rw [h2.2]⟩

/-! ## the constant of the last constraint -/

theorem flatTerms_const (e c : F) (lc : LC F) (W : Weights F) :
    flatTerms e (lc ++ [(.one, c)]) W = (flatTerms e lc W >>= fun W => .ok { W with wc := W.wc - e * c }) := by
  induction lc generalizing W with
  | nil => rfl
  | cons t lc ih =>
    obtain ⟨x, a⟩ := t
    cases x with
    | left i => simp only [List.cons_append, flatTerms, ih]; cases addAt W.wL i (e * a) <;> rfl
    | right i => simp only [List.cons_append, flatTerms, ih]; cases addAt W.wR i (e * a) <;> rfl
    | out i => simp only [List.cons_append, flatTerms, ih]; cases addAt W.wO i (e * a) <;> rfl
    | committed i => simp only [List.cons_append, flatTerms, ih]; cases addAt W.wV i (-(e * a)) <;> rfl
    | one => simp only [List.cons_append, flatTerms, ih]

theorem flatLoop_last (z : F) (pre : List (LC F)) (lc : LC F) (e : F) (W : Weights F) :
    flatLoop z e (pre ++ [lc]) W = (flatLoop z e pre W >>= fun W => flatTerms (e * z ^ pre.length) lc W) := by
  induction pre generalizing e W with
  | nil =>
    simp only [List.nil_append, flatLoop, List.length_nil, pow_zero, mul_one, Res.ok_bind]
    cases flatTerms e lc W <;> rfl
  | cons a pre ih =>
    simp only [List.cons_append, flatLoop, ih, List.length_cons]
    cases flatTerms e a W with
    | ok W => simp only [Res.ok_bind]; congr 1; funext W; congr 1; ring
    | err _ => rfl
    | panic => rfl

/-- the weights of two statements that differ in the constant of the last constraint -/
theorem flatten_const (n m : ℕ) (pre : List (LC F)) (lc : LC F) (i i' z : F) (W : Weights F)
    (h : flatten n m (pre ++ [lc ++ [(.one, -i)]]) z = .ok W) :
    flatten n m (pre ++ [lc ++ [(.one, -i')]]) z = .ok { W with wc := W.wc + z ^ (pre.length + 1) * (i' - i) } := by
  simp only [flatten, flatLoop_last, flatTerms_const] at h ⊢
  obtain ⟨W1, h1, h2⟩ := Res.bind_eq_ok.1 h
  obtain ⟨W2, h3, h4⟩ := Res.bind_eq_ok.1 h2
  rw [h1, Res.ok_bind, h3, Res.ok_bind]
  simp only [Res.ok.injEq] at h4 ⊢
  rw [← h4]
  congr 1
  simp only
  ring

/-- the last check, when `T_1` and the constant of the statement are moved -/
theorem msm_moved (c : Chal F) (n n1 : ℕ) (W : Weights F) (p : R1CSProof F V) (r : F) (ipp : List F × List F × List F) (g h : V) (Vs rest : List V)
    (d ω : F) (hV : W.wV.length = Vs.length) (hd : c.x * d + c.x * c.x * ω = 0) (E : V)
    (he : msmUnwrap (verifierScalars c n n1 W p r ipp) ([p.AI1, p.AO1, p.S1, p.AI2, p.AO2, p.S2] ++ Vs ++ [p.T1, p.T3, p.T4, p.T5, p.T6] ++ [g, h] ++ rest) =
      .ok E) :
    msmUnwrap (verifierScalars c n n1 { W with wc := W.wc + ω } { p with T1 := p.T1 + d • g } r ipp)
      ([p.AI1, p.AO1, p.S1, p.AI2, p.AO2, p.S2] ++ Vs ++ [p.T1 + d • g, p.T3, p.T4, p.T5, p.T6] ++ [g, h] ++ rest) = .ok E := by
  simp only [msmUnwrap] at he ⊢
  split at he
  · rename_i hl
    rw [if_pos (by simpa [verifierScalars] using hl)]
    simp only [Res.ok.injEq] at he ⊢
    rw [← he]
    simp only [verifierScalars, List.append_assoc, List.cons_append, List.nil_append, msm_cons]
    rw [msm_append (by simpa using hV), msm_append (by simpa using hV)]
    simp only [msm_cons]
    linear_combination (norm := module) (r * hd) • g
  · simp at he

/-- a verifier of one phase: `pre` are its constraints but the last one, which says that `lc` has the value `y` -/
def stateFor (t : VState F V) (pre : List (LC F)) (lc : LC F) (y : F) : VState F V := { t with cons := pre ++ [lc ++ [(.one, -y)]] }

/-- If a proof is accepted for the value `y` with the hash function `moved (d • g) O`, then the proof whose `T_1` is moved is accepted for another value,
with the hash function `O`; the challenges are the same. -/
theorem accepted_moved (O : Transcript F V → F) (g h : V) (G H : List V) (d r : F) (t : VState F V) (pre : List (LC F)) (lc : LC F) (y : F)
    (hdef : t.deferred = []) (hT : ∀ P, Msg.point "T_1" P ∉ t.tr) (p : R1CSProof F V) (c : Chal F) (xs : List F)
    (hdraw : verifierDraws O (stateFor t pre lc y) { p with T1 := p.T1 + d • g } = .ok (c, xs)) (hx : c.x ≠ 0) (hz : c.z ≠ 0) :
    verifierDraws (moved (d • g) O) (stateFor t pre lc y) p = .ok (c, xs) ∧
    (verify (moved (d • g) O) (stateFor t pre lc y) p g h G H r = .ok () →
    verify O (stateFor t pre lc (y - d / (c.x * c.z ^ (pre.length + 1)))) { p with T1 := p.T1 + d • g } g h G H r = .ok ()) := by
  have hcr : ∀ (O : Transcript F V → F) (y : F) (p : R1CSProof F V), VState.createRandomized O { stateFor t pre lc y with
      tr := commitPoint "S1" p.S1 (commitPoint "A_O1" p.AO1 (commitPoint "A_I1" p.AI1 ((stateFor t pre lc y).tr ++ [.u64 "m" (stateFor t pre lc y).V.length]))) } =
      .ok ⟨t.tr ++ [.u64 "m" t.V.length, .point "A_I1" p.AI1, .point "A_O1" p.AO1, .point "S1" p.S1, .domSep "r1cs-1phase"],
        pre ++ [lc ++ [(.one, -y)]], t.numVars, t.V, [], none⟩ := by
    intro O y p
    simp [VState.createRandomized, stateFor, hdef, commitPoint]
  generalize htr : t.tr ++ [.u64 "m" t.V.length, .point "A_I1" p.AI1, .point "A_O1" p.AO1, .point "S1" p.S1, .domSep "r1cs-1phase"] = tr
  have hmap : tr.map (moveT1 (d • g)) = tr := by
    refine map_moveT1 _ _ fun P hP => ?_
    rw [← htr] at hP
    simp only [List.mem_append, List.mem_cons, Msg.point.injEq, List.not_mem_nil, reduceCtorEq, or_false, false_or] at hP
    rcases hP with hP | hP
    · exact hT P hP
    · simp at hP
  have hch := challenges_moved (d • g) O p tr
  rw [hmap] at hch
  simp only [verifierDraws, hcr, htr, Res.ok_bind, Res.pure_eq, Res.ok.injEq, Prod.mk.injEq] at hdraw ⊢
  rw [hch] at hdraw
  obtain ⟨hc, hxs⟩ := hdraw
  simp only at hc hxs
  refine ⟨⟨hc, ?_⟩, fun hv => ?_⟩
  · have hd : ippDomSep (nextPow2 t.numVars) ((verifierChallenges (moved (d • g) O) p tr).2.map (moveT1 (d • g))) =
        (ippDomSep (nextPow2 t.numVars) (verifierChallenges (moved (d • g) O) p tr).2).map (moveT1 (d • g)) := by simp [ippDomSep, moveT1]
    rw [hd, ipp_moved] at hxs
    exact hxs
  · simp only [verify, hcr, htr, Res.ok_bind, verifyRest] at hv ⊢
    simp only [stateFor] at hv ⊢
    split at hv
    · simp at hv
    rw [if_neg ‹_›]
    rw [hch]
    simp only
    rw [hc] at hv ⊢
    obtain ⟨W, hW, hv⟩ := Res.bind_eq_ok.1 hv
    have hW' := flatten_const t.numVars t.V.length pre lc y (y - d / (c.x * c.z ^ (pre.length + 1))) c.z W hW
    rw [hW']
    simp only [Res.ok_bind]
    split at hv
    · simp at hv
    · simp at hv
    rename_i q tr' hq
    rw [scalars_moved _ _ _ _ _ _ _ _ hq]
    simp only
    obtain ⟨Gp, hG, hv⟩ := Res.bind_eq_ok.1 hv
    obtain ⟨Hp, hH, hv⟩ := Res.bind_eq_ok.1 hv
    obtain ⟨E, hE, hv⟩ := Res.bind_eq_ok.1 hv
    rw [hG, Res.ok_bind, hH, Res.ok_bind]
    have := msm_moved c t.numVars t.numVars W p r q g h t.V (Gp ++ Hp ++ p.ipp.L ++ p.ipp.R) d
      (c.z ^ (pre.length + 1) * ((y - d / (c.x * c.z ^ (pre.length + 1))) - y)) (flatten_ok hW).1.V (by field_simp; ring) E (by
        simpa only [List.append_assoc] using hE)
    simp only [List.append_assoc] at this ⊢
    rw [this, Res.ok_bind]
    exact hv

/-- A gadget whose last constraint says that a linear combination has the value `y`: the rest, `Q`, does not depend on `y`. -/
def claim (Q : VerifierSession F V (LC F)) (y : F) : VerifierSession F V Unit := Q >>= fun v => constrainScalar v y

theorem claim_run (Q : VerifierSession F V (LC F)) (tr : Transcript F V) (y : F) (t : VState F V)
    (h : (claim Q y).runV VState.top (VState.new tr) = .ok ((), t)) :
    ∃ lc t0, t = stateFor t0 t0.cons lc y ∧ ∀ y', (claim Q y').runV VState.top (VState.new tr) = .ok ((), stateFor t0 t0.cons lc y') := by
  have hr : ∀ y, (claim Q y).runV VState.top (VState.new tr) =
      (Q.runV VState.top (VState.new tr)).bind fun q => .ok ((), stateFor q.2 q.2.cons q.1 y) := by
    intro y
    simp only [claim, prog_bind, Prog.runV_bind]
    congr 1
  rw [hr] at h
  obtain ⟨⟨lc, t0⟩, h1, h2⟩ := Res.bind_eq_ok.1 h
  simp only [Res.ok.injEq, Prod.mk.injEq, true_and] at h2
  refine ⟨lc, t0, h2.symm, fun y' => ?_⟩
  rw [hr, h1]
  rfl

/-- **The claim can be chosen after the proof**: `Q y` are the calls of the verifier of the claim `y`.  With enough generators there is a proof that the verifier
accepts, whatever its random value is, for a claim other than `y`, unless one of the challenges is 0. -/
def ChosenAfterwards (O : Transcript F V → F) (g h : V) (tr : Transcript F V) (Q : F → VerifierSession F V Unit) (y : F) : Prop :=
  ∃ n, (∀ y' t, (Q y').runV VState.top (VState.new tr) = .ok ((), t) → t.numVars = n) ∧
    ∀ (ρ : Rand F) (G H : List V), nextPow2 n ≤ G.length → nextPow2 n ≤ H.length → n ≤ 2 ^ 31 →
      ∃ p y' t, (Q y').runV VState.top (VState.new tr) = .ok ((), t) ∧
        ((∀ c xs, verifierDraws O t p = .ok (c, xs) → c.y ≠ 0 ∧ c.z ≠ 0 ∧ c.x ≠ 0 ∧ ∀ x ∈ xs, x ≠ 0) →
          y' ≠ y ∧ ∀ r, verify O t p g h G H r = .ok ())

/-- **C203.**  For every gadget that ends by claiming a value: an honest prover of the claim `y` can make a proof that the verifier accepts for a claim
`y' ≠ y` with the same commitments, unless one of the challenges is 0: `y'` is known only when the proof is there. -/
theorem claim_after_proof (O : Transcript F V → F) (g h : V) (tr : Transcript F V) (hT : ∀ P, Msg.point "T_1" P ∉ tr) (P : ProverSession F (List V))
    (Q : List V → VerifierSession F V (LC F)) (Cs : List V) (y : F) (d : F) (hd : d ≠ 0)
    (honest : HonestAccepted (moved (d • g) O) g h tr P (fun Cs => claim (Q Cs) y) Cs) :
    ChosenAfterwards O g h tr (claim (Q Cs)) y := by
  obtain ⟨s, -, ⟨t, ht, hn, hdef, -⟩, hacc⟩ := honest
  obtain ⟨lc, t0, rfl, hall⟩ := claim_run (Q Cs) tr y t ht
  refine ⟨s.aL.length, fun y' t' ht' => ?_, fun ρ G H hG hH h31 => ?_⟩
  · rw [hall] at ht'
    simp only [Res.ok.injEq, Prod.mk.injEq, true_and] at ht'
    rw [← ht', ← hn]
    rfl
  obtain ⟨p, s', -, t1, ht1, hv⟩ := hacc ρ G H hG hH h31
  rw [ht] at ht1
  simp only [Res.ok.injEq, Prod.mk.injEq, true_and] at ht1
  subst ht1
  have hT0 : ∀ P, Msg.point "T_1" P ∉ t0.tr := by
    intro P hP
    obtain ⟨l, -, hl⟩ := runV_top_tr _ _ _ _ ht
    change t0.tr = _ at hl
    rw [hl] at hP
    simp [VState.new, hT] at hP
  -- the challenges do not depend on the claim
  have hdr : ∀ y', verifierDraws O (stateFor t0 t0.cons lc y') { p with T1 := p.T1 + d • g } =
      verifierDraws O (stateFor t0 t0.cons lc y) { p with T1 := p.T1 + d • g } := by
    intro y'
    have hdef' : t0.deferred = [] := hdef
    simp [verifierDraws, stateFor, VState.createRandomized, hdef']
  obtain ⟨⟨c, xs⟩, hc⟩ : ∃ q, verifierDraws O (stateFor t0 t0.cons lc y) { p with T1 := p.T1 + d • g } = .ok q := by
    have hdef' : t0.deferred = [] := hdef
    simp [verifierDraws, stateFor, VState.createRandomized, hdef']
  refine ⟨{ p with T1 := p.T1 + d • g }, y - d / (c.x * c.z ^ (t0.cons.length + 1)), _, hall _, fun hne => ?_⟩
  rw [hdr, hc] at hne
  obtain ⟨hy, hz, hx, hxs⟩ := hne c xs rfl
  refine ⟨fun h => ?_, fun r => ?_⟩
  · have : d / (c.x * c.z ^ (t0.cons.length + 1)) = 0 := by linear_combination -h
    rw [div_eq_zero_iff] at this
    rcases this with h | h
    · exact hd h
    · exact mul_ne_zero hx (pow_ne_zero _ hz) h
  · obtain ⟨h1, h2⟩ := accepted_moved O g h G H d r t0 t0.cons lc y hdef hT0 p c xs hc hx hz
    refine h2 (hv ?_ r)
    intro c' xs' h'
    rw [h1] at h'
    simp only [Res.ok.injEq, Prod.mk.injEq] at h'
    rw [← h'.1, ← h'.2]
    exact ⟨hy, hxs⟩

/-! ## MiMC, Poseidon and Merkle trees -/

/-- all of `verify_mimc_preimage` but its last constraint -/
def mimcClaim (constants : List F) (Cs : List V) : VerifierSession F V (LC F) := do
  let l ← commitFirst Cs
  let r ← commitFirst l.2
  enforceMimc (LC.ofVar l.1) (LC.ofVar r.1) constants

theorem prog_assoc {T R α β γ : Type} (p : Prog F T R α) (f : α → Prog F T R β) (k : β → Prog F T R γ) :
    (p >>= f) >>= k = p >>= fun a => f a >>= k := by
  change (p.bind f).bind k = p.bind fun a => (f a).bind k
  induction p with
  | pure a => rfl
  | fail e => rfl
  | panic => rfl
  | multiply l r q ih => simp only [Prog.bind, ih]
  | allocate l q ih => simp only [Prog.bind, ih]
  | allocMult l q ih => simp only [Prog.bind, ih]
  | constrain l q ih => simp only [Prog.bind, ih]
  | evalLc l q ih => simp only [Prog.bind, ih]
  | ext l q ih => simp only [Prog.bind, ih]

theorem enforceMimc_run (constants : List F) : ∀ (l r : LC F) (t : VState F V), ∃ lc t',
    (enforceMimc l r constants : Prog F (Top F V) Var (LC F)).runV VState.top t = .ok (lc, t') ∧ t'.numVars = t.numVars + 2 * constants.length := by
  induction constants with
  | nil => intro l r t; exact ⟨l, t, rfl, rfl⟩
  | cons c cs ih =>
    intro l r t
    simp only [enforceMimc, csMultiply, prog_bind, Prog.bind, Prog.runV]
    obtain ⟨lc, t', h1, h2⟩ := ih (LC.add (LC.ofVar ((t.multiply (LC.add l [(.one, c)]) (LC.add l [(.one, c)])).2.multiply
      (LC.ofVar (t.multiply (LC.add l [(.one, c)]) (LC.add l [(.one, c)])).1.2.2) (LC.ofVar (t.multiply (LC.add l [(.one, c)]) (LC.add l [(.one, c)])).1.1)).1.2.2) r) l
      ((t.multiply (LC.add l [(.one, c)]) (LC.add l [(.one, c)])).2.multiply
      (LC.ofVar (t.multiply (LC.add l [(.one, c)]) (LC.add l [(.one, c)])).1.2.2) (LC.ofVar (t.multiply (LC.add l [(.one, c)]) (LC.add l [(.one, c)])).1.1)).2
    refine ⟨lc, t', h1, ?_⟩
    rw [h2]
    simp only [VState.multiply, VState.allocVars, List.length_cons]
    omega

theorem mimc_is_claim (constants : List F) (Cs : List V) (y : F) : verifyMimc y constants Cs = claim (mimcClaim constants Cs) y := by
  simp only [verifyMimc, mimcClaim, claim, mimcGadget, prog_assoc]

/-- **C203, MiMC.**  The prover of a preimage of one image can choose the proof so that `verify_mimc_preimage` accepts it for another image: then the committed
values are not a preimage of it, and whoever knows values in the commitments that are knows a relation between the generators `g` and `h`. -/
theorem mimc_image_after_proof (O : Transcript F V → F) (g h : V) (tr : Transcript F V) (hT : ∀ P, Msg.point "T_1" P ∉ tr) (a b α β : F)
    (constants : List F) (ρ : Rand F) (G H : List V) (hG : nextPow2 (2 * constants.length) ≤ G.length) (hH : nextPow2 (2 * constants.length) ≤ H.length)
    (h31 : 2 * constants.length ≤ 2 ^ 31) :
    let Cs := [a • g + α • h, b • g + β • h]
    ∃ p image t, (verifyMimc image constants Cs).runV VState.top (VState.new tr) = .ok ((), t) ∧
      ((∀ c xs, verifierDraws O t p = .ok (c, xs) → c.y ≠ 0 ∧ c.z ≠ 0 ∧ c.x ≠ 0 ∧ ∀ x ∈ xs, x ≠ 0) →
        (∀ r, verify O t p g h G H r = .ok ()) ∧ mimc a b constants ≠ image ∧
        ∀ a' b' α' β', Cs = [a' • g + α' • h, b' • g + β' • h] → mimc a' b' constants = image →
          (a - a') • g + (α - α') • h = 0 ∧ (b - b') • g + (β - β') • h = 0 ∧ (a - a' ≠ 0 ∨ b - b' ≠ 0)) := by
  intro Cs
  have honest := (mimc_complete (moved ((1 : F) • g) O) tr g h a b α β constants).1
  have e : (verifyMimc (V := V) (mimc a b constants) constants) = fun Cs => claim (mimcClaim constants Cs) (mimc a b constants) := by
    funext Cs; exact mimc_is_claim _ _ _
  rw [e] at honest
  obtain ⟨n, hn, hp⟩ := claim_after_proof O g h tr hT _ _ Cs _ 1 one_ne_zero honest
  have hnum : n = 2 * constants.length := by
    obtain ⟨lc, t', hr, ht'⟩ := enforceMimc_run constants (LC.ofVar (.committed 0)) (LC.ofVar (.committed 1))
      { (VState.new tr : VState F V) with V := Cs, tr := commitPoint "V" (b • g + β • h) (commitPoint "V" (a • g + α • h) (VState.new tr).tr) }
    have hrun : (mimcClaim constants Cs).runV VState.top (VState.new tr) = .ok (lc, t') := hr
    have := hn 0 (stateFor t' t'.cons lc 0) (by
      simp only [claim, prog_bind, Prog.runV_bind, hrun]
      rfl)
    rw [← this]
    change t'.numVars = _
    rw [ht']
    simp [VState.new]
  subst hnum
  obtain ⟨p, y', t, hr, hacc⟩ := hp ρ G H hG hH h31
  refine ⟨p, y', t, by rw [mimc_is_claim]; exact hr, fun hne => ?_⟩
  obtain ⟨h1, h2⟩ := hacc hne
  refine ⟨h2, fun h => h1 h.symm, fun a' b' α' β' hC hm => ?_⟩
  simp only [Cs, List.cons.injEq, and_true] at hC
  refine ⟨?_, ?_, ?_⟩
  · linear_combination (norm := module) hC.1
  · linear_combination (norm := module) hC.2
  · by_contra hcon
    simp only [not_or, not_not, sub_eq_zero] at hcon
    rw [← hcon.1, ← hcon.2] at hm
    exact h1 hm.symm

/-- all of the verifiers of Poseidon preimages but their last constraint -/
def poseidonClaim (k : Nat) (p : PoseidonParams F) (sb : Sbox) (g h : V) (Cs : List V) : VerifierSession F V (LC F) := do
  let q ← commitMany k Cs
  let cap ← allocCapV g h (capConst k)
  hashConstraints k (permutationConstraints p sb) (q.1.map LC.ofVar) (LC.ofVar cap)

theorem poseidon_is_claim (k : Nat) (p : PoseidonParams F) (sb : Sbox) (g h : V) (Cs : List V) :
    (fun y => verifyPoseidon k p sb g h y Cs) = claim (poseidonClaim k p sb g h Cs) := by
  funext y
  simp only [verifyPoseidon, poseidonClaim, claim, hashGadget, prog_assoc]

/-- **C203, Poseidon.**  The same for the preimages of Poseidon hashes. -/
theorem poseidon_image_after_proof (O : Transcript F V → F) (tr : Transcript F V) (hT : ∀ P, Msg.point "T_1" P ∉ tr) (g h : V) (k : Nat)
    (p : PoseidonParams F) (sb : Sbox) (hk0 : 0 < k) (preimage blindings : List F) (hl : blindings.length = k) (image : F)
    (him : poseidonHash k p sb preimage = .ok image) (hinv : sb = .inverse → NoZeroInverse k p preimage) :
    ChosenAfterwards O g h tr (fun y => verifyPoseidon k p sb g h y (List.zipWith (fun x r => x • g + r • h) preimage blindings)) image := by
  have honest := poseidon_complete (moved ((1 : F) • g) O) tr g h k p sb hk0 preimage (some blindings) none (.inl rfl) hl image him hinv
  have e : verifyPoseidon k p sb g h image = fun Cs => claim (poseidonClaim k p sb g h Cs) image := by
    funext Cs; exact congrFun (poseidon_is_claim k p sb g h Cs) image
  rw [e] at honest
  have := claim_after_proof O g h tr hT _ _ _ _ 1 one_ne_zero honest
  rw [poseidon_is_claim]
  exact this

/-- all of the verifiers of a leaf but their last constraint -/
def leafClaim (a : Arity) (rep : F → Nat) (modBytes : Nat) (p : PoseidonParams F) (sb : Sbox) (c : Nat) (capVar : Option Var) (g h : V) (depth : Nat)
    (leafVal : Option F) (Cs : List V) : VerifierSession F V (LC F) := do
  let ci ← commitFirst Cs
  let l ← commitLeafV leafVal ci.2
  let q ← commitMany l.2.length l.2
  let cap ← setupV g h c capVar
  let q ← merkleLoop a.bits a.level (a.digit rep modBytes depth none) (merkleHashConstraints (2 ^ a.bits) p sb cap) (a.rounds depth) 0 1 [(ci.1, -1)] l.1
    q.1.reverse
  csConstrain q.1
  pure q.2

theorem leaf_is_claim (a : Arity) (rep : F → Nat) (modBytes : Nat) (p : PoseidonParams F) (sb : Sbox) (c : Nat) (capVar : Option Var) (g h : V) (depth : Nat)
    (leafVal : Option F) (Cs : List V) :
    (fun y => verifyLeaf a rep modBytes p sb c capVar g h y depth leafVal Cs) = claim (leafClaim a rep modBytes p sb c capVar g h depth leafVal Cs) := by
  funext y
  simp only [verifyLeaf, leafClaim, claim, verifGadget, merkleGadget, prog_assoc, pure_seq]

/-- **C203, Merkle trees.**  The same for the leaves of a tree: the claim is its root. -/
theorem root_after_proof (O : Transcript F V → F) (tr : Transcript F V) (hT : ∀ P, Msg.point "T_1" P ∉ tr) (g h : V) {rep : F → Nat} {q : Nat}
    (can : Canon q rep) (a : Arity) (modBytes : Nat) (p : PoseidonParams F) (sb : Sbox) (hw : a.num + 1 = p.width) (c : Nat) (leaf index : F) (hide : Bool)
    (blindings : List F) (hbl : blindings.length = if hide then 2 else 1) (proof : List (List F)) (root : F) (depth : Nat)
    (rnd : Nat → F) (hm : proof.length ≤ a.rounds depth) (hm4 : a = .four → proof.length ≤ 4 * modBytes) (hp : ∀ x ∈ proof, x.length = a.num - 1)
    (hidx : rep index < a.num ^ proof.length)
    (hroot : climb (poseidonOf p sb (c : F)) (positions a.num proof.length (rep index)) proof.reverse leaf = root)
    (hinv : sb = .inverse → NoZeroNodes p (c : F) (climbNodes (poseidonOf p sb (c : F)) (positions a.num proof.length (rep index)) proof.reverse leaf)) :
    ChosenAfterwards O g h tr
      (fun y => verifyLeaf a rep modBytes p sb c none g h y depth (if hide then none else some leaf) (leafCommitments g h leaf index hide blindings proof rnd)) root := by
  have honest := leaf_complete (moved ((1 : F) • g) O) tr g h can a modBytes p sb hw c leaf index hide (some blindings) none (.inl rfl) hbl proof root depth rnd
    hm hm4 hp hidx hroot hinv
  have e : verifyLeaf a rep modBytes p sb c none g h root depth (if hide then none else some leaf) =
      fun Cs => claim (leafClaim a rep modBytes p sb c none g h depth (if hide then none else some leaf) Cs) root := by
    funext Cs; exact congrFun (leaf_is_claim a rep modBytes p sb c none g h depth _ Cs) root
  rw [e] at honest
  have := claim_after_proof O g h tr hT _ _ _ _ 1 one_ne_zero honest
  rw [leaf_is_claim]
  exact this

/-! ## A concrete case -/

theorem ipp_ones (L R : List V) (tr : Transcript F V) : ∀ x ∈ (ippChallenges (fun _ => (1 : F)) tr L R).1, x ≠ 0 := by
  induction L generalizing R tr with
  | nil => simp [ippChallenges]
  | cons P L ih =>
    cases R with
    | nil => simp [ippChallenges]
    | cons Q R =>
      intro x hx
      simp only [ippChallenges, List.mem_cons] at hx
      rcases hx with rfl | hx
      · exact one_ne_zero
      · exact ih _ _ _ hx

open Verif.Toy in
/-- the challenges are not 0 for the hash function that is always 1: the preimage `(4, 5)` is committed, and a proof for another image is accepted -/
theorem mimc_image_after_proof_met : ∃ p image t,
    (verifyMimc image [1, 2, 3] [(4 : ZMod 101) * 2 + 7 * 3, 5 * 2 + 8 * 3]).runV VState.top (VState.new []) = .ok ((), t) ∧
      (∀ r, verify (fun _ => (1 : ZMod 101)) t p 2 3 [1, 2, 3, 4, 5, 6, 7, 8] [11, 12, 13, 14, 15, 16, 17, 18] r = .ok ()) ∧ mimc 4 5 [1, 2, 3] ≠ image := by
  obtain ⟨p, image, t, h1, h2⟩ := mimc_image_after_proof (fun _ => (1 : ZMod 101)) (2 : ZMod 101) 3 [] (by simp) 4 5 7 8 [1, 2, 3]
    ⟨1, 2, 3, fun i => i, fun i => 2 * i, 4, 5, 6, fun i => i, fun i => i, 1, 2, 3, 4, 5⟩ [1, 2, 3, 4, 5, 6, 7, 8] [11, 12, 13, 14, 15, 16, 17, 18]
    (by decide) (by decide) (by decide)
  refine ⟨p, image, t, h1, ?_⟩
  obtain ⟨h3, h4, -⟩ := h2 (by
    intro c xs hc
    simp only [verifierDraws] at hc
    obtain ⟨t', -, hc⟩ := Res.bind_eq_ok.1 hc
    simp only [Res.pure_eq, Res.ok.injEq, Prod.mk.injEq] at hc
    rw [← hc.1, ← hc.2]
    exact ⟨one_ne_zero, one_ne_zero, one_ne_zero, ipp_ones _ _ _⟩)
  exact ⟨h3, h4⟩
end Verif.BP
