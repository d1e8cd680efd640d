import Verif.Props.BPProg
import Verif.Props.BPFlat
set_option linter.unusedSectionVars false
set_option linter.unusedSimpArgs false
set_option linter.unusedVariables false
/-!
# Constraint systems: completeness (C113)
-/
namespace Verif.BP
variable {F V : Type} [Field F] [AddCommGroup V] [Module F V] [DecidableEq F] [DecidableEq V]

/-- the values of a prover -/
def PState.asg (s : PState F V) : Asg F := ⟨fun i => s.aL.getD i 0, fun i => s.aR.getD i 0, fun i => s.aO.getD i 0, fun i => s.v.getD i 0⟩

/-! ## The second phase does not touch the values of the first one -/

/-- `s'` has the first `n1` multipliers of `s` -/
structure Frozen (n1 : Nat) (s s' : PState F V) : Prop where
  len : n1 ≤ s'.aL.length
  L : s'.aL.take n1 = s.aL.take n1
  R : s'.aR.take n1 = s.aR.take n1
  O : s'.aO.take n1 = s.aO.take n1
  pend : ∀ i, s'.pending = some i → n1 ≤ i

theorem Frozen.allocVars {n1 : Nat} {s s' : PState F V} (f : Frozen n1 s s') (w : s'.WF) (l r o : F) : Frozen n1 s (s'.allocVars l r o).2 := by
  have h := f.len
  refine ⟨?_, ?_, ?_, ?_, f.pend⟩
  · simp [PState.allocVars]; omega
  · simp only [PState.allocVars]; rw [List.take_append_of_le_length h, f.L]
  · simp only [PState.allocVars]; rw [List.take_append_of_le_length (by rw [w.lenR]; exact h), f.R]
  · simp only [PState.allocVars]; rw [List.take_append_of_le_length (by rw [w.lenO]; exact h), f.O]

theorem Frozen.allocate {n1 : Nat} {s s' s₁ : PState F V} (f : Frozen n1 s s') (w : s'.WF) {a : Option F} {x : Var} (h : s'.allocate a = .ok (x, s₁)) :
    Frozen n1 s s₁ := by
  have hl := f.len
  cases a with
  | none => simp [PState.allocate] at h
  | some c =>
    cases hp : s'.pending with
    | none =>
      simp only [PState.allocate, hp, Res.ok.injEq, Prod.mk.injEq] at h
      obtain ⟨rfl, rfl⟩ := h
      have := f.allocVars w c 0 0
      refine ⟨this.len, this.L, this.R, this.O, ?_⟩
      intro i hi
      simp only [Option.some.injEq] at hi
      omega
    | some i =>
      have hi := w.pend i hp
      have hn := f.pend i hp
      simp only [PState.allocate, hp] at h
      rw [if_pos (by rw [w.lenR]; exact hi)] at h
      have e1 : s'.aL[i]? = some s'.aL[i] := List.getElem?_eq_getElem hi
      have e2 : (s'.aR.set i c)[i]? = some c := by rw [List.getElem?_set_self]; rw [w.lenR]; exact hi
      simp only [e1, e2, Res.unwrap_some, Res.ok_bind] at h
      rw [if_pos (by rw [w.lenO]; exact hi)] at h
      simp only [Res.ok.injEq, Prod.mk.injEq] at h
      obtain ⟨rfl, rfl⟩ := h
      refine ⟨hl, f.L, ?_, ?_, by simp⟩
      · simp only; rw [List.take_set_of_le hn, f.R]
      · simp only; rw [List.take_set_of_le hn, f.O]

theorem Frozen.run {n1 : Nat} (O : Transcript F V → F) (p : Callback F) : ∀ (s s' s₁ : PState F V) (a : Unit), Frozen n1 s s' → s'.WF →
    p.runP (PState.challenge O) s' = .ok (a, s₁) → Frozen n1 s s₁ ∧ s₁.WF := by
  induction p with
  | pure a0 => intro s s' s₁ a f w e; simp only [Prog.runP, Res.ok.injEq, Prod.mk.injEq] at e; obtain ⟨-, rfl⟩ := e; exact ⟨f, w⟩
  | fail e0 => intro s s' s₁ a f w e; simp [Prog.runP] at e
  | panic => intro s s' s₁ a f w e; simp [Prog.runP] at e
  | multiply l r k ih =>
    intro s s' s₁ a f w e
    simp only [Prog.runP] at e
    obtain ⟨⟨x, s2⟩, e1, e⟩ := Res.bind_eq_ok.1 e
    simp only [PState.multiply] at e1
    obtain ⟨lv, -, e1⟩ := Res.bind_eq_ok.1 e1
    obtain ⟨rv, -, e1⟩ := Res.bind_eq_ok.1 e1
    simp only [Res.pure_eq, Res.ok.injEq, Prod.mk.injEq] at e1
    obtain ⟨rfl, rfl⟩ := e1
    have f' := f.allocVars w lv rv (lv * rv)
    have w' := w.allocVars lv rv
    refine ih _ _ _ _ _ ?_ ?_ e
    · exact ⟨f'.len, f'.L, f'.R, f'.O, f'.pend⟩
    · exact ⟨w'.lenR, w'.lenO, w'.gate, w'.pend, w'.lenB⟩
  | allocate c k ih =>
    intro s s' s₁ a f w e
    simp only [Prog.runP] at e
    obtain ⟨⟨x, s2⟩, e1, e⟩ := Res.bind_eq_ok.1 e
    exact ih _ _ _ _ _ (f.allocate w e1) (w.allocate e1).1 e
  | allocMult c k ih =>
    intro s s' s₁ a f w e
    simp only [Prog.runP] at e
    obtain ⟨⟨x, s2⟩, e1, e⟩ := Res.bind_eq_ok.1 e
    cases c with
    | none => simp [PState.allocMult] at e1
    | some c =>
      obtain ⟨l, r⟩ := c
      simp only [PState.allocMult, Res.ok.injEq] at e1
      have hs : s2 = (s'.allocVars l r (l * r)).2 := by rw [e1]
      subst hs
      exact ih _ _ _ _ _ (f.allocVars w _ _ _) (w.allocVars _ _) e
  | constrain lc k ih =>
    intro s s' s₁ a f w e
    simp only [Prog.runP] at e
    exact ih _ _ { s' with cons := s'.cons ++ [lc] } _ _ ⟨f.len, f.L, f.R, f.O, f.pend⟩ ⟨w.lenR, w.lenO, w.gate, w.pend, w.lenB⟩ e
  | evalLc lc k ih =>
    intro s s' s₁ a f w e
    simp only [Prog.runP] at e
    obtain ⟨x, -, e⟩ := Res.bind_eq_ok.1 e
    exact ih _ _ _ _ _ f w e
  | ext c k ih =>
    intro s s' s₁ a f w e
    simp only [Prog.runP] at e
    obtain ⟨⟨x, s2⟩, e1, e⟩ := Res.bind_eq_ok.1 e
    simp only [PState.challenge, Res.ok.injEq, Prod.mk.injEq] at e1
    obtain ⟨rfl, rfl⟩ := e1
    exact ih _ _ { s' with tr := (challengeScalar O c s'.tr).2 } _ _ ⟨f.len, f.L, f.R, f.O, f.pend⟩ ⟨w.lenR, w.lenO, w.gate, w.pend, w.lenB⟩ e

theorem Frozen.callbacks {n1 : Nat} (O : Transcript F V → F) (ps : List (Callback F)) : ∀ (s s' s₁ : PState F V), Frozen n1 s s' → s'.WF →
    runCallbacksP O ps s' = .ok s₁ → Frozen n1 s s₁ ∧ s₁.WF := by
  induction ps with
  | nil => intro s s' s₁ f w e; simp only [runCallbacksP, Res.ok.injEq] at e; subst e; exact ⟨f, w⟩
  | cons p ps ih =>
    intro s s' s₁ f w e
    simp only [runCallbacksP] at e
    obtain ⟨⟨x, s2⟩, e1, e⟩ := Res.bind_eq_ok.1 e
    obtain ⟨f', w'⟩ := Frozen.run O p _ _ _ _ f w e1
    exact ih _ _ _ f' w' e

theorem Frozen.createRandomized (O : Transcript F V → F) {s s₁ : PState F V} (w : s.WF) (e : s.createRandomized O = .ok s₁) :
    Frozen s.aL.length s s₁ ∧ s₁.WF := by
  simp only [PState.createRandomized] at e
  by_cases h0 : s.deferred.length = 0
  · rw [if_pos h0] at e
    simp only [Res.ok.injEq] at e
    subst e
    exact ⟨⟨le_refl _, rfl, rfl, rfl, by simp⟩, ⟨w.lenR, w.lenO, w.gate, by simp, w.lenB⟩⟩
  · rw [if_neg h0] at e
    refine Frozen.callbacks O s.deferred _ _ _ ?_ ?_ e
    · exact ⟨le_refl _, rfl, rfl, rfl, by simp⟩
    · exact ⟨w.lenR, w.lenO, w.gate, by simp, w.lenB⟩

/-! ## Commitments of the two phases -/

theorem two_phase (u : F) (a : List F) (n n1 : Nat) (G : List V) (ha : a.length = n) (h1 : n1 ≤ n) (h2 : n ≤ G.length) :
    msm (a.take n1) (G.take n1) + u • msm (a.drop n1) ((G.drop n1).take (n - n1)) =
      ev G.length G fun i => uFac n1 u i * a.getD i 0 := by
  have eG : G = G.take n1 ++ (G.drop n1).take (n - n1) ++ G.drop n := by
    rw [List.append_assoc]
    have : G.drop n = (G.drop n1).drop (n - n1) := by rw [List.drop_drop]; congr 1; omega
    rw [this, List.take_append_drop, List.take_append_drop]
  rw [ev_apply]
  have ev1 : (vec G.length fun i => uFac n1 u i * a.getD i 0) =
      vec n1 (fun i => a.getD i 0) ++ vec (n - n1) (fun i => u * a.getD (n1 + i) 0) ++ vec (G.length - n) (fun _ => 0) := by
    rw [vec_append, vec_append, show n1 + (n - n1) + (G.length - n) = G.length by omega]
    apply vec_congr
    intro i hi
    simp only [uFac]
    by_cases c1 : i < n1
    · rw [if_pos c1, if_pos (by omega), if_pos c1, one_mul]
    · rw [if_neg c1]
      by_cases c2 : i < n
      · rw [if_pos (by omega), if_neg c1, show n1 + (i - n1) = i by omega]
      · rw [if_neg (by omega), List.getD_eq_default _ _ (by omega), mul_zero]
  rw [ev1]
  conv_rhs => arg 2; rw [eG]
  rw [msm_append (by simp; omega), msm_append (by simp; omega)]
  have z : msm (vec (G.length - n) fun _ => (0 : F)) (G.drop n) = 0 := by
    rw [msm_vec _ _ _ (by simp)]; simp
  have e1 : vec n1 (fun i => a.getD i 0) = a.take n1 := by
    conv_rhs => rw [vec_getD ha, vec_take _ _ _ h1]
  have e2 : vec (n - n1) (fun i => u * a.getD (n1 + i) 0) = (a.drop n1).map fun y => u * y := by
    conv_rhs => rw [vec_getD ha, vec_drop _ _ _ h1, vec_map]
  rw [z, e1, e2, msm_map_mul, add_zero]

theorem two_phase_rand (u : F) (f1 f2 : Nat → F) (n n1 : Nat) (G : List V) (h1 : n1 ≤ n) (h2 : n ≤ G.length) :
    msm (randVec n1 f1) (G.take n1) + u • msm (randVec (n - n1) f2) ((G.drop n1).take (n - n1)) =
      ev G.length G fun i => uFac n1 u i * (randVec n1 f1 ++ randVec (n - n1) f2).getD i 0 := by
  have := two_phase u (randVec n1 f1 ++ randVec (n - n1) f2) n n1 G (by simp [randVec]; omega) h1 h2
  have l1 : (randVec n1 f1).length = n1 := by simp [randVec]
  rw [← this]
  congr 2
  · rw [List.take_append_of_le_length (by omega), List.take_of_length_le (by omega)]
  · have : (randVec n1 f1 ++ randVec (n - n1) f2).drop n1 = randVec (n - n1) f2 := by
      rw [List.drop_append_of_le_length (by omega), List.drop_of_length_le (by omega), List.nil_append]
    rw [this]

/-! ## The honest polynomials -/

/-- entry `i` of `l(x)` -/
def lAt (A : Asg F) (sL : Nat → F) (wR : Nat → F) (y x : F) (i : Nat) : F :=
  x * ((A.aL i + y⁻¹ ^ i * wR i) + x * (A.aO i + x * sL i))

/-- entry `i` of `r(x)` -/
def rAt (A : Asg F) (sR : Nat → F) (wL wO : Nat → F) (y x : F) (i : Nat) : F :=
  (wO i - y ^ i) + x * ((y ^ i * A.aR i + wL i) + x * (x * (y ^ i * sR i)))

theorem sum_lin {n : Nat} (f : Nat → F) (c : F) : c * ∑ i ∈ Finset.range n, f i = ∑ i ∈ Finset.range n, c * f i := Finset.mul_sum _ _ _

/-- the coefficients of `t(x)` -/
def tPoly (A : Asg F) (n : Nat) (sL sR wL wR wO : Nat → F) (y : F) : Poly6 F :=
  ⟨∑ i ∈ Finset.range n, (A.aL i + y⁻¹ ^ i * wR i) * (wO i - y ^ i),
   ∑ i ∈ Finset.range n, (A.aL i + y⁻¹ ^ i * wR i) * (y ^ i * A.aR i + wL i) + ∑ i ∈ Finset.range n, A.aO i * (wO i - y ^ i),
   ∑ i ∈ Finset.range n, A.aO i * (y ^ i * A.aR i + wL i) + ∑ i ∈ Finset.range n, sL i * (wO i - y ^ i),
   ∑ i ∈ Finset.range n, (A.aL i + y⁻¹ ^ i * wR i) * (y ^ i * sR i) + ∑ i ∈ Finset.range n, sL i * (y ^ i * A.aR i + wL i),
   ∑ i ∈ Finset.range n, A.aO i * (y ^ i * sR i),
   ∑ i ∈ Finset.range n, sL i * (y ^ i * sR i)⟩

theorem tPoly_eval (A : Asg F) (n : Nat) (sL sR wL wR wO : Nat → F) (y x : F) :
    (tPoly A n sL sR wL wR wO y).eval x = ∑ i ∈ Finset.range n, lAt A sL wR y x i * rAt A sR wL wO y x i := by
  simp only [tPoly, Poly6.eval, ← Finset.sum_add_distrib, sum_lin]
  apply Finset.sum_congr rfl
  intro i _
  simp only [lAt, rAt]
  ring

/-- the coefficient of `x²` is what the constraints say -/
theorem t2_eq (A : Asg F) (n m : Nat) (W : Weights F) (hW : W.Len n m) (c : Chal F) (hy : c.y ≠ 0) (sL sR : Nat → F)
    (hg : ∀ i < n, A.aL i * A.aR i = A.aO i) :
    (tPoly A n sL sR (fun i => W.wL.getD i 0) (fun i => W.wR.getD i 0) (fun i => W.wO.getD i 0) c.y).t2 =
      W.sum n m A + inner W.wV (vec m A.v) + W.wc + delta c n W := by
  have e1 : inner W.wL (vec n A.aL) = ∑ i ∈ Finset.range n, W.wL.getD i 0 * A.aL i := by
    conv_lhs => rw [vec_getD hW.L]
    rw [inner_vec]
  have e2 : inner W.wR (vec n A.aR) = ∑ i ∈ Finset.range n, W.wR.getD i 0 * A.aR i := by
    conv_lhs => rw [vec_getD hW.R]
    rw [inner_vec]
  have e3 : inner W.wO (vec n A.aO) = ∑ i ∈ Finset.range n, W.wO.getD i 0 * A.aO i := by
    conv_lhs => rw [vec_getD hW.O]
    rw [inner_vec]
  simp only [tPoly, Weights.sum, delta, e1, e2, e3]
  have : ∀ a b d f : F, a + b + d - inner W.wV (vec m A.v) - W.wc + inner W.wV (vec m A.v) + W.wc + f = a + b + d + f := by intros; ring
  rw [this]
  simp only [← Finset.sum_add_distrib]
  apply Finset.sum_congr rfl
  intro i hi
  rw [← hg i (Finset.mem_range.1 hi)]
  have : c.y⁻¹ ^ i * c.y ^ i = 1 := by rw [← mul_pow, inv_mul_cancel₀ hy, one_pow]
  linear_combination (W.wR.getD i 0 * A.aR i) * this

theorem vec_zipWith_le {A B C : Type} (f : A → B → C) {n m : Nat} (h : n ≤ m) (a : Nat → A) (b : Nat → B) :
    List.zipWith f (vec m a) (vec n b) = vec n fun i => f (a i) (b i) := by
  apply List.ext_getElem <;> simp [vec, h]

theorem getD_len {l : List F} {n i : Nat} (h : l.length = n) (hi : ¬ i < n) : l.getD i 0 = 0 := List.getD_eq_default _ _ (by omega)

theorem lPoly_eq (s : PState F V) (w : s.WF) (sL : List F) (hs : sL.length = s.aL.length) (W : Weights F) (m : Nat) (hW : W.Len s.aL.length m) (y x : F) :
    (lPoly s.aL s.aO sL W.wR (powers y⁻¹ (nextPow2 s.aL.length)) s.aL.length).eval x ++ List.replicate (nextPow2 s.aL.length - s.aL.length) 0 =
      vec (nextPow2 s.aL.length) (lAt s.asg (fun i => sL.getD i 0) (fun i => W.wR.getD i 0) y x) := by
  have hp := le_nextPow2 s.aL.length
  have e : (lPoly s.aL s.aO sL W.wR (powers y⁻¹ (nextPow2 s.aL.length)) s.aL.length).eval x =
      vec s.aL.length (lAt s.asg (fun i => sL.getD i 0) (fun i => W.wR.getD i 0) y x) := by
    simp only [VecPoly3.eval, lPoly]
    rw [vec_replicate, powers_vec]
    conv_lhs => rw [vec_getD (l := W.wR) hW.R, vec_getD (l := s.aO) w.lenO, vec_getD (l := sL) hs, vec_zipWith_le _ hp, vec_zipWith]
    conv_lhs => enter [3, 2]; rw [vec_getD (l := s.aL) rfl]
    simp only [vec_length, vec_zipWith]
    apply vec_congr
    intro i _
    simp only [lAt, PState.asg]
    ring
  rw [e, vec_replicate, vec_append, show s.aL.length + (nextPow2 s.aL.length - s.aL.length) = nextPow2 s.aL.length by omega]
  apply vec_congr
  intro i _
  by_cases h : i < s.aL.length
  · rw [if_pos h]
  · rw [if_neg h]
    simp only [lAt, PState.asg]
    rw [getD_len rfl h, getD_len w.lenO h, getD_len hs h, getD_len hW.R h]
    ring

theorem rPoly_eq (s : PState F V) (w : s.WF) (sR : List F) (hs : sR.length = s.aL.length) (W : Weights F) (m : Nat) (hW : W.Len s.aL.length m) (y x : F) :
    (rPoly s.aR sR W.wL W.wO (powers y s.aL.length) s.aL.length).eval x ++
        ((List.range (nextPow2 s.aL.length - s.aL.length)).map fun i => -(y ^ (s.aL.length + i))) =
      vec (nextPow2 s.aL.length) (rAt s.asg (fun i => sR.getD i 0) (fun i => W.wL.getD i 0) (fun i => W.wO.getD i 0) y x) := by
  have hp := le_nextPow2 s.aL.length
  have e : (rPoly s.aR sR W.wL W.wO (powers y s.aL.length) s.aL.length).eval x =
      vec s.aL.length (rAt s.asg (fun i => sR.getD i 0) (fun i => W.wL.getD i 0) (fun i => W.wO.getD i 0) y x) := by
    simp only [VecPoly3.eval, rPoly]
    rw [vec_replicate, powers_vec]
    conv_lhs => rw [vec_getD (l := W.wL) hW.L, vec_getD (l := W.wO) hW.O, vec_getD (l := sR) hs, vec_getD (l := s.aR) w.lenR]
    simp only [vec_zipWith]
    apply vec_congr
    intro i _
    simp only [rAt, PState.asg]
    ring
  rw [e, show ((List.range (nextPow2 s.aL.length - s.aL.length)).map fun i => -(y ^ (s.aL.length + i))) = vec _ _ from rfl, vec_append,
    show s.aL.length + (nextPow2 s.aL.length - s.aL.length) = nextPow2 s.aL.length by omega]
  apply vec_congr
  intro i _
  by_cases h : i < s.aL.length
  · rw [if_pos h]
  · rw [if_neg h]
    simp only [rAt, PState.asg]
    rw [getD_len w.lenR h, getD_len hs h, getD_len hW.L h, getD_len hW.O h, show s.aL.length + (i - s.aL.length) = i by omega]
    ring

theorem specialInner_eq (s : PState F V) (w : s.WF) (sL sR : List F) (hsL : sL.length = s.aL.length) (hsR : sR.length = s.aL.length)
    (W : Weights F) (m : Nat) (hW : W.Len s.aL.length m) (y : F) :
    specialInner (lPoly s.aL s.aO sL W.wR (powers y⁻¹ (nextPow2 s.aL.length)) s.aL.length)
        (rPoly s.aR sR W.wL W.wO (powers y s.aL.length) s.aL.length) =
      tPoly s.asg s.aL.length (fun i => sL.getD i 0) (fun i => sR.getD i 0) (fun i => W.wL.getD i 0) (fun i => W.wR.getD i 0) (fun i => W.wO.getD i 0) y := by
  have hp := le_nextPow2 s.aL.length
  have e1 : List.zipWith (· + ·) s.aL (List.zipWith (· * ·) (powers y⁻¹ (nextPow2 s.aL.length)) W.wR) =
      vec s.aL.length fun i => s.aL.getD i 0 + y⁻¹ ^ i * W.wR.getD i 0 := by
    rw [powers_vec]
    conv_lhs => rw [vec_getD (l := W.wR) hW.R, vec_zipWith_le _ hp]
    conv_lhs => enter [2]; rw [vec_getD (l := s.aL) rfl]
    rw [vec_zipWith]
  have e2 : List.zipWith (· - ·) W.wO (powers y s.aL.length) = vec s.aL.length fun i => W.wO.getD i 0 - y ^ i := by
    rw [powers_vec]
    conv_lhs => rw [vec_getD (l := W.wO) hW.O, vec_zipWith]
  have e3 : List.zipWith (· + ·) (List.zipWith (· * ·) (powers y s.aL.length) s.aR) W.wL =
      vec s.aL.length fun i => y ^ i * s.aR.getD i 0 + W.wL.getD i 0 := by
    rw [powers_vec]
    conv_lhs => rw [vec_getD (l := W.wL) hW.L, vec_getD (l := s.aR) w.lenR, vec_zipWith, vec_zipWith]
  have e4 : List.zipWith (· * ·) (powers y s.aL.length) sR = vec s.aL.length fun i => y ^ i * sR.getD i 0 := by
    rw [powers_vec]
    conv_lhs => rw [vec_getD (l := sR) hsR, vec_zipWith]
  simp only [specialInner, lPoly, rPoly, e1, e2, e3, e4]
  conv_lhs => rw [vec_getD (l := s.aO) w.lenO, vec_getD (l := sL) hsL]
  simp only [inner_vec, tPoly, PState.asg]

/-- the inner product of the padded vectors is `t(x)` -/
theorem inner_lr (s : PState F V) (w : s.WF) (sL sR : List F) (hsL : sL.length = s.aL.length) (W : Weights F) (m : Nat) (hW : W.Len s.aL.length m) (y x : F) :
    inner (vec (nextPow2 s.aL.length) (lAt s.asg (fun i => sL.getD i 0) (fun i => W.wR.getD i 0) y x))
        (vec (nextPow2 s.aL.length) (rAt s.asg (fun i => sR.getD i 0) (fun i => W.wL.getD i 0) (fun i => W.wO.getD i 0) y x)) =
      (tPoly s.asg s.aL.length (fun i => sL.getD i 0) (fun i => sR.getD i 0) (fun i => W.wL.getD i 0) (fun i => W.wR.getD i 0) (fun i => W.wO.getD i 0)
        y).eval x := by
  have hp := le_nextPow2 s.aL.length
  rw [inner_vec, tPoly_eval]
  symm
  apply Finset.sum_subset
  · intro i hi; simp only [Finset.mem_range] at *; omega
  · intro i _ h
    simp only [Finset.mem_range] at h
    simp only [lAt, PState.asg]
    rw [getD_len rfl h, getD_len w.lenO h, getD_len hsL h, getD_len hW.R h]
    ring

/-- the point of the inner product argument, when the commitments are honest -/
theorem pPoint_honest (s : PState F V) (w : s.WF) (sL sR : List F) (W : Weights F) (c : Chal F) (hy : c.y ≠ 0) (n1 : Nat)
    (p : R1CSProof F V) (h : V) (G H : List V) (ib ob sb : F)
    (hI : p.AI1 + c.u • p.AI2 = ev (nextPow2 s.aL.length) G (fun i => uFac n1 c.u i * s.aL.getD i 0) +
      ev (nextPow2 s.aL.length) H (fun i => uFac n1 c.u i * s.aR.getD i 0) + ib • h)
    (hO : p.AO1 + c.u • p.AO2 = ev (nextPow2 s.aL.length) G (fun i => uFac n1 c.u i * s.aO.getD i 0) + ob • h)
    (hS : p.S1 + c.u • p.S2 = ev (nextPow2 s.aL.length) G (fun i => uFac n1 c.u i * sL.getD i 0) +
      ev (nextPow2 s.aL.length) H (fun i => uFac n1 c.u i * sR.getD i 0) + sb • h)
    (he : p.eb = c.x * (ib + c.x * (ob + c.x * sb))) :
    pPoint c s.aL.length n1 W p h G H =
      msm (hadamard (vec (nextPow2 s.aL.length) (lAt s.asg (fun i => sL.getD i 0) (fun i => W.wR.getD i 0) c.y c.x)) (gFac s.aL.length n1 c.u)) G +
      msm (hadamard (vec (nextPow2 s.aL.length) (rAt s.asg (fun i => sR.getD i 0) (fun i => W.wL.getD i 0) (fun i => W.wO.getD i 0) c.y c.x))
        (hFac s.aL.length n1 c.y c.u)) H := by
  have e1 : pPoint c s.aL.length n1 W p h G H = c.x • (p.AI1 + c.u • p.AI2) + (c.x * c.x) • (p.AO1 + c.u • p.AO2) +
      (c.x * (c.x * c.x)) • (p.S1 + c.u • p.S2) - p.eb • h +
      ev (nextPow2 s.aL.length) G (fun i => uFac n1 c.u i * (c.x * (W.wR.getD i 0 * c.y⁻¹ ^ i))) +
      ev (nextPow2 s.aL.length) H (fun i => uFac n1 c.u i * (c.y⁻¹ ^ i * (c.x * W.wL.getD i 0 + W.wO.getD i 0) - 1)) := by
    rw [pPoint]; module
  rw [e1, hI, hO, hS, he, gFac, hFac, hadamard, hadamard, vec_zipWith, vec_zipWith, ← ev_apply, ← ev_apply]
  have eG : (fun i => lAt s.asg (fun i => sL.getD i 0) (fun i => W.wR.getD i 0) c.y c.x i * uFac n1 c.u i) =
      c.x • (fun i => uFac n1 c.u i * s.aL.getD i 0) + (c.x * c.x) • (fun i => uFac n1 c.u i * s.aO.getD i 0) +
      (c.x * (c.x * c.x)) • (fun i => uFac n1 c.u i * sL.getD i 0) + (fun i => uFac n1 c.u i * (c.x * (W.wR.getD i 0 * c.y⁻¹ ^ i))) := by
    funext i
    simp only [lAt, PState.asg, Pi.add_apply, Pi.smul_apply, smul_eq_mul]
    ring
  have eH : (fun i => rAt s.asg (fun i => sR.getD i 0) (fun i => W.wL.getD i 0) (fun i => W.wO.getD i 0) c.y c.x i * (c.y⁻¹ ^ i * uFac n1 c.u i)) =
      c.x • (fun i => uFac n1 c.u i * s.aR.getD i 0) +
      (c.x * (c.x * c.x)) • (fun i => uFac n1 c.u i * sR.getD i 0) +
      (fun i => uFac n1 c.u i * (c.y⁻¹ ^ i * (c.x * W.wL.getD i 0 + W.wO.getD i 0) - 1)) := by
    funext i
    simp only [rAt, PState.asg, Pi.add_apply, Pi.smul_apply, smul_eq_mul]
    have : c.y⁻¹ ^ i * c.y ^ i = 1 := by rw [← mul_pow, inv_mul_cancel₀ hy, one_pow]
    linear_combination (-uFac n1 c.u i + c.x * uFac n1 c.u i * s.aR.getD i 0 + c.x * c.x * c.x * uFac n1 c.u i * sR.getD i 0) * this
  rw [eG, eH]
  simp only [map_add, map_smul]
  module

/-- the equation for `t_x`, when the commitments are honest and the constraints hold -/
theorem tGap_honest (A : Asg F) (n : Nat) (W : Weights F) (vb : List F) (c : Chal F) (hy : c.y ≠ 0) (v : List F)
    (hv : A.v = fun i => v.getD i 0) (hW : W.Len n v.length) (hvb : vb.length = v.length)
    (sL sR : Nat → F) (hg : ∀ i < n, A.aL i * A.aR i = A.aO i) (hs : W.sum n v.length A = 0) (p : R1CSProof F V) (g h : V) (τ1 τ3 τ4 τ5 τ6 : F)
    (t : Poly6 F) (ht : t = tPoly A n sL sR (fun i => W.wL.getD i 0) (fun i => W.wR.getD i 0) (fun i => W.wO.getD i 0) c.y)
    (h1 : p.T1 = t.t1 • g + τ1 • h) (h3 : p.T3 = t.t3 • g + τ3 • h) (h4 : p.T4 = t.t4 • g + τ4 • h) (h5 : p.T5 = t.t5 • g + τ5 • h)
    (h6 : p.T6 = t.t6 • g + τ6 • h) (hx : p.tx = t.eval c.x) (hxb : p.txb = (Poly6.eval ⟨τ1, inner W.wV vb, τ3, τ4, τ5, τ6⟩ c.x)) :
    tGap c n W p g h (List.zipWith (fun v vb => v • g + vb • h) v vb) = 0 := by
  have h2 := t2_eq A n v.length W hW c hy sL sR hg
  rw [← ht, hs, hv, ← vec_getD rfl] at h2
  have eV : ∀ (wV v vb : List F), vb.length = v.length → msm wV (List.zipWith (fun v vb => v • g + vb • h) v vb) = inner wV v • g + inner wV vb • h := by
    intro wV
    induction wV with
    | nil => intro v vb _; simp
    | cons a wV ih =>
      intro v vb hl
      cases v with
      | nil => cases vb with
        | nil => simp
        | cons => simp at hl
      | cons b v => cases vb with
        | nil => simp at hl
        | cons b' vb =>
          simp only [List.zipWith_cons_cons, msm_cons, inner_cons, ih v vb (by simpa using hl)]
          module
  rw [tGap, eV _ _ _ hvb, h1, h3, h4, h5, h6, hx, hxb]
  simp only [Poly6.eval]
  rw [h2]
  module

theorem slice_ok {α : Type} {l x : List α} {i j : Nat} (h : slice l i j = .ok x) : i ≤ j ∧ j ≤ l.length ∧ x = (l.drop i).take (j - i) := by
  simp only [slice] at h
  by_cases c : i ≤ j ∧ j ≤ l.length
  · rw [if_pos c] at h; simp only [Res.ok.injEq] at h; exact ⟨c.1, c.2, h.symm⟩
  · rw [if_neg c] at h; simp at h

theorem msmUnwrap_ok {a : List F} {G : List V} {x : V} (h : msmUnwrap a G = .ok x) : a.length = G.length ∧ x = msm a G := by
  simp only [msmUnwrap] at h
  by_cases c : a.length = G.length
  · rw [if_pos c] at h; simp only [Res.ok.injEq] at h; exact ⟨c, h.symm⟩
  · rw [if_neg c] at h; simp at h

theorem commitVectors_ok {G H : List V} {h x : V} {a b : List F} {r : F} (e : commitVectors G H h a b r = .ok x) :
    x = msm a G + msm b H + r • h := by
  simp only [commitVectors] at e
  obtain ⟨p, e1, e⟩ := Res.bind_eq_ok.1 e
  obtain ⟨q, e2, e⟩ := Res.bind_eq_ok.1 e
  simp only [Res.pure_eq, Res.ok.injEq] at e
  rw [← e, (msmUnwrap_ok e1).2, (msmUnwrap_ok e2).2]

/-- the commitments of both phases, combined with `u` -/
theorem secondPhase_ok {ρ : Rand F} {s : PState F V} (w : s.WF) {n1 : Nat} {G H : List V} {h : V} {b2 : (F × F × F) × (V × V × V)}
    (e : secondPhase ρ s n1 G H h = .ok b2) (hn : n1 ≤ s.aL.length) (pn : Nat) (hp : s.aL.length ≤ pn) (hG : pn ≤ G.length) (hH : pn ≤ H.length) (u : F) :
    (msm (s.aL.take n1) (G.take n1) + msm (s.aR.take n1) (H.take n1) + ρ.i1 • h) + u • b2.2.1 =
      ev pn (G.take pn) (fun i => uFac n1 u i * s.aL.getD i 0) + ev pn (H.take pn) (fun i => uFac n1 u i * s.aR.getD i 0) + (ρ.i1 + u * b2.1.1) • h ∧
    (msm (s.aO.take n1) (G.take n1) + ρ.o1 • h) + u • b2.2.2.1 =
      ev pn (G.take pn) (fun i => uFac n1 u i * s.aO.getD i 0) + (ρ.o1 + u * b2.1.2.1) • h ∧
    (msm (randVec n1 ρ.sL1) (G.take n1) + msm (randVec n1 ρ.sR1) (H.take n1) + ρ.s1 • h) + u • b2.2.2.2 =
      ev pn (G.take pn) (fun i => uFac n1 u i * (randVec n1 ρ.sL1 ++ randVec (s.aL.length - n1) ρ.sL2).getD i 0) +
      ev pn (H.take pn) (fun i => uFac n1 u i * (randVec n1 ρ.sR1 ++ randVec (s.aL.length - n1) ρ.sR2).getD i 0) + (ρ.s1 + u * b2.1.2.2) • h := by
  have lG : (G.take pn).length = pn := by simp [hG]
  have lH : (H.take pn).length = pn := by simp [hH]
  have tp : ∀ (a : List F) (X : List V), a.length = s.aL.length → pn ≤ X.length →
      ev pn (X.take pn) (fun i => uFac n1 u i * a.getD i 0) =
        msm (a.take n1) (X.take n1) + u • msm (a.drop n1) ((X.drop n1).take (s.aL.length - n1)) := by
    intro a X ha hX
    have lX : (X.take pn).length = pn := by simp [hX]
    have := two_phase u a s.aL.length n1 (X.take pn) ha hn (by omega)
    rw [lX] at this
    rw [← this, List.take_take, List.drop_take, List.take_take, Nat.min_eq_left (by omega), Nat.min_eq_left (by omega)]
  have tr : ∀ (f1 f2 : Nat → F) (X : List V), pn ≤ X.length →
      ev pn (X.take pn) (fun i => uFac n1 u i * (randVec n1 f1 ++ randVec (s.aL.length - n1) f2).getD i 0) =
        msm (randVec n1 f1) (X.take n1) + u • msm (randVec (s.aL.length - n1) f2) ((X.drop n1).take (s.aL.length - n1)) := by
    intro f1 f2 X hX
    have lX : (X.take pn).length = pn := by simp [hX]
    have := two_phase_rand u f1 f2 s.aL.length n1 (X.take pn) hn (by omega)
    rw [lX] at this
    rw [← this, List.take_take, List.drop_take, List.take_take, Nat.min_eq_left (by omega), Nat.min_eq_left (by omega)]
  rw [tp _ _ rfl hG, tp _ _ w.lenR hH, tp _ _ w.lenO hG, tr _ _ _ hG, tr _ _ _ hH]
  simp only [secondPhase] at e
  by_cases c : s.aL.length - n1 > 0
  · rw [if_pos c] at e
    obtain ⟨G2, e1, e⟩ := Res.bind_eq_ok.1 e
    obtain ⟨H2, e2, e⟩ := Res.bind_eq_ok.1 e
    obtain ⟨-, -, rfl⟩ := slice_ok e1
    obtain ⟨-, -, rfl⟩ := slice_ok e2
    obtain ⟨x1, e3, e⟩ := Res.bind_eq_ok.1 e
    obtain ⟨x2, e4, e⟩ := Res.bind_eq_ok.1 e
    obtain ⟨x3, e5, e⟩ := Res.bind_eq_ok.1 e
    simp only [Res.pure_eq, Res.ok.injEq] at e
    subst e
    rw [commitVectors_ok e3, (msmUnwrap_ok e4).2, commitVectors_ok e5]
    refine ⟨?_, ?_, ?_⟩ <;> simp only [] <;> module
  · rw [if_neg c] at e
    simp only [Res.ok.injEq] at e
    subst e
    have c0 : s.aL.length - n1 = 0 := by omega
    simp only [c0, List.take_zero, msm_nil_right]
    refine ⟨?_, ?_, ?_⟩ <;> module

/-- the challenges the verifier draws for a proof: those of `verify`, and those of the inner product argument -/
def verifierDraws (O : Transcript F V → F) (t : VState F V) (p : R1CSProof F V) : Res Err (Chal F × List F) := do
  let t' ← VState.createRandomized O { t with
    tr := commitPoint "S1" p.S1 (commitPoint "A_O1" p.AO1 (commitPoint "A_I1" p.AI1 (t.tr ++ [.u64 "m" t.V.length]))) }
  let c := verifierChallenges O p t'.tr
  pure (c.1, (ippChallenges O (ippDomSep (nextPow2 t'.numVars) c.2) p.ipp.L p.ipp.R).1)

theorem Weights.sum_zero {n m : Nat} {cons : List (LC F)} {z : F} {W : Weights F} (h : flatten n m cons z = .ok W) (A : Asg F)
    (hs : ∀ lc ∈ cons, A.lc lc = 0) : W.sum n m A = 0 := by
  rw [(flatten_ok h).2.1]
  apply Finset.sum_eq_zero
  intro k hk
  rw [hs, mul_zero]
  have hk' := Finset.mem_range.1 hk
  rw [List.getD_eq_getElem _ _ hk']
  exact List.getElem_mem _

theorem verifyRest_honest (O : Transcript F V → F) (g h : V) (ρ : Rand F) (s s' : PState F V) (t : VState F V) (n1 : Nat) (G H : List V)
    (p : R1CSProof F V) (r : F) (m : Match g h s t) (hn : n1 ≤ s.aL.length) (b2 : (F × F × F) × (V × V × V)) (AI1 AO1 S1 : V)
    (hI : AI1 = msm (s.aL.take n1) (G.take n1) + msm (s.aR.take n1) (H.take n1) + ρ.i1 • h)
    (hO : AO1 = msm (s.aO.take n1) (G.take n1) + ρ.o1 • h)
    (hS : S1 = msm (randVec n1 ρ.sL1) (G.take n1) + msm (randVec n1 ρ.sR1) (H.take n1) + ρ.s1 • h)
    (e2 : secondPhase ρ s n1 G H h = .ok b2)
    (e : proveRest O g h ρ { s with tr := commitPoint "S2" b2.2.2.2 (commitPoint "A_O2" b2.2.2.1 (commitPoint "A_I2" b2.2.1 s.tr)) } n1 G H AI1 AO1 S1 b2 =
      .ok (p, s'))
    (hsat : ∀ lc ∈ s.cons, s.asg.lc lc = 0) (h31 : s.aL.length ≤ 2 ^ 31) (c : Chal F) (tr : Transcript F V)
    (hc : verifierChallenges O p t.tr = (c, tr)) (hy0 : c.y ≠ 0)
    (hx0 : ∀ x ∈ (ippChallenges O (ippDomSep (nextPow2 t.numVars) tr) p.ipp.L p.ipp.R).1, x ≠ 0) :
    verifyRest O t n1 p g h G H r = .ok () := by
  have w := m.wf
  simp only [proveRest] at e
  generalize hcy : challengeScalar O "y" _ = cy at e
  generalize hcz : challengeScalar O "z" cy.2 = cz at e
  obtain ⟨W, eW, e⟩ := Res.bind_eq_ok.1 e
  generalize hl : lPoly s.aL s.aO _ W.wR _ s.aL.length = l at e
  generalize hr : rPoly s.aR _ W.wL W.wO _ s.aL.length = rp at e
  generalize ht : specialInner l rp = tp at e
  generalize hcu : challengeScalar O "u" _ = cu at e
  generalize hcx : challengeScalar O "x" cu.2 = cx at e
  generalize hcw : challengeScalar O "w" _ = cw at e
  obtain ⟨Gp, eGp, e⟩ := Res.bind_eq_ok.1 e
  obtain ⟨Hp, eHp, e⟩ := Res.bind_eq_ok.1 e
  obtain ⟨-, hG, rfl⟩ := slice_ok eGp
  obtain ⟨-, hH, rfl⟩ := slice_ok eHp
  simp only [List.drop_zero, Nat.sub_zero] at e
  obtain ⟨⟨ip, trF⟩, eipp, e⟩ := Res.bind_eq_ok.1 e
  simp only [Res.pure_eq, Res.ok.injEq, Prod.mk.injEq] at e
  obtain ⟨hpr, -⟩ := e
  -- the challenges are the same
  have hcc : c = ⟨cy.1, cz.1, cu.1, cx.1, cw.1⟩ ∧ tr = cw.2 := by
    have : verifierChallenges O p t.tr = (⟨cy.1, cz.1, cu.1, cx.1, cw.1⟩, cw.2) := by
      simp only [verifierChallenges, m.tr, ← hpr]
      rw [hcy]
      simp only [hcz, hcu, hcx, hcw]
    rw [this] at hc
    simp only [Prod.mk.injEq] at hc
    exact ⟨hc.1.symm, hc.2.symm⟩
  have hp := le_nextPow2 s.aL.length
  have hvl : t.V.length = s.v.length := by rw [m.V]; simp [w.lenB]
  have hWl := (flatten_ok eW).1
  have lsL : (randVec n1 ρ.sL1 ++ randVec (s.aL.length - n1) ρ.sL2).length = s.aL.length := by simp [randVec]; omega
  have lsR : (randVec n1 ρ.sR1 ++ randVec (s.aL.length - n1) ρ.sR2).length = s.aL.length := by simp [randVec]; omega
  generalize hsL : randVec n1 ρ.sL1 ++ randVec (s.aL.length - n1) ρ.sL2 = sL at *
  generalize hsR : randVec n1 ρ.sR1 ++ randVec (s.aL.length - n1) ρ.sR2 = sR at *
  have hlv := lPoly_eq s w sL lsL W _ hWl c.y c.x
  have hrv := rPoly_eq s w sR lsR W _ hWl c.y c.x
  have htp := specialInner_eq s w sL sR lsL lsR W _ hWl c.y
  have hin := inner_lr s w sL sR lsL W _ hWl c.y c.x
  have cy1 : cy.1 = c.y := by rw [hcc.1]
  have cz1 : cz.1 = c.z := by rw [hcc.1]
  have cu1 : cu.1 = c.u := by rw [hcc.1]
  have cx1 : cx.1 = c.x := by rw [hcc.1]
  have cw1 : cw.1 = c.w := by rw [hcc.1]
  have cw2 : cw.2 = tr := hcc.2.symm
  rw [cy1] at hl hr
  rw [hl] at hlv htp
  rw [hr] at hrv htp
  rw [ht] at htp
  rw [hlv.symm, hrv.symm] at hin
  -- lengths of the inner product argument
  have hk : Nat.clog 2 s.aL.length < 32 := by
    have : Nat.clog 2 s.aL.length ≤ 31 := (Nat.clog_le_iff_le_pow (by omega)).2 h31
    omega
  have hgf := ones_vec n1 s.aL.length (nextPow2 s.aL.length) c.u hn hp
  have hhf : List.zipWith (· * ·) (powers c.y⁻¹ (nextPow2 s.aL.length)) (vec (nextPow2 s.aL.length) (uFac n1 c.u)) = hFac s.aL.length n1 c.y c.u := by
    rw [powers_vec, vec_zipWith]; rfl
  have hgf' : List.replicate n1 (1 : F) ++ List.replicate (s.aL.length - n1 + (nextPow2 s.aL.length - s.aL.length)) c.u = gFac s.aL.length n1 c.u := hgf
  rw [cu1, cw1, cw2, cx1, cy1, hgf', hlv, hrv] at eipp
  have hhf' : List.zipWith (· * ·) (powers c.y⁻¹ (nextPow2 s.aL.length)) (gFac s.aL.length n1 c.u) = hFac s.aL.length n1 c.y c.u := hhf
  rw [hhf'] at eipp
  have lG : (G.take (nextPow2 s.aL.length)).length = 2 ^ Nat.clog 2 s.aL.length := by simp only [List.length_take]; exact Nat.min_eq_left hG
  have lH : (H.take (nextPow2 s.aL.length)).length = 2 ^ Nat.clog 2 s.aL.length := by simp only [List.length_take]; exact Nat.min_eq_left hH
  obtain ⟨q, tr', eq, qL, qR, hv⟩ := ipp_complete O tr (c.w • g) (gFac s.aL.length n1 c.u) (hFac s.aL.length n1 c.y c.u)
    (G.take (nextPow2 s.aL.length)) (H.take (nextPow2 s.aL.length)) _ _ (Nat.clog 2 s.aL.length) hk lG lH
    (vec_length (nextPow2 s.aL.length) _) (vec_length (nextPow2 s.aL.length) _) (by simp [gFac, nextPow2]) (by simp [hFac, nextPow2])
  rw [eq] at eipp
  simp only [Res.ok.injEq, Prod.mk.injEq] at eipp
  obtain ⟨rfl, -⟩ := eipp
  have pip : p.ipp = q := by rw [← hpr]
  rw [m.vars, pip] at hx0
  have hv' := hv hx0
  have hcl : nextPow2 s.aL.length = 2 ^ q.L.length := by rw [qL]; rfl
  rw [show (2 : Nat) ^ Nat.clog 2 s.aL.length = 2 ^ q.L.length by rw [qL]] at hv'
  rw [verifyIpp_iff O tr _ _ _ _ _ _ _ _ _ _ (by omega) (by omega) (by rw [lG, qL]) (by rw [lH, qL]) (by simp [gFac, hcl]) (by simp [hFac, hcl]) _ rfl
    (by rw [← hcl]; exact hx0)] at hv'
  have hfin := verifyRest_iff O t n1 p g h G H r W (by rw [m.vars]; exact hn) (by rw [m.vars]; exact hG) (by rw [m.vars]; exact hH)
    (by rw [pip, qL, m.vars]) (by rw [pip, qL, qR]) (by rw [pip, qL]; exact hk) c tr hc
    (by rw [m.vars, hvl, m.cons, ← cz1]; exact eW) _ rfl (by rw [m.vars, pip]; exact hx0)
  rw [hfin, if_pos]
  rw [m.vars, pip]
  -- both equations hold
  obtain ⟨f1, f2, f3⟩ := secondPhase_ok w e2 hn (nextPow2 s.aL.length) hp hG hH c.u
  have hpp := pPoint_honest s w sL sR W c hy0 n1 p h (G.take (nextPow2 s.aL.length)) (H.take (nextPow2 s.aL.length)) (ρ.i1 + c.u * b2.1.1)
    (ρ.o1 + c.u * b2.1.2.1) (ρ.s1 + c.u * b2.1.2.2)
    (by rw [← f1, ← hI, ← hpr]) (by rw [← f2, ← hO, ← hpr]) (by rw [← hsL, ← hsR, ← f3, ← hS, ← hpr])
    (by rw [← hpr]; simp only [cx1, cu1])
  have hpx : p.tx = tp.eval c.x := by rw [← hpr, ← cx1]
  have htg := tGap_honest (V := V) s.asg s.aL.length W s.vb c hy0 s.v rfl hWl w.lenB (fun i => sL.getD i 0) (fun i => sR.getD i 0)
    (fun i hi => (w.gate i hi).symm) (Weights.sum_zero eW s.asg hsat) p g h ρ.t1 ρ.t3 ρ.t4 ρ.t5 ρ.t6 tp htp
    (by rw [← hpr]) (by rw [← hpr]) (by rw [← hpr]) (by rw [← hpr]) (by rw [← hpr]) hpx (by rw [← hpr, ← cx1])
  rw [m.V, htg, smul_zero, add_zero, ippGap, hpp, ippRhs, pip]
  rw [← hcl] at hv'
  have hp' : ∀ {P Q : V} , (if P = Q then (Res.ok () : Res Err Unit) else .err .ipp) = .ok () → P = Q := by
    intro P Q h
    by_contra hne
    rw [if_neg hne] at h
    simp at h
  have hv'' := hp' hv'
  rw [← hlv, ← hrv, hin, ← htp, ← hpx, smul_smul, mul_comm p.tx] at hv''
  rw [← hlv, ← hrv, hv'', sub_self]

/-- Completeness, for a prover and a verifier that have built the same statement. -/
theorem r1cs_complete_state (O : Transcript F V → F) (g h : V) (ρ : Rand F) (s s' : PState F V) (t : VState F V) (G H : List V) (p : R1CSProof F V)
    (r : F) (m : Match g h s t) (e : prove O g h ρ s G H = .ok (p, s')) (hsat : ∀ lc ∈ s'.cons, s'.asg.lc lc = 0) (h31 : s'.aL.length ≤ 2 ^ 31)
    (hne : ∀ c xs, verifierDraws O t p = .ok (c, xs) → c.y ≠ 0 ∧ ∀ x ∈ xs, x ≠ 0) :
    verify O t p g h G H r = .ok () := by
  simp only [prove] at e
  by_cases g1 : G.length < s.aL.length
  · rw [if_pos g1] at e; simp at e
  rw [if_neg g1] at e
  obtain ⟨G1, e1, e⟩ := Res.bind_eq_ok.1 e
  obtain ⟨H1, e2, e⟩ := Res.bind_eq_ok.1 e
  obtain ⟨-, -, rfl⟩ := slice_ok e1
  obtain ⟨-, -, rfl⟩ := slice_ok e2
  simp only [List.drop_zero, Nat.sub_zero] at e
  obtain ⟨AI1, eI, e⟩ := Res.bind_eq_ok.1 e
  obtain ⟨AO1', eO, e⟩ := Res.bind_eq_ok.1 e
  obtain ⟨S1, eS, e⟩ := Res.bind_eq_ok.1 e
  obtain ⟨s1, ecr, e⟩ := Res.bind_eq_ok.1 e
  have hI := commitVectors_ok eI
  have hO := (msmUnwrap_ok eO).2
  have hS := commitVectors_ok eS
  by_cases g2 : G.length < nextPow2 s1.aL.length
  · rw [if_pos g2] at e; simp at e
  rw [if_neg g2] at e
  obtain ⟨b2, e2p, e⟩ := Res.bind_eq_ok.1 e
  have hwf : s.WF := m.wf
  have hVl : t.V.length = s.v.length := by rw [m.V]; simp [hwf.lenB]
  have mtr : ∀ tr : Transcript F V, Match g h { s with tr := tr } { t with tr := tr } := fun tr =>
    ⟨⟨hwf.lenR, hwf.lenO, hwf.gate, hwf.pend, hwf.lenB⟩, rfl, m.cons, m.vars, m.V, m.deferred, m.pending⟩
  obtain ⟨fr, w1⟩ := Frozen.createRandomized O (mtr _).wf ecr
  simp only at fr
  obtain ⟨t1, evr, m1⟩ := (mtr _).createRandomized O ecr
  have hp : p.AI1 = AI1 ∧ p.AO1 = AO1' + ρ.o1 • h ∧ p.S1 = S1 ∧ s'.cons = s1.cons ∧ s'.asg = s1.asg ∧ s'.aL = s1.aL := by
    have e' := e
    simp only [proveRest] at e'
    obtain ⟨W, eW, e'⟩ := Res.bind_eq_ok.1 e'
    obtain ⟨Gp, eGp, e'⟩ := Res.bind_eq_ok.1 e'
    obtain ⟨Hp, eHp, e'⟩ := Res.bind_eq_ok.1 e'
    obtain ⟨⟨ip, trF⟩, eipp, e'⟩ := Res.bind_eq_ok.1 e'
    simp only [Res.pure_eq, Res.ok.injEq, Prod.mk.injEq] at e'
    obtain ⟨hpr, hs'⟩ := e'
    rw [← hpr, ← hs']
    exact ⟨rfl, rfl, rfl, rfl, rfl, rfl⟩
  obtain ⟨p1, p2, p3, q1, q2, q3⟩ := hp
  have hcr : VState.createRandomized O { t with tr := commitPoint "S1" p.S1 (commitPoint "A_O1" p.AO1 (commitPoint "A_I1" p.AI1
      (t.tr ++ [.u64 "m" t.V.length]))) } = .ok t1 := by
    rw [p1, p2, p3, m.tr, hVl]; exact evr
  have hd : verifierDraws O t p = .ok ((verifierChallenges O p t1.tr).1,
      (ippChallenges O (ippDomSep (nextPow2 t1.numVars) (verifierChallenges O p t1.tr).2) p.ipp.L p.ipp.R).1) := by
    simp only [verifierDraws, hcr, Res.ok_bind, Res.pure_eq]
  obtain ⟨hy, hx⟩ := hne _ _ hd
  simp only [verify, hcr, Res.ok_bind]
  have htL : s1.aL.take s.aL.length = s.aL := by rw [fr.L, List.take_length]
  have htR : s1.aR.take s.aL.length = s.aR := by rw [fr.R, ← hwf.lenR, List.take_length]
  have htO : s1.aO.take s.aL.length = s.aO := by rw [fr.O, ← hwf.lenO, List.take_length]
  rw [m.vars]
  exact verifyRest_honest O g h ρ s1 s' t1 s.aL.length G H p r m1 fr.len b2 AI1 (AO1' + ρ.o1 • h) S1
    (by rw [htL, htR]; exact hI) (by rw [htO, hO]) hS e2p e (by rw [q1, q2] at hsat; exact hsat) (by rw [q3] at h31; exact h31)
    _ _ rfl hy hx

end Verif.BP
