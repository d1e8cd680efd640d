import Verif.BP.R1CS
import Verif.Props.BPIppSound
import Mathlib.Tactic.LinearCombination
import Mathlib.Tactic.Ring
import Mathlib.Data.List.GetD
import Mathlib.Tactic.Module
import Mathlib.Tactic.Abel
import Mathlib.Tactic.FieldSimp
set_option linter.unusedSectionVars false
set_option linter.unusedSimpArgs false
set_option linter.unusedVariables false
/-!
# Constraint systems: what satisfies them, flattening, and the equation that `verify` checks
-/
namespace Verif.BP
variable {F V : Type} [Field F] [AddCommGroup V] [Module F V] [DecidableEq F] [DecidableEq V]

/-! ## Specification: satisfied constraint systems -/

/-- values of the variables of a constraint system -/
structure Asg (F : Type) where
  aL : Nat → F
  aR : Nat → F
  aO : Nat → F
  v : Nat → F

/-- the value of a variable -/
def Asg.val (A : Asg F) : Var → F
  | .left i => A.aL i
  | .right i => A.aR i
  | .out i => A.aO i
  | .committed i => A.v i
  | .one => 1

/-- the value of a linear combination -/
def Asg.lc (A : Asg F) (l : LC F) : F := (l.map fun t => t.2 * A.val t.1).sum

/-- `n` multipliers and the constraints `cons` are satisfied -/
structure Sat (n : Nat) (cons : List (LC F)) (A : Asg F) : Prop where
  gate : ∀ i < n, A.aL i * A.aR i = A.aO i
  zero : ∀ lc ∈ cons, A.lc lc = 0

/-- a variable that exists with `n` multipliers and `m` commitments -/
def Var.InRange (n m : Nat) : Var → Prop
  | .left i => i < n
  | .right i => i < n
  | .out i => i < n
  | .committed i => i < m
  | .one => True

/-! ## Vectors as functions -/

theorem vec_zipWith {A B C : Type} (f : A → B → C) (n : Nat) (a : Nat → A) (b : Nat → B) :
    List.zipWith f (vec n a) (vec n b) = vec n fun i => f (a i) (b i) := by
  apply List.ext_getElem <;> simp [vec]

theorem vec_zip {A B : Type} (n : Nat) (a : Nat → A) (b : Nat → B) : (vec n a).zip (vec n b) = vec n fun i => (a i, b i) := by
  apply List.ext_getElem <;> simp [vec]

theorem vec_map {A B : Type} (f : A → B) (n : Nat) (a : Nat → A) : (vec n a).map f = vec n fun i => f (a i) := by simp [vec, Function.comp_def]

theorem vec_take {A : Type} (m n : Nat) (a : Nat → A) (h : m ≤ n) : (vec n a).take m = vec m a := by
  apply List.ext_getElem
  · simp [vec, h]
  · simp [vec]

theorem vec_drop {A : Type} (m n : Nat) (a : Nat → A) (h : m ≤ n) : (vec n a).drop m = vec (n - m) fun i => a (m + i) := by
  apply List.ext_getElem <;> simp [vec]

theorem vec_getD {l : List F} {n : Nat} (h : l.length = n) : l = vec n fun i => l.getD i 0 := by
  subst h
  apply List.ext_getElem
  · simp [vec]
  · intro i h1 h2
    simp [vec, List.getD_eq_getElem?_getD, h1]

theorem vec_congr {A : Type} {n : Nat} {a b : Nat → A} (h : ∀ i < n, a i = b i) : vec n a = vec n b := by
  apply List.map_congr_left
  intro i hi
  exact h i (List.mem_range.1 hi)

theorem vec_replicate {A : Type} (n : Nat) (c : A) : List.replicate n c = vec n fun _ => c := by
  apply List.ext_getElem <;> simp [vec]

theorem vec_append {A : Type} (m n : Nat) (a b : Nat → A) : vec m a ++ vec n b = vec (m + n) fun i => if i < m then a i else b (i - m) := by
  apply List.ext_getElem
  · simp [vec]
  · intro i h1 h2
    simp only [vec, List.getElem_append, List.getElem_map, List.getElem_range, List.length_map, List.length_range]
    split <;> simp_all

theorem pad_vec {l : List F} {n pn : Nat} (h : l.length = n) (hp : n ≤ pn) : l ++ List.replicate (pn - n) 0 = vec pn fun i => l.getD i 0 := by
  conv_lhs => rw [vec_getD h, vec_replicate, vec_append, show n + (pn - n) = pn by omega]
  apply vec_congr
  intro i hi
  split
  · rfl
  · rw [List.getD_eq_default _ _ (by omega)]

theorem ones_vec (n1 n pn : Nat) (u : F) (h1 : n1 ≤ n) (h2 : n ≤ pn) :
    List.replicate n1 (1 : F) ++ List.replicate (n - n1 + (pn - n)) u = vec pn fun i => if i < n1 then 1 else u := by
  rw [vec_replicate, vec_replicate, vec_append, show n1 + (n - n1 + (pn - n)) = pn by omega]

theorem powers_vec (y : F) (n : Nat) : powers y n = vec n fun i => y ^ i := rfl

theorem msm_vec (n : Nat) (a : Nat → F) (G : List V) (hG : G.length = n) : msm (vec n a) G = ∑ i ∈ Finset.range n, a i • G.getD i 0 := by
  induction n generalizing a G with
  | zero => simp [vec]
  | succ n ih =>
    cases G with
    | nil => simp at hG
    | cons g G =>
      have := ih (fun i => a (i + 1)) G (by simpa using hG)
      simp only [vec, List.range_succ_eq_map, List.map_cons, List.map_map, msm_cons, Function.comp_def] at *
      rw [this, Finset.sum_range_succ']
      simp [add_comm]

/-! ## Flattening -/

theorem addAt_ok {w w' : List F} {i : Nat} {c : F} (h : addAt w i c = .ok w') : i < w.length ∧ w'.length = w.length ∧
    ∀ a : Nat → F, inner w' (vec w.length a) = inner w (vec w.length a) + c * a i := by
  simp only [addAt] at h
  by_cases hi : i < w.length
  · rw [if_pos hi] at h
    simp only [Res.ok.injEq] at h
    subst h
    refine ⟨hi, by simp, fun a => ?_⟩
    induction w generalizing i a with
    | nil => simp at hi
    | cons x w ih =>
      cases i with
      | zero =>
        simp only [vec, List.length_cons, List.range_succ_eq_map, List.map_cons, List.modify_zero_cons, inner_cons]
        ring
      | succ i =>
        have := ih (by simpa using hi) (fun i => a (i + 1))
        simp only [vec, List.length_cons, List.range_succ_eq_map, List.map_cons, List.map_map, List.modify_succ_cons, inner_cons,
          Function.comp_def] at *
        rw [this]; ring
  · rw [if_neg hi] at h; simp at h

/-- what the weights say about an assignment -/
def Weights.sum (W : Weights F) (n m : Nat) (A : Asg F) : F :=
  inner W.wL (vec n A.aL) + inner W.wR (vec n A.aR) + inner W.wO (vec n A.aO) - inner W.wV (vec m A.v) - W.wc

/-- the weights have the right lengths -/
structure Weights.Len (W : Weights F) (n m : Nat) : Prop where
  L : W.wL.length = n
  R : W.wR.length = n
  O : W.wO.length = n
  V : W.wV.length = m

theorem flatTerms_ok {n m : Nat} (e : F) (lc : LC F) : ∀ {W W' : Weights F}, W.Len n m → flatTerms e lc W = .ok W' →
    W'.Len n m ∧ (∀ A, W'.sum n m A = W.sum n m A + e * A.lc lc) ∧ ∀ t ∈ lc, t.1.InRange n m := by
  induction lc with
  | nil =>
    intro W W' hl h
    simp only [flatTerms, Res.ok.injEq] at h
    subst h
    exact ⟨hl, fun A => by simp [Asg.lc], by simp⟩
  | cons t lc ih =>
    obtain ⟨x, c⟩ := t
    intro W W' hl h
    cases x with
    | one =>
      simp only [flatTerms] at h
      obtain ⟨h1, h2, h3⟩ := ih (W := { W with wc := W.wc - e * c }) ⟨hl.L, hl.R, hl.O, hl.V⟩ h
      refine ⟨h1, fun A => ?_, ?_⟩
      · rw [h2]; simp only [Weights.sum, Asg.lc, Asg.val, List.map_cons, List.sum_cons]; ring
      · simp only [List.mem_cons, forall_eq_or_imp]; exact ⟨trivial, h3⟩
    | left i =>
      simp only [flatTerms] at h
      obtain ⟨w, e1, h⟩ := Res.bind_eq_ok.1 h
      obtain ⟨a1, a2, a3⟩ := addAt_ok e1
      obtain ⟨h1, h2, h3⟩ := ih (W := { W with wL := w }) ⟨by rw [a2, hl.L], hl.R, hl.O, hl.V⟩ h
      refine ⟨h1, fun A => ?_, ?_⟩
      · rw [h2]; simp only [Weights.sum, Asg.lc, Asg.val, List.map_cons, List.sum_cons]
        rw [← hl.L, a3]; ring
      · simp only [List.mem_cons, forall_eq_or_imp]; exact ⟨hl.L ▸ a1, h3⟩
    | right i =>
      simp only [flatTerms] at h
      obtain ⟨w, e1, h⟩ := Res.bind_eq_ok.1 h
      obtain ⟨a1, a2, a3⟩ := addAt_ok e1
      obtain ⟨h1, h2, h3⟩ := ih (W := { W with wR := w }) ⟨hl.L, by rw [a2, hl.R], hl.O, hl.V⟩ h
      refine ⟨h1, fun A => ?_, ?_⟩
      · rw [h2]; simp only [Weights.sum, Asg.lc, Asg.val, List.map_cons, List.sum_cons]
        rw [← hl.R, a3]; ring
      · simp only [List.mem_cons, forall_eq_or_imp]; exact ⟨hl.R ▸ a1, h3⟩
    | out i =>
      simp only [flatTerms] at h
      obtain ⟨w, e1, h⟩ := Res.bind_eq_ok.1 h
      obtain ⟨a1, a2, a3⟩ := addAt_ok e1
      obtain ⟨h1, h2, h3⟩ := ih (W := { W with wO := w }) ⟨hl.L, hl.R, by rw [a2, hl.O], hl.V⟩ h
      refine ⟨h1, fun A => ?_, ?_⟩
      · rw [h2]; simp only [Weights.sum, Asg.lc, Asg.val, List.map_cons, List.sum_cons]
        rw [← hl.O, a3]; ring
      · simp only [List.mem_cons, forall_eq_or_imp]; exact ⟨hl.O ▸ a1, h3⟩
    | committed i =>
      simp only [flatTerms] at h
      obtain ⟨w, e1, h⟩ := Res.bind_eq_ok.1 h
      obtain ⟨a1, a2, a3⟩ := addAt_ok e1
      obtain ⟨h1, h2, h3⟩ := ih (W := { W with wV := w }) ⟨hl.L, hl.R, hl.O, by rw [a2, hl.V]⟩ h
      refine ⟨h1, fun A => ?_, ?_⟩
      · rw [h2]; simp only [Weights.sum, Asg.lc, Asg.val, List.map_cons, List.sum_cons]
        rw [← hl.V, a3]; ring
      · simp only [List.mem_cons, forall_eq_or_imp]; exact ⟨hl.V ▸ a1, h3⟩

/-- `Σ e·zᵏ·(value of constraint k)` -/
def comb (A : Asg F) (z : F) : F → List (LC F) → F
  | _, [] => 0
  | e, lc :: t => e * A.lc lc + comb A z (e * z) t

theorem comb_eq_sum (A : Asg F) (z : F) (cons : List (LC F)) : ∀ e, comb A z e cons =
    ∑ k ∈ Finset.range cons.length, e * z ^ k * A.lc (cons.getD k []) := by
  induction cons with
  | nil => intro e; simp [comb]
  | cons lc t ih =>
    intro e
    rw [comb, ih, List.length_cons, Finset.sum_range_succ', add_comm]
    simp only [List.getD_cons_succ, List.getD_cons_zero, pow_zero, mul_one, pow_succ]
    congr 1
    apply Finset.sum_congr rfl
    intro k _
    ring

theorem flatLoop_ok {n m : Nat} (z : F) (cons : List (LC F)) : ∀ {e : F} {W W' : Weights F}, W.Len n m → flatLoop z e cons W = .ok W' →
    W'.Len n m ∧ (∀ A, W'.sum n m A = W.sum n m A + comb A z e cons) ∧ ∀ lc ∈ cons, ∀ t ∈ lc, t.1.InRange n m := by
  induction cons with
  | nil =>
    intro e W W' hl h
    simp only [flatLoop, Res.ok.injEq] at h
    subst h
    exact ⟨hl, fun A => by simp [comb], by simp⟩
  | cons lc t ih =>
    intro e W W' hl h
    simp only [flatLoop] at h
    obtain ⟨W1, e1, h⟩ := Res.bind_eq_ok.1 h
    obtain ⟨a1, a2, a3⟩ := flatTerms_ok e lc hl e1
    obtain ⟨b1, b2, b3⟩ := ih a1 h
    refine ⟨b1, fun A => ?_, ?_⟩
    · rw [b2, a2, comb]; ring
    · simp only [List.mem_cons, forall_eq_or_imp]; exact ⟨a3, b3⟩

theorem inner_zeros (n : Nat) (a : List F) : inner (List.replicate n 0) a = 0 := by
  induction n generalizing a with
  | zero => simp
  | succ n ih => cases a with
    | nil => simp
    | cons x a => simp [List.replicate_succ, ih]

/-- flattening: the weights combine the constraints with powers of `z` -/
theorem flatten_ok {n m : Nat} {cons : List (LC F)} {z : F} {W : Weights F} (h : flatten n m cons z = .ok W) :
    W.Len n m ∧ (∀ A : Asg F, W.sum n m A = ∑ k ∈ Finset.range cons.length, z ^ (k + 1) * A.lc (cons.getD k [])) ∧
      ∀ lc ∈ cons, ∀ t ∈ lc, t.1.InRange n m := by
  obtain ⟨a1, a2, a3⟩ := flatLoop_ok (n := n) (m := m) z cons (by constructor <;> simp) h
  refine ⟨a1, fun A => ?_, a3⟩
  rw [a2, comb_eq_sum]
  simp only [Weights.sum, inner_zeros]
  simp only [pow_succ, add_zero, sub_zero, zero_add]
  apply Finset.sum_congr rfl
  intro k _
  ring

theorem addAt_some {w : List F} {i : Nat} {c : F} (h : i < w.length) : ∃ w', addAt w i c = .ok w' ∧ w'.length = w.length :=
  ⟨_, if_pos h, by simp⟩

theorem flatTerms_some {n m : Nat} (e : F) (lc : LC F) : ∀ {W : Weights F}, W.Len n m → (∀ t ∈ lc, t.1.InRange n m) →
    ∃ W', flatTerms e lc W = .ok W' ∧ W'.Len n m := by
  induction lc with
  | nil => intro W hl _; exact ⟨W, rfl, hl⟩
  | cons t lc ih =>
    obtain ⟨x, c⟩ := t
    intro W hl hr
    simp only [List.mem_cons, forall_eq_or_imp] at hr
    obtain ⟨h1, h2⟩ := hr
    cases x with
    | one => exact ih (W := { W with wc := W.wc - e * c }) ⟨hl.L, hl.R, hl.O, hl.V⟩ h2
    | left i =>
      obtain ⟨w, e1, e2⟩ := addAt_some (w := W.wL) (c := e * c) (show i < _ by rw [hl.L]; exact h1)
      simp only [flatTerms, e1, Res.ok_bind]
      exact ih (W := { W with wL := w }) ⟨by rw [e2, hl.L], hl.R, hl.O, hl.V⟩ h2
    | right i =>
      obtain ⟨w, e1, e2⟩ := addAt_some (w := W.wR) (c := e * c) (show i < _ by rw [hl.R]; exact h1)
      simp only [flatTerms, e1, Res.ok_bind]
      exact ih (W := { W with wR := w }) ⟨hl.L, by rw [e2, hl.R], hl.O, hl.V⟩ h2
    | out i =>
      obtain ⟨w, e1, e2⟩ := addAt_some (w := W.wO) (c := e * c) (show i < _ by rw [hl.O]; exact h1)
      simp only [flatTerms, e1, Res.ok_bind]
      exact ih (W := { W with wO := w }) ⟨hl.L, hl.R, by rw [e2, hl.O], hl.V⟩ h2
    | committed i =>
      obtain ⟨w, e1, e2⟩ := addAt_some (w := W.wV) (c := -(e * c)) (show i < _ by rw [hl.V]; exact h1)
      simp only [flatTerms, e1, Res.ok_bind]
      exact ih (W := { W with wV := w }) ⟨hl.L, hl.R, hl.O, by rw [e2, hl.V]⟩ h2

theorem flatLoop_some {n m : Nat} (z : F) (cons : List (LC F)) : ∀ {e : F} {W : Weights F}, W.Len n m →
    (∀ lc ∈ cons, ∀ t ∈ lc, t.1.InRange n m) → ∃ W', flatLoop z e cons W = .ok W' := by
  induction cons with
  | nil => intro e W _ _; exact ⟨W, rfl⟩
  | cons lc t ih =>
    intro e W hl hr
    simp only [List.mem_cons, forall_eq_or_imp] at hr
    obtain ⟨W1, e1, l1⟩ := flatTerms_some e lc hl hr.1
    simp only [flatLoop, e1, Res.ok_bind]
    exact ih l1 hr.2

theorem flatten_some {n m : Nat} {cons : List (LC F)} (z : F) (h : ∀ lc ∈ cons, ∀ t ∈ lc, t.1.InRange n m) : ∃ W, flatten n m cons z = .ok W :=
  flatLoop_some (n := n) (m := m) z cons (by constructor <;> simp) h

/-! ## The equation of `verify` -/

/-- `1` for the multipliers of the first phase, `u` for the others -/
def uFac (n1 : Nat) (u : F) (i : Nat) : F := if i < n1 then 1 else u

/-- the point `P` of which the inner product argument is about, before `t_x` is added -/
def pPoint (c : Chal F) (n n1 : Nat) (W : Weights F) (p : R1CSProof F V) (h : V) (G H : List V) : V :=
  c.x • p.AI1 + (c.x * c.x) • p.AO1 + (c.x * (c.x * c.x)) • p.S1 +
    c.u • (c.x • p.AI2 + (c.x * c.x) • p.AO2 + (c.x * (c.x * c.x)) • p.S2) - p.eb • h +
    ev (nextPow2 n) G (fun i => uFac n1 c.u i * (c.x * (W.wR.getD i 0 * c.y⁻¹ ^ i))) +
    ev (nextPow2 n) H (fun i => uFac n1 c.u i * (c.y⁻¹ ^ i * (c.x * W.wL.getD i 0 + W.wO.getD i 0) - 1))

/-- `δ(y, z)` -/
def delta (c : Chal F) (n : Nat) (W : Weights F) : F :=
  ∑ i ∈ Finset.range n, W.wR.getD i 0 * c.y⁻¹ ^ i * W.wL.getD i 0

/-- the equation for `t_x` -/
def tGap (c : Chal F) (n : Nat) (W : Weights F) (p : R1CSProof F V) (g h : V) (Vs : List V) : V :=
  (c.x * c.x) • msm W.wV Vs + c.x • p.T1 + (c.x * (c.x * c.x)) • (p.T3 + c.x • p.T4 + (c.x * c.x) • p.T5 + (c.x * c.x * c.x) • p.T6) +
    (c.x * c.x * (W.wc + delta c n W) - p.tx) • g - p.txb • h

/-- the right hand side of the inner product argument -/
def ippRhs (xs : List F) (gf hf : List F) (u : V) (G H : List V) (a b : F) (L R : List V) : V :=
  (a * b) • u + a • msm (sVec xs) (scaleBy gf G) + b • msm (sVec xs).reverse (scaleBy hf H) - sqSum xs L - invSqSum xs R

/-- the factors of `G` -/
def gFac (n n1 : Nat) (u : F) : List F := vec (nextPow2 n) (uFac n1 u)

/-- the factors of `H` -/
def hFac (n n1 : Nat) (y u : F) : List F := vec (nextPow2 n) fun i => y⁻¹ ^ i * uFac n1 u i

/-- the difference of the two sides of the inner product argument -/
def ippGap (c : Chal F) (n n1 : Nat) (W : Weights F) (p : R1CSProof F V) (g h : V) (G H : List V) (xs : List F) : V :=
  pPoint c n n1 W p h G H + (c.w * p.tx) • g - ippRhs xs (gFac n n1 c.u) (hFac n n1 c.y c.u) (c.w • g) G H p.ipp.a p.ipp.b p.ipp.L p.ipp.R

theorem le_nextPow2 (n : Nat) : n ≤ nextPow2 n := Nat.le_pow_clog (by omega) n

theorem verifierScalars_eq (c : Chal F) (n n1 m : Nat) (hn : n1 ≤ n) (W : Weights F) (hW : W.Len n m) (p : R1CSProof F V) (r : F)
    (sq isq s : List F) (hs : s.length = nextPow2 n) :
    verifierScalars c n n1 W p r (sq, isq, s) =
      [c.x, c.x * c.x, c.x * (c.x * c.x), c.u * c.x, c.u * (c.x * c.x), c.u * (c.x * (c.x * c.x))] ++ W.wV.map (fun v => v * (r * (c.x * c.x))) ++
      [r * c.x, r * (c.x * (c.x * c.x)), r * (c.x * (c.x * c.x)) * c.x, r * (c.x * (c.x * c.x)) * c.x * c.x,
        r * (c.x * (c.x * c.x)) * c.x * c.x * c.x] ++
      [c.w * (p.tx - p.ipp.a * p.ipp.b) + r * (c.x * c.x * (W.wc + delta c n W) - p.tx), -(p.eb + r * p.txb)] ++
      vec (nextPow2 n) (fun i => uFac n1 c.u i * (c.x * (W.wR.getD i 0 * c.y⁻¹ ^ i)) - p.ipp.a * (uFac n1 c.u i * s.getD i 0)) ++
      vec (nextPow2 n) (fun i => uFac n1 c.u i * (c.y⁻¹ ^ i * (c.x * W.wL.getD i 0 + W.wO.getD i 0) - 1) -
        p.ipp.b * (c.y⁻¹ ^ i * uFac n1 c.u i * s.reverse.getD i 0)) ++ sq ++ isq := by
  have hp := le_nextPow2 n
  have e1 : List.zipWith (· * ·) W.wR (powers c.y⁻¹ (nextPow2 n)) ++ List.replicate (nextPow2 n - n) 0 =
      vec (nextPow2 n) fun i => W.wR.getD i 0 * c.y⁻¹ ^ i := by
    have hl : (List.zipWith (· * ·) W.wR (powers c.y⁻¹ (nextPow2 n))).length = n := by simp [powers, hW.R, hp]
    rw [pad_vec hl hp]
    apply vec_congr
    intro i hi
    by_cases h : i < n
    · have h' : i < W.wR.length := by rw [hW.R]; exact h
      have h'' : i < (List.zipWith (· * ·) W.wR (powers c.y⁻¹ (nextPow2 n))).length := by omega
      rw [List.getD_eq_getElem _ _ h'', List.getD_eq_getElem _ _ h']
      simp [powers]
    · rw [List.getD_eq_default _ _ (by omega), List.getD_eq_default _ _ (by rw [hW.R]; omega), zero_mul]
  have hd : inner ((vec (nextPow2 n) fun i => W.wR.getD i 0 * c.y⁻¹ ^ i).take n) W.wL = delta c n W := by
    rw [vec_take _ _ _ hp]
    conv_lhs => rw [vec_getD hW.L]
    rw [inner_vec, delta]
  simp only [verifierScalars]
  rw [e1, hd, ones_vec n1 n _ c.u hn hp, pad_vec hW.L hp, pad_vec hW.O hp, powers_vec]
  rw [List.take_of_length_le (by omega : s.length ≤ nextPow2 n), List.take_of_length_le (by rw [List.length_reverse]; omega : s.reverse.length ≤ nextPow2 n)]
  have es := vec_getD hs
  have er := vec_getD (l := s.reverse) (n := nextPow2 n) (by rw [List.length_reverse]; exact hs)
  generalize hS : (fun i => s.getD i 0) = S at *
  generalize hR : (fun i => s.reverse.getD i 0) = S' at *
  have hS' : ∀ i, s.getD i 0 = S i := fun i => by rw [← hS]
  have hR' : ∀ i, s.reverse.getD i 0 = S' i := fun i => by rw [← hR]
  simp only [hS', hR']
  rw [er]
  clear hR' hR
  rw [es]
  simp only [vec_zip, vec_zipWith]
  congr 4
  · congr 1
    funext i
    simp only [uFac]; ring
  · funext i
    simp only [uFac]; ring

theorem ev_sub_smul (n : Nat) (G : List V) (a b : Nat → F) (c : F) : msm (vec n fun i => a i - c * b i) G = ev n G a - c • ev n G b := by
  have : (fun i => a i - c * b i) = a - c • b := rfl
  rw [← ev_apply, this, map_sub, map_smul]

theorem scale_ev (f : Nat → F) (n : Nat) (s : List F) (hs : s.length = n) (G : List V) :
    msm s (scaleBy (vec n f) G) = ev n G fun i => f i * s.getD i 0 := by
  conv_lhs => rw [vec_getD hs]
  rw [← ev_apply, ev_scale, hadamard, vec_zipWith, ev_apply]
  congr 1
  apply vec_congr
  intro i _
  ring

/-- **What `verify` checks**, for proofs of the right shape. -/
theorem verifyRest_iff (O : Transcript F V → F) (t : VState F V) (n1 : Nat) (p : R1CSProof F V) (g h : V) (G H : List V) (r : F) (W : Weights F)
    (hn : n1 ≤ t.numVars) (hG : nextPow2 t.numVars ≤ G.length) (hH : nextPow2 t.numVars ≤ H.length)
    (hL : p.ipp.L.length = Nat.clog 2 t.numVars) (hR : p.ipp.R.length = p.ipp.L.length) (h32 : p.ipp.L.length < 32)
    (c : Chal F) (tr : Transcript F V) (hc : verifierChallenges O p t.tr = (c, tr))
    (hW : flatten t.numVars t.V.length t.cons c.z = .ok W) (xs : List F)
    (hxs : (ippChallenges O (ippDomSep (nextPow2 t.numVars) tr) p.ipp.L p.ipp.R).1 = xs) (hx : ∀ x ∈ xs, x ≠ 0) :
    verifyRest O t n1 p g h G H r =
      if ippGap c t.numVars n1 W p g h (G.take (nextPow2 t.numVars)) (H.take (nextPow2 t.numVars)) xs + r • tGap c t.numVars W p g h t.V = 0
      then .ok () else .err .verification := by
  have hpn : nextPow2 t.numVars = 2 ^ p.ipp.L.length := by rw [nextPow2, hL]
  have hxl : xs.length = p.ipp.L.length := by rw [← hxs]; exact ippChallenges_length O _ _ _ hR
  have hWl := (flatten_ok hW).1
  have hvs := verificationScalars_ok O p.ipp.L p.ipp.R tr h32 hR (by rw [← hpn, hxs]; exact hx)
  rw [← hpn] at hvs
  simp only [hxs] at hvs
  rw [verifyRest]
  simp only
  rw [if_neg (by omega)]
  simp only [hc, hW, Res.ok_bind, hvs]
  simp only [slice]
  rw [if_pos ⟨by omega, hG⟩, if_pos ⟨by omega, hH⟩]
  simp only [Res.ok_bind, List.drop_zero, Nat.sub_zero]
  have hsl : (sVec xs).length = nextPow2 t.numVars := by simp [hxl, hpn]
  rw [verifierScalars_eq c _ _ _ hn W hWl p r _ _ _ hsl]
  generalize hGp : G.take (nextPow2 t.numVars) = Gp
  generalize hHp : H.take (nextPow2 t.numVars) = Hp
  have lG : Gp.length = nextPow2 t.numVars := by rw [← hGp]; simp [hG]
  have lH : Hp.length = nextPow2 t.numVars := by rw [← hHp]; simp [hH]
  rw [msmUnwrap, if_pos (by simp [hWl.V, lG, lH, hxl, hR])]
  simp only [Res.ok_bind]
  rw [msm_append (by simp [hWl.V, lG, lH, hxl]), msm_append (by simp [hWl.V, lG, lH, hxl]), msm_append (by simp [hWl.V, lG, lH, hxl]),
    msm_append (by simp [hWl.V, lG, lH, hxl]), msm_append (by simp [hWl.V, lG, lH, hxl]), msm_append (by simp [hWl.V, lG, lH, hxl]),
    msm_append (by simp)]
  have ewV : msm (W.wV.map fun v => v * (r * (c.x * c.x))) t.V = (r * (c.x * c.x)) • msm W.wV t.V := by
    rw [← msm_map_mul]; congr 1; apply List.map_congr_left; intro a _; ring
  rw [ewV, ev_sub_smul, ev_sub_smul]
  simp only [msm_cons, msm_nil_left, add_zero]
  congr 1
  rw [ippGap, pPoint, tGap, ippRhs, gFac, hFac, scale_ev _ _ _ hsl, scale_ev _ _ _ (by rw [List.length_reverse]; exact hsl), sqSum, invSqSum]
  apply propext
  have : ∀ {a b : V}, a = b → (a = 0 ↔ b = 0) := fun h => by rw [h]
  apply this
  module

end Verif.BP
