import Verif.Props.BPIpp
import Mathlib.Algebra.Module.LinearMap.Defs
import Mathlib.Algebra.BigOperators.Fin
import Mathlib.Algebra.Module.BigOperators
import Mathlib.Tactic.FinCases
set_option linter.unusedSectionVars false
set_option linter.unusedSimpArgs false
set_option linter.unusedVariables false
/-!
# Inner product argument: knowledge soundness (C110)

A forking extractor for `verify_ipp`: from accepting proofs arranged in a tree (four values of each round's challenge for the same points `L`, `R` before
it, with different squares), a function of the *scalars* of the tree computes vectors `a`, `b` that open `P`, or a nontrivial linear relation between the
bases.  It never looks at group elements, so it cannot use the fact that some relation always exists.
-/
namespace Verif.BP
variable {F V : Type} [Field F] [AddCommGroup V] [Module F V] [DecidableEq F] [DecidableEq V]

/-- Accepting proofs that share prefixes: at each round the same `L` and `R`, four challenges, and what follows each of them. -/
inductive Fork (F V : Type) where
  | leaf (a b : F)
  | node (L R : V) (x : Fin 4 → F) (t : Fin 4 → Fork F V)

/-- the scalars of such a tree -/
inductive Tree (F : Type) where
  | leaf (a b : F)
  | node (x : Fin 4 → F) (t : Fin 4 → Tree F)

/-- forget the group elements -/
def Fork.scalars : Fork F V → Tree F
  | .leaf a b => .leaf a b
  | .node _ _ x t => .node x fun i => (t i).scalars

/-- a run from the root to a leaf: the points, the challenges, and the last two scalars -/
inductive Fork.Path : Fork F V → List V → List V → List F → F → F → Prop
  | leaf (a b : F) : Path (.leaf a b) [] [] [] a b
  | node {L R : V} {x : Fin 4 → F} {t : Fin 4 → Fork F V} (i : Fin 4) {Ls Rs : List V} {xs : List F} {a b : F} :
      Path (t i) Ls Rs xs a b → Path (.node L R x t) (L :: Ls) (R :: Rs) (x i :: xs) a b

/-- all runs have `k` rounds; the challenges of a node are not zero and their squares are different -/
def Fork.Good : Nat → Fork F V → Prop
  | 0, .leaf _ _ => True
  | k + 1, .node _ _ x t => (∀ i, x i ≠ 0) ∧ (∀ i j, x i * x i = x j * x j → i = j) ∧ ∀ i, Good k (t i)
  | _, _ => False

/-- what the extractor returns -/
inductive Out (F : Type) where
  | wit (a b : Nat → F)
  | rel (α β : Nat → F) (γ : F)

/-- the first `n` entries of a vector -/
def vec (n : Nat) (a : Nat → F) : List F := (List.range n).map a

/-- both halves: `x·a` and `y·a` -/
def halves (m : Nat) (x y : F) (a : Nat → F) : Nat → F := fun j => if j < m then x * a j else y * a (j - m)

/-- coefficients of a combination of four points of the form `P + w·L + w⁻¹·R` that is always 0 -/
def killCoef (w : Fin 4 → F) : Fin 4 → F
  | 0 => w 0 * ((w 0 - w 1) * (w 0 - w 2) * (w 0 - w 3))⁻¹
  | 1 => w 1 * ((w 1 - w 0) * (w 1 - w 2) * (w 1 - w 3))⁻¹
  | 2 => w 2 * ((w 2 - w 0) * (w 2 - w 1) * (w 2 - w 3))⁻¹
  | 3 => w 3 * ((w 3 - w 0) * (w 3 - w 1) * (w 3 - w 2))⁻¹

/-- coefficients that extract `P` from three points of that form -/
def openCoef (w : Fin 4 → F) : Fin 4 → F
  | 0 => -w 0 * (w 1 + w 2) * ((w 0 - w 1) * (w 0 - w 2))⁻¹
  | 1 => -w 1 * (w 0 + w 2) * ((w 1 - w 0) * (w 1 - w 2))⁻¹
  | 2 => -w 2 * (w 0 + w 1) * ((w 2 - w 0) * (w 2 - w 1))⁻¹
  | 3 => 0

/-- the extractor: the tree has `k` rounds -/
def extract : Nat → Tree F → Out F
  | _, .leaf a b => .wit (fun _ => a) (fun _ => b)
  | 0, .node _ _ => .wit 0 0
  | k + 1, .node x t =>
    let m := 2 ^ k
    let up (i : Fin 4) (α β : Nat → F) (γ : F) : (Nat → F) × (Nat → F) × F := (halves m (x i)⁻¹ (x i) α, halves m (x i) (x i)⁻¹ β, γ)
    let out (r : (Nat → F) × (Nat → F) × F) : Out F := .rel r.1 r.2.1 r.2.2
    match extract k (t 0), extract k (t 1), extract k (t 2), extract k (t 3) with
    | .rel α β γ, _, _, _ => out (up 0 α β γ)
    | _, .rel α β γ, _, _ => out (up 1 α β γ)
    | _, _, .rel α β γ, _ => out (up 2 α β γ)
    | _, _, _, .rel α β γ => out (up 3 α β γ)
    | .wit a0 b0, .wit a1 b1, .wit a2 b2, .wit a3 b3 =>
      let a : Fin 4 → Nat → F := ![a0, a1, a2, a3]
      let b : Fin 4 → Nat → F := ![b0, b1, b2, b3]
      let rep (i : Fin 4) : (Nat → F) × (Nat → F) × F := up i (a i) (b i) (inner (vec m (a i)) (vec m (b i)))
      let w (i : Fin 4) : F := x i * x i
      let z := ∑ i, killCoef w i • rep i
      if (∀ j < 2 * m, z.1 j = 0 ∧ z.2.1 j = 0) ∧ z.2.2 = 0 then
        let p := ∑ i, openCoef w i • rep i
        .wit p.1 p.2.1
      else out z

/-! ## Proof -/

theorem msm_zipWith_add (n : Nat) (a b : Nat → F) (G : List V) : msm (vec n (a + b)) G = msm (vec n a) G + msm (vec n b) G := by
  induction n generalizing a b G with
  | zero => simp [vec]
  | succ n ih =>
    cases G with
    | nil => simp
    | cons g G =>
      have := ih (fun i => a (i + 1)) (fun i => b (i + 1)) G
      simp only [vec, List.range_succ_eq_map, List.map_cons, List.map_map, msm_cons, Pi.add_apply] at *
      simp only [Function.comp_def, Pi.add_apply, Nat.succ_eq_add_one] at *
      have this' : msm (List.map (fun x => a (x + 1) + b (x + 1)) (List.range n)) G = _ := this
      rw [this', add_smul]; abel

theorem msm_vec_smul (n : Nat) (c : F) (a : Nat → F) (G : List V) : msm (vec n (c • a)) G = c • msm (vec n a) G := by
  rw [← msm_map_mul]; congr 1; simp [vec, Function.comp_def]

/-- evaluation of a vector of scalars on bases, a linear map -/
def ev (n : Nat) (G : List V) : (Nat → F) →ₗ[F] V where
  toFun a := msm (vec n a) G
  map_add' a b := msm_zipWith_add n a b G
  map_smul' c a := by simpa using msm_vec_smul n c a G

theorem ev_apply (n : Nat) (G : List V) (a : Nat → F) : ev n G a = msm (vec n a) G := rfl

theorem vec_add (m n : Nat) (a : Nat → F) : vec (m + n) a = vec m a ++ vec n (fun j => a (m + j)) := by
  simp [vec, List.range_add, Function.comp_def]

@[simp] theorem vec_length (n : Nat) (a : Nat → F) : (vec n a).length = n := by simp [vec]

theorem vec_halves (m : Nat) (x y : F) (a : Nat → F) : vec (m + m) (halves m x y a) = (vec m a).map (fun z => x * z) ++ (vec m a).map (fun z => y * z) := by
  rw [vec_add]
  congr 1
  · simp only [vec, List.map_map]
    apply List.map_congr_left
    intro j hj
    simp [halves, List.mem_range.1 hj]
  · simp only [vec, List.map_map]
    apply List.map_congr_left
    intro j hj
    simp [halves]

theorem ev_halves (m : Nat) (x y : F) (a : Nat → F) (G : List V) (hG : G.length = m + m) :
    ev (m + m) G (halves m x y a) = ev m (foldBases none x y (G.take m) (G.drop m)) a := by
  rw [ev_apply, ev_apply, vec_halves, sFold x y (vec m a) G m (by simp [hG]) (by simp [hG]) (by simp)]

/-- the equation that `verify_ipp` checks -/
def PathEq (G H : List V) (u P : V) (xs : List F) (L R : List V) (a b : F) : Prop :=
  P = (a * b) • u + a • msm (sVec xs) G + b • msm (sVec xs).reverse H - sqSum xs L - invSqSum xs R

theorem PathEq.step {G H : List V} {u P : V} {x : F} {xs : List F} {L R : V} {Ls Rs : List V} {a b : F} {m : Nat} (hm : m = 2 ^ xs.length)
    (hG : G.length = m + m) (hH : H.length = m + m) (h : PathEq G H u P (x :: xs) (L :: Ls) (R :: Rs) a b) :
    PathEq (foldBases none x⁻¹ x (G.take m) (G.drop m)) (foldBases none x x⁻¹ (H.take m) (H.drop m)) u
      (P + (x * x) • L + (x⁻¹ * x⁻¹) • R) xs Ls Rs a b := by
  simp only [PathEq] at *
  rw [sVec_reverse_cons, sVec, sFold x⁻¹ x (sVec xs) G m (by simp [hG]) (by simp [hG]) (by simp [hm]),
    sFold x x⁻¹ (sVec xs).reverse H m (by simp [hH]) (by simp [hH]) (by simp [hm])] at h
  rw [h]
  simp only [sqSum, invSqSum, List.map_cons, msm_cons]
  abel

theorem Fork.Path.length {T : Fork F V} {Ls Rs : List V} {xs : List F} {a b : F} (h : T.Path Ls Rs xs a b) : ∀ {k : Nat}, T.Good k →
    xs.length = k ∧ Ls.length = k ∧ Rs.length = k := by
  induction h with
  | leaf a b => intro k hk; cases k <;> simp_all [Fork.Good]
  | node i hp ih =>
    intro k hk
    cases k with
    | zero => simp [Fork.Good] at hk
    | succ k => obtain ⟨h1, h2, h3⟩ := ih (hk.2.2 i); simp [h1, h2, h3]

theorem Fork.Path.ne_zero {T : Fork F V} {Ls Rs : List V} {xs : List F} {a b : F} (h : T.Path Ls Rs xs a b) : ∀ {k : Nat}, T.Good k →
    ∀ x ∈ xs, x ≠ 0 := by
  induction h with
  | leaf => simp
  | node i _ ih =>
    intro k hk
    cases k with
    | zero => simp [Fork.Good] at hk
    | succ k =>
      intro x hx
      rcases List.mem_cons.1 hx with rfl | hx
      · exact hk.1 i
      · exact ih (hk.2.2 i) x hx

/-- what the output of the extractor has to satisfy, for bases `G`, `H`, `u` and the point `P` -/
def Out.Valid (n : Nat) (G H : List V) (u P : V) : Out F → Prop
  | .wit a b => P = ev n G a + ev n H b + inner (vec n a) (vec n b) • u
  | .rel α β γ => ((∃ j < n, α j ≠ 0 ∨ β j ≠ 0) ∨ γ ≠ 0) ∧ ev n G α + ev n H β + γ • u = 0

section coef
variable {w : Fin 4 → F} (h0 : ∀ i, w i ≠ 0) (hd : ∀ i j, w i = w j → i = j)
include h0 hd

theorem coef_ne {i j : Fin 4} (h : i ≠ j) : w i - w j ≠ 0 := fun e => h (hd i j (sub_eq_zero.1 e))

theorem kill_sums : ∑ i, killCoef w i = 0 ∧ ∑ i, killCoef w i * w i = 0 ∧ ∑ i, killCoef w i * (w i)⁻¹ = 0 := by
  have e := @coef_ne F _ _ w h0 hd
  have h01 := e (show (0 : Fin 4) ≠ 1 by decide); have h10 := e (show (1 : Fin 4) ≠ 0 by decide)
  have h02 := e (show (0 : Fin 4) ≠ 2 by decide); have h20 := e (show (2 : Fin 4) ≠ 0 by decide)
  have h03 := e (show (0 : Fin 4) ≠ 3 by decide); have h30 := e (show (3 : Fin 4) ≠ 0 by decide)
  have h12 := e (show (1 : Fin 4) ≠ 2 by decide); have h21 := e (show (2 : Fin 4) ≠ 1 by decide)
  have h13 := e (show (1 : Fin 4) ≠ 3 by decide); have h31 := e (show (3 : Fin 4) ≠ 1 by decide)
  have h23 := e (show (2 : Fin 4) ≠ 3 by decide); have h32 := e (show (3 : Fin 4) ≠ 2 by decide)
  have z0 := h0 0; have z1 := h0 1; have z2 := h0 2; have z3 := h0 3
  have s10 : w 1 - w 0 = -(w 0 - w 1) := by ring
  have s20 : w 2 - w 0 = -(w 0 - w 2) := by ring
  have s30 : w 3 - w 0 = -(w 0 - w 3) := by ring
  have s21 : w 2 - w 1 = -(w 1 - w 2) := by ring
  have s31 : w 3 - w 1 = -(w 1 - w 3) := by ring
  have s32 : w 3 - w 2 = -(w 2 - w 3) := by ring
  simp only [Fin.sum_univ_four, killCoef, s10, s20, s30, s21, s31, s32]
  refine ⟨?_, ?_, ?_⟩ <;> · field_simp; ring

theorem open_sums : ∑ i, openCoef w i = 1 ∧ ∑ i, openCoef w i * w i = 0 ∧ ∑ i, openCoef w i * (w i)⁻¹ = 0 := by
  have e := @coef_ne F _ _ w h0 hd
  have h01 := e (show (0 : Fin 4) ≠ 1 by decide)
  have h02 := e (show (0 : Fin 4) ≠ 2 by decide)
  have h12 := e (show (1 : Fin 4) ≠ 2 by decide)
  have z0 := h0 0; have z1 := h0 1; have z2 := h0 2
  have s10 : w 1 - w 0 = -(w 0 - w 1) := by ring
  have s20 : w 2 - w 0 = -(w 0 - w 2) := by ring
  have s21 : w 2 - w 1 = -(w 1 - w 2) := by ring
  simp only [Fin.sum_univ_four, openCoef, s10, s20, s21]
  refine ⟨?_, ?_, ?_⟩ <;> · field_simp; ring

end coef

/-- four values `aᵢ` killed by both combinations are of the form `xᵢ·α + xᵢ⁻¹·β` -/
theorem solve {x : Fin 4 → F} (h0 : ∀ i, x i ≠ 0) (hd : ∀ i j, x i * x i = x j * x j → i = j) (a : Fin 4 → F)
    (e1 : ∑ i, killCoef (fun i => x i * x i) i * ((x i)⁻¹ * a i) = 0) (e2 : ∑ i, killCoef (fun i => x i * x i) i * (x i * a i) = 0) (i : Fin 4) :
    a i = x i * (∑ i, openCoef (fun i => x i * x i) i * ((x i)⁻¹ * a i)) + (x i)⁻¹ * (∑ i, openCoef (fun i => x i * x i) i * (x i * a i)) := by
  have hw0 : ∀ i, (fun i => x i * x i) i ≠ 0 := fun i => mul_ne_zero (h0 i) (h0 i)
  obtain ⟨k1, k2, k3⟩ := kill_sums hw0 hd
  obtain ⟨o1, o2, o3⟩ := open_sums hw0 hd
  have e := @coef_ne F _ _ _ hw0 hd
  -- α, β that match the first two
  obtain ⟨α, β, m0, m1⟩ : ∃ α β, a 0 = x 0 * α + (x 0)⁻¹ * β ∧ a 1 = x 1 * α + (x 1)⁻¹ * β := by
    have h01 : x 0 * x 0 - x 1 * x 1 ≠ 0 := e (show (0 : Fin 4) ≠ 1 by decide)
    have h01' : x 0 ^ 2 - x 1 ^ 2 ≠ 0 := by simpa [sq] using h01
    have z0 := h0 0; have z1 := h0 1
    refine ⟨(x 0 * a 0 - x 1 * a 1) / (x 0 * x 0 - x 1 * x 1), x 0 * a 0 - x 0 * x 0 * ((x 0 * a 0 - x 1 * a 1) / (x 0 * x 0 - x 1 * x 1)), ?_, ?_⟩
    · field_simp; ring
    · field_simp; ring
  have key : ∀ i, a i = x i * α + (x i)⁻¹ * β := by
    have hc : ∀ i, killCoef (fun i => x i * x i) i ≠ 0 := by
      intro i
      have z := hw0 i
      fin_cases i <;> simp only [killCoef] <;>
        exact mul_ne_zero z (inv_ne_zero (mul_ne_zero (mul_ne_zero (e (by decide)) (e (by decide))) (e (by decide))))
    generalize killCoef (fun i => x i * x i) = c at *
    simp only [Fin.sum_univ_four] at k1 k2 k3 e1 e2
    have i0 : x 0 * (x 0)⁻¹ = 1 := mul_inv_cancel₀ (h0 0)
    have i1 : x 1 * (x 1)⁻¹ = 1 := mul_inv_cancel₀ (h0 1)
    have i2 : x 2 * (x 2)⁻¹ = 1 := mul_inv_cancel₀ (h0 2)
    have i3 : x 3 * (x 3)⁻¹ = 1 := mul_inv_cancel₀ (h0 3)
    simp only [mul_inv] at k3
    generalize hy0 : (x 0)⁻¹ = y0 at *
    generalize hy1 : (x 1)⁻¹ = y1 at *
    generalize hy2 : (x 2)⁻¹ = y2 at *
    generalize hy3 : (x 3)⁻¹ = y3 at *
    have f1 : c 2 * (y2 * (a 2 - (x 2 * α + y2 * β))) + c 3 * (y3 * (a 3 - (x 3 * α + y3 * β))) = 0 := by
      rw [m0, m1] at e1
      linear_combination e1 - α * k1 - β * k3 + (c 0 * (-α)) * i0 + (c 1 * (-α)) * i1 + (c 2 * (-α)) * i2 + (c 3 * (-α)) * i3
    have f2 : c 2 * (x 2 * (a 2 - (x 2 * α + y2 * β))) + c 3 * (x 3 * (a 3 - (x 3 * α + y3 * β))) = 0 := by
      rw [m0, m1] at e2
      linear_combination e2 - α * k2 - β * k1 + (c 0 * (-β)) * i0 + (c 1 * (-β)) * i1 + (c 2 * (-β)) * i2 + (c 3 * (-β)) * i3
    have h23 : x 2 * x 2 - x 3 * x 3 ≠ 0 := e (show (2 : Fin 4) ≠ 3 by decide)
    have g2 : a 2 - (x 2 * α + y2 * β) = 0 := by
      have : c 2 * (x 2 * x 2 - x 3 * x 3) * (a 2 - (x 2 * α + y2 * β)) = 0 := by
        linear_combination x 2 * f2 - x 2 * x 3 * x 3 * f1 + (c 3 * x 2 * x 3 * (a 3 - (x 3 * α + y3 * β))) * i3 +
          (c 2 * x 3 * x 3 * (a 2 - (x 2 * α + y2 * β))) * i2
      exact (mul_eq_zero.1 this).resolve_left (mul_ne_zero (hc 2) h23)
    have g3 : a 3 - (x 3 * α + y3 * β) = 0 := by
      rw [g2] at f2
      simpa [hc 3, h0 3] using f2
    intro i
    fin_cases i
    · show a 0 = x 0 * α + (x 0)⁻¹ * β
      rw [hy0]; exact m0
    · show a 1 = x 1 * α + (x 1)⁻¹ * β
      rw [hy1]; exact m1
    · show a 2 = x 2 * α + (x 2)⁻¹ * β
      rw [hy2]; exact sub_eq_zero.1 g2
    · show a 3 = x 3 * α + (x 3)⁻¹ * β
      rw [hy3]; exact sub_eq_zero.1 g3
  have hα : ∑ i, openCoef (fun i => x i * x i) i * ((x i)⁻¹ * a i) = α := by
    have : ∀ i, openCoef (fun i => x i * x i) i * ((x i)⁻¹ * a i) =
        openCoef (fun i => x i * x i) i * α + openCoef (fun i => x i * x i) i * (x i * x i)⁻¹ * β := by
      intro i; rw [key i]; have := h0 i; field_simp
    rw [Finset.sum_congr rfl fun i _ => this i, Finset.sum_add_distrib, ← Finset.sum_mul, ← Finset.sum_mul, o1, o3]; ring
  have hβ : ∑ i, openCoef (fun i => x i * x i) i * (x i * a i) = β := by
    have : ∀ i, openCoef (fun i => x i * x i) i * (x i * a i) =
        openCoef (fun i => x i * x i) i * (x i * x i) * α + openCoef (fun i => x i * x i) i * β := by
      intro i; rw [key i]; have := h0 i; field_simp
    rw [Finset.sum_congr rfl fun i _ => this i, Finset.sum_add_distrib, ← Finset.sum_mul, ← Finset.sum_mul, o1, o2]; ring
  rw [hα, hβ]; exact key i

theorem inner_vec (n : Nat) (a b : Nat → F) : inner (vec n a) (vec n b) = ∑ j ∈ Finset.range n, a j * b j := by
  induction n with
  | zero => simp [vec]
  | succ n ih =>
    rw [vec_add, vec_add, inner_append (by simp), ih, Finset.sum_range_succ]
    simp [vec, inner]

/-- evaluation of the three parts of a representation -/
def evRep (n : Nat) (G H : List V) (u : V) : ((Nat → F) × (Nat → F) × F) →ₗ[F] V where
  toFun r := ev n G r.1 + ev n H r.2.1 + r.2.2 • u
  map_add' r s := by simp only [Prod.fst_add, Prod.snd_add, map_add, add_smul]; abel
  map_smul' c r := by simp only [Prod.smul_fst, Prod.smul_snd, map_smul, smul_add, smul_eq_mul, mul_smul, RingHom.id_apply]

theorem evRep_apply (n : Nat) (G H : List V) (u : V) (r : (Nat → F) × (Nat → F) × F) :
    evRep n G H u r = ev n G r.1 + ev n H r.2.1 + r.2.2 • u := rfl

theorem node_wit {x : Fin 4 → F} (hx : ∀ i, x i ≠ 0) (hd : ∀ i j, x i * x i = x j * x j → i = j) (m : Nat) (G H : List V) (u P L R : V)
    (hG : G.length = m + m) (hH : H.length = m + m) (a b : Fin 4 → Nat → F)
    (h : ∀ i, P + (x i * x i) • L + ((x i)⁻¹ * (x i)⁻¹) • R =
      ev m (foldBases none (x i)⁻¹ (x i) (G.take m) (G.drop m)) (a i) + ev m (foldBases none (x i) (x i)⁻¹ (H.take m) (H.drop m)) (b i) +
        inner (vec m (a i)) (vec m (b i)) • u) :
    let rep : Fin 4 → (Nat → F) × (Nat → F) × F := fun i =>
      (halves m (x i)⁻¹ (x i) (a i), halves m (x i) (x i)⁻¹ (b i), inner (vec m (a i)) (vec m (b i)))
    let w := fun i => x i * x i
    let z := ∑ i, killCoef w i • rep i
    let p := ∑ i, openCoef w i • rep i
    Out.Valid (m + m) G H u P
      (if (∀ j < 2 * m, z.1 j = 0 ∧ z.2.1 j = 0) ∧ z.2.2 = 0 then Out.wit p.1 p.2.1 else Out.rel z.1 z.2.1 z.2.2) := by
  intro rep w z p
  have hw0 : ∀ i, w i ≠ 0 := fun i => mul_ne_zero (hx i) (hx i)
  obtain ⟨k1, k2, k3⟩ := kill_sums hw0 hd
  obtain ⟨o1, o2, o3⟩ := open_sums hw0 hd
  have hrep : ∀ i, evRep (m + m) G H u (rep i) = P + w i • L + (w i)⁻¹ • R := by
    intro i
    rw [evRep_apply]
    simp only [rep, w]
    rw [ev_halves m _ _ _ G hG, ev_halves m _ _ _ H hH, ← h i, mul_inv]
  have hcomb : ∀ c : Fin 4 → F, evRep (m + m) G H u (∑ i, c i • rep i) = (∑ i, c i) • P + (∑ i, c i * w i) • L + (∑ i, c i * (w i)⁻¹) • R := by
    intro c
    simp only [map_sum, map_smul, hrep, Finset.sum_smul, ← Finset.sum_add_distrib]
    refine Finset.sum_congr rfl fun i _ => ?_
    module
  have hz : evRep (m + m) G H u z = 0 := by rw [hcomb, k1, k2, k3]; simp
  have hp : evRep (m + m) G H u p = P := by rw [hcomb, o1, o2, o3]; simp
  split
  · rename_i hcond
    simp only [Out.Valid]
    rw [← hp, evRep_apply]
    have hpin : p.2.2 = inner (vec (m + m) p.1) (vec (m + m) p.2.1) := by
      have hz1 : ∀ j < m, ∀ i, a i j = x i * p.1 j + (x i)⁻¹ * p.1 (m + j) := by
        intro j hj i
        have q1 := (hcond.1 j (by omega)).1
        have q2 := (hcond.1 (m + j) (by omega)).1
        have := solve hx hd (fun i => a i j) (by simpa [z, rep, halves, hj, Prod.fst_sum, Finset.sum_apply] using q1)
          (by simpa [z, rep, halves, Prod.fst_sum, Finset.sum_apply] using q2) i
        simpa [p, rep, w, halves, hj, Prod.fst_sum, Finset.sum_apply] using this
      have hz2 : ∀ j < m, ∀ i, b i j = x i * p.2.1 (m + j) + (x i)⁻¹ * p.2.1 j := by
        intro j hj i
        have q1 := (hcond.1 j (by omega)).2
        have q2 := (hcond.1 (m + j) (by omega)).2
        have := solve hx hd (fun i => b i j) (by simpa [z, rep, halves, Prod.fst_sum, Prod.snd_sum, Finset.sum_apply] using q2)
          (by simpa [z, rep, halves, hj, Prod.fst_sum, Prod.snd_sum, Finset.sum_apply] using q1) i
        simpa [p, rep, w, halves, hj, Prod.fst_sum, Prod.snd_sum, Finset.sum_apply] using this
      rw [vec_add, vec_add, inner_append (by simp), inner_vec, inner_vec]
      have : p.2.2 = ∑ i, openCoef w i * inner (vec m (a i)) (vec m (b i)) := by
        simp [p, rep, Prod.snd_sum]
      rw [this]
      have e : ∀ i, inner (vec m (a i)) (vec m (b i)) =
          (∑ j ∈ Finset.range m, (p.1 j * p.2.1 j + p.1 (m + j) * p.2.1 (m + j))) + w i * (∑ j ∈ Finset.range m, p.1 j * p.2.1 (m + j)) +
            (w i)⁻¹ * ∑ j ∈ Finset.range m, p.1 (m + j) * p.2.1 j := by
        intro i
        rw [inner_vec, Finset.mul_sum, Finset.mul_sum, ← Finset.sum_add_distrib, ← Finset.sum_add_distrib]
        refine Finset.sum_congr rfl fun j hj => ?_
        rw [hz1 j (Finset.mem_range.1 hj) i, hz2 j (Finset.mem_range.1 hj) i]
        have := hx i
        simp only [w]
        field_simp
        ring
      simp only [e]
      rw [← Finset.sum_add_distrib]
      have e2 : ∀ A B C : F, ∑ i, openCoef w i * (A + w i * B + (w i)⁻¹ * C) = A := by
        intro A B C
        have : ∀ i, openCoef w i * (A + w i * B + (w i)⁻¹ * C) = openCoef w i * A + openCoef w i * w i * B + openCoef w i * (w i)⁻¹ * C := by
          intro i; ring
        simp only [this, Finset.sum_add_distrib, ← Finset.sum_mul, o1, o2, o3]; ring
      rw [e2]
    rw [hpin]
  · rename_i hcond
    refine ⟨?_, by rw [← hz, evRep_apply]⟩
    by_contra hcon
    apply hcond
    push Not at hcon
    exact ⟨fun j hj => hcon.1 j (by omega), hcon.2⟩

theorem rel_lift {m : Nat} {G H : List V} {u P P' : V} {x : F} (hx : x ≠ 0) (hG : G.length = m + m) (hH : H.length = m + m) {α β : Nat → F} {γ : F}
    (h : Out.Valid m (foldBases none x⁻¹ x (G.take m) (G.drop m)) (foldBases none x x⁻¹ (H.take m) (H.drop m)) u P' (.rel α β γ)) :
    Out.Valid (m + m) G H u P (.rel (halves m x⁻¹ x α) (halves m x x⁻¹ β) γ) := by
  obtain ⟨h1, h2⟩ := h
  refine ⟨?_, by rw [ev_halves m _ _ _ G hG, ev_halves m _ _ _ H hH]; exact h2⟩
  rcases h1 with ⟨j, hj, h1⟩ | h1
  · left
    refine ⟨j, by omega, ?_⟩
    simp only [halves, hj, if_true]
    rcases h1 with h1 | h1
    · left; exact mul_ne_zero (inv_ne_zero hx) h1
    · right; exact mul_ne_zero hx h1
  · right; exact h1

theorem extract_valid (u : V) (T : Fork F V) : ∀ (k : Nat) (G H : List V) (P : V), T.Good k → G.length = 2 ^ k → H.length = 2 ^ k →
    (∀ Ls Rs xs a b, T.Path Ls Rs xs a b → PathEq G H u P xs Ls Rs a b) → (extract k T.scalars).Valid (2 ^ k) G H u P := by
  induction T with
  | leaf a b =>
    intro k G H P hk hG hH h
    cases k with
    | succ k => simp [Fork.Good] at hk
    | zero =>
      obtain ⟨g, rfl⟩ := List.length_eq_one_iff.1 hG
      obtain ⟨g', rfl⟩ := List.length_eq_one_iff.1 hH
      have := h _ _ _ _ _ (.leaf a b)
      simp only [PathEq, sVec, sqSum, invSqSum] at this
      simp only [extract, Fork.scalars, Out.Valid, ev_apply]
      rw [this]
      simp [vec, msm, inner]
      abel
  | node L R x t ih =>
    intro k G H P hk hG hH h
    cases k with
    | zero => simp [Fork.Good] at hk
    | succ k =>
      obtain ⟨hx, hd, ht⟩ := hk
      have e2 : 2 ^ (k + 1) = 2 ^ k + 2 ^ k := by rw [pow_succ]; omega
      rw [e2] at hG hH ⊢
      have hv : ∀ i, (extract k (t i).scalars).Valid (2 ^ k) (foldBases none (x i)⁻¹ (x i) (G.take (2 ^ k)) (G.drop (2 ^ k)))
          (foldBases none (x i) (x i)⁻¹ (H.take (2 ^ k)) (H.drop (2 ^ k))) u (P + (x i * x i) • L + ((x i)⁻¹ * (x i)⁻¹) • R) := by
        intro i
        refine ih i k _ _ _ (ht i) (by simp [foldBases, hG]) (by simp [foldBases, hH]) ?_
        intro Ls Rs xs a b hp
        have hl := (hp.length (ht i)).1
        exact (h _ _ _ _ _ (.node i hp)).step (by rw [hl]) hG hH
      have v0 := hv 0
      have v1 := hv 1
      have v2 := hv 2
      have v3 := hv 3
      simp only [extract, Fork.scalars]
      rcases h0 : extract k (t 0).scalars with ⟨a0, b0⟩ | ⟨α, β, γ⟩ <;> rw [h0] at v0
      swap
      · exact rel_lift (hx 0) hG hH v0
      rcases h1 : extract k (t 1).scalars with ⟨a1, b1⟩ | ⟨α, β, γ⟩ <;> rw [h1] at v1
      swap
      · exact rel_lift (hx 1) hG hH v1
      rcases h2 : extract k (t 2).scalars with ⟨a2, b2⟩ | ⟨α, β, γ⟩ <;> rw [h2] at v2
      swap
      · exact rel_lift (hx 2) hG hH v2
      rcases h3 : extract k (t 3).scalars with ⟨a3, b3⟩ | ⟨α, β, γ⟩ <;> rw [h3] at v3
      swap
      · exact rel_lift (hx 3) hG hH v3
      refine node_wit hx hd (2 ^ k) G H u P L R hG hH ![a0, a1, a2, a3] ![b0, b1, b2, b3] ?_
      intro i
      fin_cases i
      · exact v0
      · exact v1
      · exact v2
      · exact v3

theorem ev_scale (n : Nat) (f : List F) (G : List V) (a : Nat → F) : ev n (scaleBy f G) a = msm (hadamard (vec n a) f) G := by
  rw [msm_hadamard]; rfl

/-- What is claimed of the output of the extractor, in terms of the inputs of `verify_ipp`: an opening of `P` with the right inner product, or a linear
combination of the bases `G`, `H`, `u`, not all of whose coefficients are 0, that is 0. -/
def Out.Spec (n : Nat) (gf hf : List F) (P u : V) (G H : List V) : Out F → Prop
  | .wit a b => P = msm (hadamard (vec n a) gf) G + msm (hadamard (vec n b) hf) H + inner (vec n a) (vec n b) • u
  | .rel α β γ => (∃ c ∈ hadamard (vec n α) gf ++ hadamard (vec n β) hf ++ [γ], c ≠ 0) ∧
      msm (hadamard (vec n α) gf ++ hadamard (vec n β) hf ++ [γ]) (G ++ H ++ [u]) = 0

theorem hadamard_ne {n : Nat} {f : List F} (hf : f.length = n) (h0 : ∀ c ∈ f, c ≠ 0) {a : Nat → F} {j : Nat} (hj : j < n) (ha : a j ≠ 0) :
    ∃ c ∈ hadamard (vec n a) f, c ≠ 0 := by
  refine ⟨a j * f[j]'(by omega), ?_, mul_ne_zero ha (h0 _ (List.getElem_mem _))⟩
  rw [List.mem_iff_getElem]
  refine ⟨j, by simp [hadamard, hf, hj], ?_⟩
  simp [hadamard, vec]

theorem Out.Valid.spec {k : Nat} {gf hf : List F} {P u : V} {G H : List V} (hG : G.length = k) (hH : H.length = k)
    (hgf : gf.length = k) (hhf : hf.length = k) (g0 : ∀ c ∈ gf, c ≠ 0) (h0 : ∀ c ∈ hf, c ≠ 0) {o : Out F}
    (h : o.Valid k (scaleBy gf G) (scaleBy hf H) u P) : o.Spec k gf hf P u G H := by
  cases o with
  | wit a b => simpa only [Out.Valid, Out.Spec, ev_scale] using h
  | rel α β γ =>
    simp only [Out.Valid, Out.Spec, ev_scale] at *
    obtain ⟨h1, h2⟩ := h
    constructor
    · rcases h1 with ⟨j, hj, h1 | h1⟩ | h1
      · obtain ⟨c, hc, hn⟩ := hadamard_ne hgf g0 hj h1
        exact ⟨c, by simp [hc], hn⟩
      · obtain ⟨c, hc, hn⟩ := hadamard_ne hhf h0 hj h1
        exact ⟨c, by simp [hc], hn⟩
      · exact ⟨γ, by simp, h1⟩
    · rw [msm_append (by simp [hadamard, *]), msm_append (by simp [hadamard, *]), msm_single]; exact h2

/-- **C110 (knowledge soundness of the inner product argument).** Let `T` be a tree of proofs for the same `P` that `verify_ipp` accepts, each under an
oracle that gives the challenges written in the tree.  Then the extractor, which sees only the scalars of `T`, returns vectors that open `P` and have
the claimed inner product, or a nontrivial relation between the bases. -/
theorem ipp_sound (tr : Transcript F V) (gf hf : List F) (P u : V) (G H : List V) (k : Nat) (hk : k < 32)
    (hG : G.length = 2 ^ k) (hH : H.length = 2 ^ k) (hgf : gf.length = 2 ^ k) (hhf : hf.length = 2 ^ k) (g0 : ∀ c ∈ gf, c ≠ 0)
    (h0 : ∀ c ∈ hf, c ≠ 0) (T : Fork F V) (hT : T.Good k)
    (hacc : ∀ Ls Rs xs a b, T.Path Ls Rs xs a b → ∃ O, (ippChallenges O (ippDomSep (2 ^ k) tr) Ls Rs).1 = xs ∧
      verifyIpp O (2 ^ k) tr gf hf P u G H a b Ls Rs = .ok ()) :
    (extract k T.scalars).Spec (2 ^ k) gf hf P u G H := by
  refine Out.Valid.spec hG hH hgf hhf g0 h0 ?_
  refine extract_valid u T k _ _ P hT (by rw [scaleBy_length _ _ (by omega), hG]) (by rw [scaleBy_length _ _ (by omega), hH]) ?_
  intro Ls Rs xs a b hp
  obtain ⟨O, hc, hv⟩ := hacc _ _ _ _ _ hp
  obtain ⟨l1, l2, l3⟩ := hp.length hT
  have := verifyIpp_iff O tr gf hf P u G H Ls Rs a b (by omega) (by omega) (by rw [l2, hG]) (by rw [l2, hH]) (by rw [l2, hgf]) (by rw [l2, hhf]) xs
    (by rw [l2]; exact hc) (hp.ne_zero hT)
  rw [l2, hv] at this
  split at this
  · assumption
  · simp at this

/-! ### Such trees exist -/

/-- an oracle for given challenges -/
theorem oracle_exists (L : List V) : ∀ (R : List V) (xs : List F) (tr : Transcript F V), R.length = L.length → xs.length = L.length →
    ∃ O, (ippChallenges O tr L R).1 = xs := by
  suffices h : ∀ (L R : List V) (xs pre : List F) (tr : Transcript F V) (n : Nat), R.length = L.length → xs.length = L.length →
      tr.length = n + 3 * pre.length → (ippChallenges (fun t => (pre ++ xs).getD ((t.length - n) / 3 - 1) 0) tr L R).1 = xs by
    intro R xs tr h1 h2
    exact ⟨_, h L R xs [] tr tr.length h1 h2 (by simp)⟩
  intro L
  induction L with
  | nil => intro R xs pre tr n _ h2 _; simp [ippChallenges]; exact List.length_eq_zero_iff.1 (by simpa using h2)
  | cons l L ih =>
    intro R xs pre tr n h1 h2 h3
    cases R with
    | nil => simp at h1
    | cons r R =>
      cases xs with
      | nil => simp at h2
      | cons x xs =>
        simp only [ippChallenges, challengeScalar, commitPoint]
        congr 1
        · have : (tr ++ [Msg.point "L" l] ++ [Msg.point "R" r] ++ [Msg.challenge "x"]).length = n + 3 * (pre.length + 1) := by simp; omega
          rw [this]
          have : (n + 3 * (pre.length + 1) - n) / 3 - 1 = pre.length := by omega
          rw [this]; simp
        · have := ih R xs (pre ++ [x]) (tr ++ [Msg.point "L" l] ++ [Msg.point "R" r] ++ [Msg.challenge "x"]) n (by simpa using h1)
            (by simpa using h2) (by simp; omega)
          rw [List.append_assoc, List.singleton_append] at this
          exact this

/-- the honest prover, run with each of four challenges at every round -/
def honestFork (u : V) (x : Fin 4 → F) : Nat → List V → List V → List F → List F → Fork F V
  | 0, _, _, a, b => .leaf (a.headD 0) (b.headD 0)
  | k + 1, G, H, a, b =>
    let n := 2 ^ k
    .node (msm (a.take n ++ b.drop n ++ [inner (a.take n) (b.drop n)]) (G.drop n ++ H.take n ++ [u]))
      (msm (a.drop n ++ b.take n ++ [inner (a.drop n) (b.take n)]) (G.take n ++ H.drop n ++ [u])) x fun i =>
      honestFork u x k (foldBases none (x i)⁻¹ (x i) (G.take n) (G.drop n)) (foldBases none (x i) (x i)⁻¹ (H.take n) (H.drop n))
        (List.zipWith (fun l r => l * x i + (x i)⁻¹ * r) (a.take n) (a.drop n))
        (List.zipWith (fun l r => l * (x i)⁻¹ + x i * r) (b.take n) (b.drop n))

theorem honestFork_good (u : V) (x : Fin 4 → F) (hx : ∀ i, x i ≠ 0) (hd : ∀ i j, x i * x i = x j * x j → i = j) (k : Nat) :
    ∀ (G H : List V) (a b : List F), (honestFork u x k G H a b).Good k := by
  induction k with
  | zero => intros; simp [honestFork, Fork.Good]
  | succ k ih => intros; exact ⟨hx, hd, fun i => ih _ _ _ _⟩

theorem honestFork_eq (u : V) (x : Fin 4 → F) (hx : ∀ i, x i ≠ 0) (hd : ∀ i j, x i * x i = x j * x j → i = j) (k : Nat) :
    ∀ (G H : List V) (a b : List F), G.length = 2 ^ k → H.length = 2 ^ k → a.length = 2 ^ k → b.length = 2 ^ k →
    ∀ Ls Rs xs a' b', (honestFork u x k G H a b).Path Ls Rs xs a' b' →
      PathEq G H u (msm a G + msm b H + inner a b • u) xs Ls Rs a' b' := by
  induction k with
  | zero =>
    intro G H a b hG hH ha hb Ls Rs xs a' b' hp
    obtain ⟨g, rfl⟩ := List.length_eq_one_iff.1 hG
    obtain ⟨h, rfl⟩ := List.length_eq_one_iff.1 hH
    obtain ⟨y, rfl⟩ := List.length_eq_one_iff.1 ha
    obtain ⟨z, rfl⟩ := List.length_eq_one_iff.1 hb
    simp only [honestFork] at hp
    cases hp
    simp [PathEq, sVec, sqSum, invSqSum, msm]
    abel
  | succ k ih =>
    intro G H a b hG hH ha hb Ls Rs xs a' b' hp
    have l1 : ∀ {α : Type} (l : List α), l.length = 2 ^ (k + 1) → (l.take (2 ^ k)).length = 2 ^ k := by
      intro α l hl; rw [List.length_take, hl, pow_succ]; omega
    have l2 : ∀ {α : Type} (l : List α), l.length = 2 ^ (k + 1) → (l.drop (2 ^ k)).length = 2 ^ k := by
      intro α l hl; rw [List.length_drop, hl, pow_succ]; omega
    simp only [honestFork] at hp
    cases hp
    rename_i i Ls Rs xs hp
    have hl := (hp.length (honestFork_good u x hx hd k _ _ _ _)).1
    have hq := ih _ _ _ _ (by simp only [foldBases, List.length_zipWith, l1 _ hG, l2 _ hG, min_self])
      (by simp only [foldBases, List.length_zipWith, l1 _ hH, l2 _ hH, min_self])
      (by simp only [List.length_zipWith, l1 _ ha, l2 _ ha, min_self]) (by simp only [List.length_zipWith, l1 _ hb, l2 _ hb, min_self]) _ _ _ _ _ hp
    rw [round_eq u _ _ _ _ _ _ _ _ (2 ^ k) (l1 _ hG) (l2 _ hG) (l1 _ hH) (l2 _ hH) (l1 _ ha) (l2 _ ha) (l1 _ hb) (l2 _ hb) _ (hx i)] at hq
    have hfG := split_msm (2 ^ k) a G (by rw [l1 _ ha, l1 _ hG])
    have hfH := split_msm (2 ^ k) b H (by rw [l1 _ hb, l1 _ hH])
    have hfi := split_inner (2 ^ k) a b (by rw [l1 _ ha, l1 _ hb])
    simp only [PathEq] at hq ⊢
    have e1 := sFold (x i)⁻¹ (x i) (sVec xs) G (2 ^ k) (l1 _ hG) (l2 _ hG) (by rw [sVec_length, hl])
    have e2 := sFold (x i) (x i)⁻¹ (sVec xs).reverse H (2 ^ k) (l1 _ hH) (l2 _ hH) (by rw [List.length_reverse, sVec_length, hl])
    rw [sVec_reverse_cons, sVec, e1, e2, hfG, hfH, hfi]
    simp only [sqSum, invSqSum, List.map_cons, msm_cons] at hq ⊢
    rw [← sub_eq_zero] at hq ⊢
    rw [← hq]
    abel

/-- The hypotheses of `ipp_sound` are met, for every size, by the proofs of an honest prover. -/
theorem ipp_sound_hypotheses_met (tr : Transcript F V) (gf hf : List F) (u : V) (G H : List V) (a b : List F) (k : Nat) (hk : k < 32)
    (hG : G.length = 2 ^ k) (hH : H.length = 2 ^ k) (hgf : gf.length = 2 ^ k) (hhf : hf.length = 2 ^ k) (ha : a.length = 2 ^ k) (hb : b.length = 2 ^ k)
    (x : Fin 4 → F) (hx : ∀ i, x i ≠ 0) (hd : ∀ i j, x i * x i = x j * x j → i = j) :
    ∃ T : Fork F V, T.Good k ∧ ∀ Ls Rs xs a' b', T.Path Ls Rs xs a' b' → ∃ O, (ippChallenges O (ippDomSep (2 ^ k) tr) Ls Rs).1 = xs ∧
      verifyIpp O (2 ^ k) tr gf hf (msm (hadamard a gf) G + msm (hadamard b hf) H + inner a b • u) u G H a' b' Ls Rs = .ok () := by
  refine ⟨honestFork u x k (scaleBy gf G) (scaleBy hf H) a b, honestFork_good u x hx hd k _ _ _ _, ?_⟩
  intro Ls Rs xs a' b' hp
  have hg := honestFork_good u x hx hd k (scaleBy gf G) (scaleBy hf H) a b
  obtain ⟨l1, l2, l3⟩ := hp.length hg
  have he := honestFork_eq u x hx hd k (scaleBy gf G) (scaleBy hf H) a b (by rw [scaleBy_length _ _ (by omega), hG])
    (by rw [scaleBy_length _ _ (by omega), hH]) ha hb _ _ _ _ _ hp
  obtain ⟨O, hO⟩ := oracle_exists Ls Rs xs (ippDomSep (2 ^ k) tr) (by omega) (by omega)
  refine ⟨O, hO, ?_⟩
  have := verifyIpp_iff O tr gf hf (msm (hadamard a gf) G + msm (hadamard b hf) H + inner a b • u) u G H Ls Rs a' b' (by omega) (by omega)
    (by rw [l2, hG]) (by rw [l2, hH]) (by rw [l2, hgf]) (by rw [l2, hhf]) xs (by rw [l2]; exact hO) (hp.ne_zero hg)
  rw [l2] at this
  rw [this, if_pos]
  rw [msm_hadamard, msm_hadamard]
  exact he

end Verif.BP
