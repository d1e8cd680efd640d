import Verif.Props.BPR1CSMain
import Mathlib.LinearAlgebra.Vandermonde
import Mathlib.LinearAlgebra.Matrix.NonsingularInverse
import Mathlib.Tactic.FieldSimp
import Mathlib.Tactic.Linarith
set_option linter.unusedSectionVars false
set_option linter.unusedSimpArgs false
set_option linter.unusedVariables false
/-!
# Constraint systems: knowledge soundness (C115)

From accepting proofs that share prefixes, a function of the *scalars* of the proofs computes values of the multipliers.  With the values in the
commitments `V` they satisfy the constraint system, unless one of the linear relations between the generators that are computed from the scalars is
nontrivial.
-/
namespace Verif.BP
variable {F V : Type} [Field F] [AddCommGroup V] [Module F V] [DecidableEq F] [DecidableEq V]

/-! ## Specification -/

/-- coefficients for the generators `G`, `H`, `g`, `h` -/
abbrev Coefs (F : Type) := (Nat → F) × (Nat → F) × F × F

/-- the combination of the generators with these coefficients: `n` of `G` and of `H` -/
def combine (n : Nat) (G H : List V) (g h : V) : Coefs F →ₗ[F] V where
  toFun r := ev n G r.1 + ev n H r.2.1 + r.2.2.1 • g + r.2.2.2 • h
  map_add' r s := by simp only [Prod.fst_add, Prod.snd_add, map_add, add_smul]; abel
  map_smul' c r := by simp only [Prod.smul_fst, Prod.smul_snd, map_smul, smul_add, smul_eq_mul, mul_smul, RingHom.id_apply]

theorem combine_apply (n : Nat) (G H : List V) (g h : V) (r : Coefs F) :
    combine n G H g h r = ev n G r.1 + ev n H r.2.1 + r.2.2.1 • g + r.2.2.2 • h := rfl

/-- all coefficients are 0 -/
def AllZero (n : Nat) (r : Coefs F) : Prop := (∀ j < n, r.1 j = 0 ∧ r.2.1 j = 0) ∧ r.2.2.1 = 0 ∧ r.2.2.2 = 0

/-- The scalars of a tree of proofs.  Indices: the values of `y`, of `z`, of `u`, of `x`, and of `w`. -/
structure SScalars (F : Type) where
  y : Nat → F
  z : Nat → F
  u : Nat → Nat → Fin 5 → F
  x : Nat → Nat → Fin 5 → Fin 6 → F
  tx : Nat → Nat → Fin 5 → Fin 6 → F
  txb : Nat → Nat → Fin 5 → Fin 6 → F
  eb : Nat → Nat → Fin 5 → Fin 6 → F
  w : Nat → Nat → Fin 5 → Fin 6 → Fin 2 → F
  ipp : Nat → Nat → Fin 5 → Fin 6 → Fin 2 → Tree F

/-- A tree of proofs: the points sent before `y`; those sent before `u`; the inner product arguments. -/
structure STree (F V : Type) where
  AI1 : V
  AO1 : V
  S1 : V
  AI2 : V
  AO2 : V
  S2 : V
  y : Nat → F
  z : Nat → F
  T1 : Nat → Nat → V
  T3 : Nat → Nat → V
  T4 : Nat → Nat → V
  T5 : Nat → Nat → V
  T6 : Nat → Nat → V
  u : Nat → Nat → Fin 5 → F
  x : Nat → Nat → Fin 5 → Fin 6 → F
  tx : Nat → Nat → Fin 5 → Fin 6 → F
  txb : Nat → Nat → Fin 5 → Fin 6 → F
  eb : Nat → Nat → Fin 5 → Fin 6 → F
  w : Nat → Nat → Fin 5 → Fin 6 → Fin 2 → F
  ipp : Nat → Nat → Fin 5 → Fin 6 → Fin 2 → Fork F V

/-- forget the group elements -/
def STree.scalars (T : STree F V) : SScalars F :=
  ⟨T.y, T.z, T.u, T.x, T.tx, T.txb, T.eb, T.w, fun i j a b m => (T.ipp i j a b m).scalars⟩

/-- the proof on a path through the tree -/
def STree.proof (T : STree F V) (i j : Nat) (a : Fin 5) (b : Fin 6) (ip : IppProof F V) : R1CSProof F V :=
  ⟨T.AI1, T.AO1, T.S1, T.AI2, T.AO2, T.S2, T.T1 i j, T.T3 i j, T.T4 i j, T.T5 i j, T.T6 i j, T.tx i j a b, T.txb i j a b, T.eb i j a b, ip⟩

/-- the challenges on a path through the tree -/
def STree.chal (T : STree F V) (i j : Nat) (a : Fin 5) (b : Fin 6) (m : Fin 2) : Chal F := ⟨T.y i, T.z j, T.u i j a, T.x i j a b, T.w i j a b m⟩

/-- The challenges are different where they branch, and not zero (`z` can be).  There are `ny` of `y`, `nz` of `z`, and the inner product arguments have
`k` rounds. -/
structure STree.Good (T : STree F V) (ny nz k : Nat) : Prop where
  y0 : ∀ i < ny, T.y i ≠ 0
  yd : ∀ i < ny, ∀ i' < ny, T.y i = T.y i' → i = i'
  zd : ∀ j < nz, ∀ j' < nz, T.z j = T.z j' → j = j'
  u0 : ∀ i < ny, ∀ j < nz, ∀ a, T.u i j a ≠ 0
  ud : ∀ i < ny, ∀ j < nz, Function.Injective (T.u i j)
  x0 : ∀ i < ny, ∀ j < nz, ∀ a b, T.x i j a b ≠ 0
  xd : ∀ i < ny, ∀ j < nz, ∀ a, Function.Injective (T.x i j a)
  w0 : ∀ i < ny, ∀ j < nz, ∀ a b m, T.w i j a b m ≠ 0
  wd : ∀ i < ny, ∀ j < nz, ∀ a b, T.w i j a b 0 ≠ T.w i j a b 1
  ipp : ∀ i < ny, ∀ j < nz, ∀ a b m, (T.ipp i j a b m).Good k

/-! ## The extractor -/

/-- coefficients that solve `ρ_i = Σ_k x_i^(k+1)·c_k` for `c_k` -/
noncomputable def coef {m : Nat} (x : Fin m → F) : Matrix (Fin m) (Fin m) F := (Matrix.of fun i j : Fin m => x i ^ ((j : Nat) + 1))⁻¹

/-- the vectors found by the extractor of the inner product argument -/
def Out.l : Out F → Nat → F
  | .wit a _ => a
  | .rel _ _ _ => 0

/-- the vectors found by the extractor of the inner product argument -/
def Out.r : Out F → Nat → F
  | .wit _ b => b
  | .rel _ _ _ => 0

/-- What the extractor is given besides the scalars of the proofs: the number `k` of rounds, the number `n1` of multipliers of the first phase, and the
weights of the constraints for every `z`: all are known to the verifier. -/
structure Pub (F : Type) where
  k : Nat
  n : Nat
  n1 : Nat
  W : Nat → Weights F

namespace SScalars
variable (S : SScalars F) (c : Pub F)

/-- the output of the extractor of the inner product argument -/
def out (i j : Nat) (a : Fin 5) (b : Fin 6) (m : Fin 2) : Out F := extract c.k (S.ipp i j a b m)

/-- the inner product of the extracted vectors -/
def dot (i j : Nat) (a : Fin 5) (b : Fin 6) (m : Fin 2) : F := ∑ e ∈ Finset.range (2 ^ c.k), (S.out c i j a b m).l e * (S.out c i j a b m).r e

/-- coefficients of `x·(A_I1 + u·A_I2) + x²·(A_O1 + u·A_O2) + x³·(S1 + u·S2)` -/
def leafRep (i j : Nat) (a : Fin 5) (b : Fin 6) : Coefs F :=
  (fun e => uFac c.n1 (S.u i j a) e * ((S.out c i j a b 0).l e - S.x i j a b * ((c.W j).wR.getD e 0 * (S.y i)⁻¹ ^ e)),
   fun e => uFac c.n1 (S.u i j a) e * ((S.y i)⁻¹ ^ e * ((S.out c i j a b 0).r e - (S.x i j a b * (c.W j).wL.getD e 0 + (c.W j).wO.getD e 0)) + 1),
   S.w i j a b 0 * (S.dot c i j a b 0 - S.tx i j a b), S.eb i j a b)

/-- coefficients of `A_I1 + u·A_I2`, `A_O1 + u·A_O2`, `S1 + u·S2`, from the first three values of `x` -/
noncomputable def comm (a : Fin 5) (κ : Fin 3) : Coefs F :=
  ∑ b : Fin 3, coef (fun b : Fin 3 => S.x 0 0 a (Fin.castLE (by decide) b)) κ b • S.leafRep c 0 0 a (Fin.castLE (by decide) b)

/-- coefficients of `A_I2`, `A_O2`, `S2`, from the first two values of `u` -/
noncomputable def rep2 (κ : Fin 3) : Coefs F := (S.u 0 0 1 - S.u 0 0 0)⁻¹ • (S.comm c 1 κ - S.comm c 0 κ)

/-- coefficients of `A_I1`, `A_O1`, `S1` -/
noncomputable def rep1 (κ : Fin 3) : Coefs F := S.comm c 0 κ - S.u 0 0 0 • S.rep2 c κ

/-- coefficients of `T_1`, `T_2`, …, `T_6` for `g` and `h` -/
noncomputable def tau (i j : Nat) (κ : Fin 6) : F × F := ∑ b, coef (S.x i j 0) κ b • (S.tx i j 0 b, S.txb i j 0 b)

/-- the extracted value at `e` of the vectors committed in two parts: for the first phase from the first commitment, for the second from the second -/
noncomputable def valG (κ : Fin 3) (e : Nat) : F := if e < c.n1 then (S.rep1 c κ).1 e else (S.rep2 c κ).1 e

/-- as `valG`, for the generators `H` -/
noncomputable def valH (κ : Fin 3) (e : Nat) : F := if e < c.n1 then (S.rep1 c κ).2.1 e else (S.rep2 c κ).2.1 e

/-- **the extracted values of the multipliers**, with the values `v` of the commitments -/
noncomputable def witness (v : List F) : Asg F := ⟨S.valG c 0, S.valH c 0, S.valG c 1, fun i => v.getD i 0⟩

/-- all inner product arguments gave vectors -/
def AllWit (ny nz : Nat) : Prop := ∀ i < ny, ∀ j < nz, ∀ a b m, ∃ l r, S.out c i j a b m = .wit l r

/-- **the relations between the generators that are computed from the scalars**, given openings `v`, `vb` of the commitments `V` -/
inductive IsRel (ny nz : Nat) (v vb : List F) : Coefs F → Prop
  | ipp (i j : Nat) (a : Fin 5) (b : Fin 6) (m : Fin 2) (hi : i < ny) (hj : j < nz) (α β : Nat → F) (γ : F) (h : S.out c i j a b m = .rel α β γ) :
      IsRel ny nz v vb (fun e => uFac c.n1 (S.u i j a) e * α e, fun e => (S.y i)⁻¹ ^ e * uFac c.n1 (S.u i j a) e * β e, γ * S.w i j a b m, 0)
  | w (hw : S.AllWit c ny nz) (i j : Nat) (a : Fin 5) (b : Fin 6) (hi : i < ny) (hj : j < nz) :
      IsRel ny nz v vb (fun e => uFac c.n1 (S.u i j a) e * ((S.out c i j a b 0).l e - (S.out c i j a b 1).l e),
        fun e => (S.y i)⁻¹ ^ e * uFac c.n1 (S.u i j a) e * ((S.out c i j a b 0).r e - (S.out c i j a b 1).r e),
        S.w i j a b 0 * (S.dot c i j a b 0 - S.tx i j a b) - S.w i j a b 1 * (S.dot c i j a b 1 - S.tx i j a b), 0)
  | comm (hw : S.AllWit c ny nz) (i j : Nat) (a : Fin 5) (b : Fin 6) (hi : i < ny) (hj : j < nz) :
      IsRel ny nz v vb (S.leafRep c i j a b - ∑ κ : Fin 3, S.x i j a b ^ ((κ : Nat) + 1) • (S.rep1 c κ + S.u i j a • S.rep2 c κ))
  | t (i j : Nat) (a : Fin 5) (b : Fin 6) (hi : i < ny) (hj : j < nz) :
      IsRel ny nz v vb (0, 0, (S.tx i j a b, S.txb i j a b) - ∑ κ : Fin 6, S.x i j a b ^ ((κ : Nat) + 1) • S.tau i j κ)
  | v (i j : Nat) (hi : i < ny) (hj : j < nz) :
      IsRel ny nz v vb (0, 0, S.tau i j 1 - (inner (c.W j).wV v + (c.W j).wc + ∑ e ∈ Finset.range c.n, (c.W j).wR.getD e 0 * (S.y i)⁻¹ ^ e * (c.W j).wL.getD e 0,
        inner (c.W j).wV vb))

end SScalars

/-! ## Proof -/

theorem coef_sum {m : Nat} (x : Fin m → F) (h0 : ∀ i, x i ≠ 0) (hd : Function.Injective x) (κ j : Fin m) :
    ∑ i, coef x κ i * x i ^ ((j : Nat) + 1) = if κ = j then 1 else 0 := by
  have hdet : IsUnit (Matrix.of fun i j : Fin m => x i ^ ((j : Nat) + 1)).det := by
    have e : (Matrix.of fun i j : Fin m => x i ^ ((j : Nat) + 1)) = Matrix.of fun i j => x i * Matrix.vandermonde x i j := by
      ext i j; simp [Matrix.vandermonde_apply, pow_succ']
    rw [e, Matrix.det_mul_column]
    exact isUnit_iff_ne_zero.2 (mul_ne_zero (Finset.prod_ne_zero_iff.2 fun i _ => h0 i) (Matrix.det_vandermonde_ne_zero_iff.2 hd))
  have := congrFun (congrFun (Matrix.nonsing_inv_mul _ hdet) κ) j
  rw [Matrix.mul_apply, Matrix.one_apply] at this
  exact this

theorem coef_solve {M N : Type} [AddCommGroup M] [Module F M] [AddCommGroup N] [Module F N] (E : M →ₗ[F] N) {m : Nat} (x : Fin m → F) (h0 : ∀ i, x i ≠ 0)
    (hd : Function.Injective x) (ρ : Fin m → M) (C : Fin m → N) (h : ∀ b, E (ρ b) = ∑ κ : Fin m, x b ^ ((κ : Nat) + 1) • C κ) (κ : Fin m) :
    E (∑ b, coef x κ b • ρ b) = C κ := by
  simp only [map_sum, map_smul, h, Finset.smul_sum, smul_smul]
  rw [Finset.sum_comm]
  simp only [← Finset.sum_smul, coef_sum x h0 hd]
  simp

/-- a polynomial without constant term, of degree `m`, that vanishes at `m` different nonzero points -/
theorem vanish {m : Nat} {x : Fin m → F} (h0 : ∀ i, x i ≠ 0) (hd : Function.Injective x) {p : Fin m → F}
    (h : ∀ b, ∑ κ : Fin m, x b ^ ((κ : Nat) + 1) * p κ = 0) : p = 0 := by
  refine Matrix.eq_zero_of_forall_index_sum_pow_mul_eq_zero hd fun b => ?_
  have := h b
  simp only [pow_succ', mul_assoc, ← Finset.mul_sum] at this
  exact (mul_eq_zero.1 this).resolve_left (h0 b)

theorem msm_commits (g h : V) : ∀ (wV v vb : List F), vb.length = v.length →
    msm wV (List.zipWith (fun v vb => v • g + vb • h) v vb) = inner wV v • g + inner wV vb • h := by
  intro wV
  induction wV with
  | nil => intro v vb _; simp
  | cons a wV ih =>
    intro v vb hl
    cases v with
    | nil => cases vb with
      | nil => simp
      | cons => simp at hl
    | cons b v => cases vb with
      | nil => simp at hl
      | cons b' vb =>
        simp only [List.zipWith_cons_cons, msm_cons, inner_cons, ih v vb (by simpa using hl)]
        module

/-- the final identity, for one pair `y`, `z` -/
theorem final_algebra (N n m n1 : Nat) (hnN : n ≤ N) (y : F) (hy : y ≠ 0) (W : Weights F) (hW : W.Len n m) (v : List F) (hv : v.length = m)
    (u : Fin 5 → F) (hu0 : ∀ a, u a ≠ 0) (hud : Function.Injective u)
    (a0 b0 a1 b1 c0 d0 : Nat → F) (a2 b2 c1 d1 c2 d2 : Nat → F)
    (x : Fin 5 → Fin 6 → F) (hx0 : ∀ a b, x a b ≠ 0) (hxd : ∀ a, Function.Injective (x a)) (l r : Fin 5 → Fin 6 → Nat → F) (τ : Fin 6 → F)
    (hl : ∀ a b, ∀ e < N, uFac n1 (u a) e * (l a b e - x a b * (W.wR.getD e 0 * y⁻¹ ^ e)) =
      x a b * (a0 e + u a * b0 e) + x a b ^ 2 * (a1 e + u a * b1 e) + x a b ^ 3 * (a2 e + u a * b2 e))
    (hr : ∀ a b, ∀ e < N, uFac n1 (u a) e * (y⁻¹ ^ e * (r a b e - (x a b * W.wL.getD e 0 + W.wO.getD e 0)) + 1) =
      x a b * (c0 e + u a * d0 e) + x a b ^ 2 * (c1 e + u a * d1 e) + x a b ^ 3 * (c2 e + u a * d2 e))
    (ht : ∀ a b, ∑ e ∈ Finset.range N, l a b e * r a b e = ∑ κ : Fin 6, x a b ^ ((κ : Nat) + 1) * τ κ)
    (h2 : τ 1 = inner W.wV v + W.wc + ∑ e ∈ Finset.range n, W.wR.getD e 0 * y⁻¹ ^ e * W.wL.getD e 0)
    (A : Asg F) (hAL : ∀ e, A.aL e = if e < n1 then a0 e else b0 e) (hAR : ∀ e, A.aR e = if e < n1 then c0 e else d0 e)
    (hAO : ∀ e, A.aO e = if e < n1 then a1 e else b1 e) (hAv : A.v = fun i => v.getD i 0) :
    ∑ e ∈ Finset.range N, y ^ e * (A.aL e * A.aR e - A.aO e) + W.sum n m A = 0 := by
  -- the coefficients of l and r
  set f : Fin 5 → Nat → F := fun a e => (uFac n1 (u a) e)⁻¹ with hf
  have huf : ∀ a e, uFac n1 (u a) e ≠ 0 := by intro a e; simp only [uFac]; split; exacts [one_ne_zero, hu0 a]
  have hye : ∀ e, y ^ e * y⁻¹ ^ e = 1 := fun e => by rw [← mul_pow, mul_inv_cancel₀ hy, one_pow]
  have hl' : ∀ a b, ∀ e < N, l a b e = x a b * (W.wR.getD e 0 * y⁻¹ ^ e + f a e * (a0 e + u a * b0 e)) + x a b ^ 2 * (f a e * (a1 e + u a * b1 e)) +
      x a b ^ 3 * (f a e * (a2 e + u a * b2 e)) := by
    intro a b e he
    have h1 : f a e * uFac n1 (u a) e = 1 := inv_mul_cancel₀ (huf a e)
    linear_combination f a e * hl a b e he - (l a b e - x a b * (W.wR.getD e 0 * y⁻¹ ^ e)) * h1
  have hr' : ∀ a b, ∀ e < N, r a b e = (W.wO.getD e 0 - y ^ e) + x a b * (W.wL.getD e 0 + y ^ e * (f a e * (c0 e + u a * d0 e))) +
      x a b ^ 2 * (y ^ e * (f a e * (c1 e + u a * d1 e))) + x a b ^ 3 * (y ^ e * (f a e * (c2 e + u a * d2 e))) := by
    intro a b e he
    have h1 : f a e * uFac n1 (u a) e = 1 := inv_mul_cancel₀ (huf a e)
    linear_combination y ^ e * f a e * hr a b e he - (y ^ e * (y⁻¹ ^ e * (r a b e - (x a b * W.wL.getD e 0 + W.wO.getD e 0)) + 1)) * h1 -
      (r a b e - (x a b * W.wL.getD e 0 + W.wO.getD e 0)) * hye e
  -- the coefficients of the product
  set R : Nat → F := fun e => W.wR.getD e 0 * y⁻¹ ^ e with hR
  set L : Nat → F := fun e => W.wL.getD e 0 with hL
  set wO : Nat → F := fun e => W.wO.getD e 0 with hwO
  let l1 : Fin 5 → Nat → F := fun a e => R e + f a e * (a0 e + u a * b0 e)
  let l2 : Fin 5 → Nat → F := fun a e => f a e * (a1 e + u a * b1 e)
  let l3 : Fin 5 → Nat → F := fun a e => f a e * (a2 e + u a * b2 e)
  let r0 : Nat → F := fun e => wO e - y ^ e
  let r1 : Fin 5 → Nat → F := fun a e => L e + y ^ e * (f a e * (c0 e + u a * d0 e))
  let r2 : Fin 5 → Nat → F := fun a e => y ^ e * (f a e * (c1 e + u a * d1 e))
  let r3 : Fin 5 → Nat → F := fun a e => y ^ e * (f a e * (c2 e + u a * d2 e))
  have hp2 : ∀ a, ∑ e ∈ Finset.range N, (l1 a e * r1 a e + l2 a e * r0 e) = τ 1 := by
    intro a
    let q : Fin 6 → Nat → F := fun κ e => match κ with
      | 0 => l1 a e * r0 e
      | 1 => l1 a e * r1 a e + l2 a e * r0 e
      | 2 => l1 a e * r2 a e + l2 a e * r1 a e + l3 a e * r0 e
      | 3 => l1 a e * r3 a e + l2 a e * r2 a e + l3 a e * r1 a e
      | 4 => l2 a e * r3 a e + l3 a e * r2 a e
      | 5 => l3 a e * r3 a e
    have hq : (fun κ => ∑ e ∈ Finset.range N, q κ e - τ κ) = 0 := by
      refine vanish (hx0 a) (hxd a) fun b => ?_
      have : ∑ κ : Fin 6, x a b ^ ((κ : Nat) + 1) * (∑ e ∈ Finset.range N, q κ e - τ κ) =
          (∑ κ : Fin 6, x a b ^ ((κ : Nat) + 1) * ∑ e ∈ Finset.range N, q κ e) - ∑ κ : Fin 6, x a b ^ ((κ : Nat) + 1) * τ κ := by
        rw [← Finset.sum_sub_distrib]; refine Finset.sum_congr rfl fun κ _ => by ring
      rw [this, ← ht a b]
      simp only [Finset.mul_sum]
      rw [Finset.sum_comm, ← Finset.sum_sub_distrib]
      refine Finset.sum_eq_zero fun e he => ?_
      have he := Finset.mem_range.1 he
      rw [hl' a b e he, hr' a b e he]
      simp only [Fin.sum_univ_six, q, l1, l2, l3, r0, r1, r2, r3]
      simp only [Fin.val_zero, Fin.val_one, Fin.val_two, show ((3 : Fin 6) : Nat) = 3 from rfl, show ((4 : Fin 6) : Nat) = 4 from rfl,
        show ((5 : Fin 6) : Nat) = 5 from rfl, R, L, wO]
      ring
    have := congrFun hq 1
    exact sub_eq_zero.1 this
  -- the coefficient of u^0
  let cs : Fin 5 → Nat → F := fun s e => if e < n1 then
      (match s with
      | 0 => 0
      | 1 => 0
      | 2 => (R e + a0 e) * (L e + y ^ e * c0 e) + a1 e * r0 e
      | 3 => b0 e * (L e + y ^ e * c0 e) + (R e + a0 e) * (y ^ e * d0 e) + b1 e * r0 e
      | 4 => b0 e * (y ^ e * d0 e))
    else
      (match s with
      | 0 => a0 e * (y ^ e * c0 e)
      | 1 => a0 e * (L e + y ^ e * d0 e) + (R e + b0 e) * (y ^ e * c0 e) + a1 e * r0 e
      | 2 => (R e + b0 e) * (L e + y ^ e * d0 e) + b1 e * r0 e
      | 3 => 0
      | 4 => 0)
  have hu2 : (fun s : Fin 5 => ∑ e ∈ Finset.range N, cs s e - if s = 2 then τ 1 else 0) = 0 := by
    refine Matrix.eq_zero_of_forall_index_sum_pow_mul_eq_zero hud fun a => ?_
    have e1 : ∑ s : Fin 5, u a ^ (s : Nat) * (∑ e ∈ Finset.range N, cs s e - if s = 2 then τ 1 else 0) =
        ∑ e ∈ Finset.range N, ∑ s : Fin 5, u a ^ (s : Nat) * cs s e - u a ^ 2 * τ 1 := by
      rw [Finset.sum_comm]
      simp only [mul_sub, Finset.sum_sub_distrib, Finset.mul_sum]
      congr 1
      rw [Fin.sum_univ_five]
      simp
    rw [e1, ← hp2 a, Finset.mul_sum, ← Finset.sum_sub_distrib]
    refine Finset.sum_eq_zero fun e _ => ?_
    simp only [Fin.sum_univ_five, cs, l1, r1, l2, hf, uFac]
    simp only [Fin.val_zero, Fin.val_one, Fin.val_two, show ((3 : Fin 5) : Nat) = 3 from rfl, show ((4 : Fin 5) : Nat) = 4 from rfl]
    by_cases h : e < n1
    · simp only [h, if_true, inv_one]; ring
    · simp only [h, if_false]
      have := hu0 a
      field_simp
      ring
  have hu2' := sub_eq_zero.1 (congrFun hu2 2)
  simp only [if_true] at hu2'
  have hcs : ∀ e, cs 2 e = (R e + A.aL e) * (L e + y ^ e * A.aR e) + A.aO e * r0 e := by
    intro e
    simp only [cs, hAL, hAR, hAO]
    split <;> rfl
  simp only [hcs] at hu2'
  rw [h2] at hu2'
  -- expand
  have hz : ∀ (q : Nat → F) (w : List F), w.length = n → ∑ e ∈ Finset.range N, q e * w.getD e 0 = ∑ e ∈ Finset.range n, q e * w.getD e 0 := by
    intro q w hw
    symm
    apply Finset.sum_subset (Finset.range_subset_range.2 hnN)
    intro e _ he
    rw [List.getD_eq_default _ _ (by simpa [hw] using he), mul_zero]
  have hexp : ∑ e ∈ Finset.range N, ((R e + A.aL e) * (L e + y ^ e * A.aR e) + A.aO e * r0 e) =
      ∑ e ∈ Finset.range N, y ^ e * (A.aL e * A.aR e - A.aO e) + ∑ e ∈ Finset.range N, (W.wR.getD e 0 * y⁻¹ ^ e) * W.wL.getD e 0 +
      ∑ e ∈ Finset.range N, A.aL e * W.wL.getD e 0 + ∑ e ∈ Finset.range N, A.aR e * W.wR.getD e 0 + ∑ e ∈ Finset.range N, A.aO e * W.wO.getD e 0 := by
    simp only [← Finset.sum_add_distrib]
    refine Finset.sum_congr rfl fun e _ => ?_
    simp only [R, L, r0, wO]
    linear_combination (W.wR.getD e 0 * A.aR e) * hye e
  rw [hexp, hz _ _ hW.L, hz _ _ hW.L, hz _ _ hW.R, hz _ _ hW.O] at hu2'
  have hin : ∀ (w : List F) (q : Nat → F), w.length = n → inner w (vec n q) = ∑ e ∈ Finset.range n, q e * w.getD e 0 := by
    intro w q hw
    conv_lhs => rw [vec_getD hw]
    rw [inner_vec]
    exact Finset.sum_congr rfl fun e _ => mul_comm _ _
  have hinv : inner W.wV (vec m A.v) = inner W.wV v := by rw [hAv, ← vec_getD hv]
  rw [Weights.sum, hin _ _ hW.L, hin _ _ hW.R, hin _ _ hW.O, hinv]
  linear_combination hu2'

theorem runV_mono (O : Transcript F V → F) (p : Callback F) : ∀ (s s₁ : VState F V) (a : Unit), p.runV (VState.challenge O) s = .ok (a, s₁) →
    s.numVars ≤ s₁.numVars := by
  induction p with
  | pure a => intro s s₁ b h; simp only [Prog.runV, Res.ok.injEq, Prod.mk.injEq] at h; rw [h.2]
  | fail e => intro s s₁ b h; simp [Prog.runV] at h
  | panic => intro s s₁ b h; simp [Prog.runV] at h
  | multiply l r k ih => intro s s₁ b h; simp only [Prog.runV] at h; exact le_trans (by simp [VState.multiply, VState.allocVars]) (ih _ _ _ _ h)
  | allocate a k ih =>
    intro s s₁ b h; simp only [Prog.runV] at h
    refine le_trans ?_ (ih _ _ _ _ h)
    simp only [VState.allocate]; split <;> simp
  | allocMult a k ih => intro s s₁ b h; simp only [Prog.runV] at h; exact le_trans (by simp [VState.allocVars]) (ih _ _ _ _ h)
  | constrain lc k ih => intro s s₁ b h; simp only [Prog.runV] at h; have := ih _ _ _ _ h; exact this
  | evalLc lc k ih => intro s s₁ b h; simp only [Prog.runV] at h; exact ih _ _ _ _ h
  | ext t k ih =>
    intro s s₁ b h; simp only [Prog.runV, VState.challenge, Res.ok_bind] at h
    exact le_trans (by simp) (ih _ _ _ _ h)

theorem createRandomized_mono (O : Transcript F V → F) {s s₁ : VState F V} (h : s.createRandomized O = .ok s₁) : s.numVars ≤ s₁.numVars := by
  simp only [VState.createRandomized] at h
  split at h
  · simp only [Res.ok.injEq] at h; rw [← h]
  · suffices hh : ∀ (ps : List (Callback F)) (s s₁ : VState F V), runCallbacksV O ps s = .ok s₁ → s.numVars ≤ s₁.numVars by have := hh _ _ _ h; exact this
    intro ps
    induction ps with
    | nil => intro s s₁ h; simp only [runCallbacksV, Res.ok.injEq] at h; rw [h]
    | cons p ps ih =>
      intro s s₁ h
      simp only [runCallbacksV] at h
      obtain ⟨q, e, h⟩ := Res.bind_eq_ok.1 h
      exact le_trans (runV_mono O p _ _ _ e) (ih _ _ h)

/-- **The tree consists of accepted proofs**: on every path the proof is accepted by `verify`, for two of the random values of the verifier, under an
oracle that gives the challenges of the path (and the same second phase). -/
def STree.Accepted (T : STree F V) (t0 t1 : VState F V) (g h : V) (G H : List V) (ny nz : Nat) : Prop :=
  ∀ i < ny, ∀ j < nz, ∀ a b m Ls Rs xs a' b', (T.ipp i j a b m).Path Ls Rs xs a' b' → ∃ O r r', r ≠ r' ∧
    VState.createRandomized O { t0 with tr := commitPoint "S1" T.S1 (commitPoint "A_O1" T.AO1 (commitPoint "A_I1" T.AI1
      (t0.tr ++ [.u64 "m" t0.V.length]))) } = .ok t1 ∧
    (verifierChallenges O (T.proof i j a b ⟨Ls, Rs, a', b'⟩) t1.tr).1 = T.chal i j a b m ∧
    (ippChallenges O (ippDomSep (nextPow2 t1.numVars) (verifierChallenges O (T.proof i j a b ⟨Ls, Rs, a', b'⟩) t1.tr).2) Ls Rs).1 = xs ∧
    verify O t0 (T.proof i j a b ⟨Ls, Rs, a', b'⟩) g h G H r = .ok () ∧ verify O t0 (T.proof i j a b ⟨Ls, Rs, a', b'⟩) g h G H r' = .ok ()

theorem two_r {P Q : V} {r r' : F} (hr : r ≠ r') (h : P + r • Q = 0) (h' : P + r' • Q = 0) : P = 0 ∧ Q = 0 := by
  have : (r - r') • Q = 0 := by
    have : (r - r') • Q = (P + r • Q) - (P + r' • Q) := by module
    rw [this, h, h', sub_zero]
  have hQ := (smul_eq_zero.1 this).resolve_left (sub_ne_zero.2 hr)
  rw [hQ, smul_zero, add_zero] at h
  exact ⟨h, hQ⟩

theorem ev_scale_vec (n : Nat) (f a : Nat → F) (G : List V) : ev n (scaleBy (vec n f) G) a = ev n G fun i => f i * a i := by
  rw [ev_scale, hadamard, vec_zipWith, ev_apply]
  congr 1
  exact vec_congr fun i _ => mul_comm _ _

theorem exists_path {k : Nat} (T : Fork F V) (hT : T.Good k) : ∃ Ls Rs xs a b, T.Path Ls Rs xs a b := by
  induction T generalizing k with
  | leaf a b => exact ⟨_, _, _, _, _, .leaf a b⟩
  | node L R x t ih =>
    cases k with
    | zero => simp [Fork.Good] at hT
    | succ k =>
      obtain ⟨Ls, Rs, xs, a, b, hp⟩ := ih 0 (hT.2.2 0)
      exact ⟨_, _, _, _, _, .node 0 hp⟩

theorem of_ite {p : Prop} [Decidable p] {e : Err} (h : (if p then Res.ok () else Res.err e) = .ok ()) : p := by
  by_contra hc; rw [if_neg hc] at h; cases h

section main
variable {T : STree F V} {t0 t1 : VState F V} {g h : V} {G H : List V} {ny nz : Nat} {W : Nat → Weights F}
  (hgood : T.Good ny nz (Nat.clog 2 t1.numVars)) (hacc : T.Accepted t0 t1 g h G H ny nz) (h32 : Nat.clog 2 t1.numVars < 32)
  (hG : nextPow2 t1.numVars ≤ G.length) (hH : nextPow2 t1.numVars ≤ H.length)
  (hW : ∀ j < nz, flatten t1.numVars t1.V.length t1.cons (T.z j) = .ok (W j))
include hgood hacc h32 hG hH hW

/-- the two gaps are zero on every path -/
theorem path_gaps {i j : Nat} (hi : i < ny) (hj : j < nz) (a : Fin 5) (b : Fin 6) (m : Fin 2) {Ls Rs : List V} {xs : List F} {a' b' : F}
    (hp : (T.ipp i j a b m).Path Ls Rs xs a' b') :
    t0.numVars ≤ t1.numVars ∧
    ippGap (T.chal i j a b m) t1.numVars t0.numVars (W j) (T.proof i j a b ⟨Ls, Rs, a', b'⟩) g h (G.take (nextPow2 t1.numVars))
      (H.take (nextPow2 t1.numVars)) xs = 0 ∧
    tGap (T.chal i j a b m) t1.numVars (W j) (T.proof i j a b ⟨Ls, Rs, a', b'⟩) g h t1.V = 0 := by
  obtain ⟨O, r, r', hne, hcr, hch, hxs, hv, hv'⟩ := hacc i hi j hj a b m Ls Rs xs a' b' hp
  have hk := hgood.ipp i hi j hj a b m
  obtain ⟨l1, l2, l3⟩ := hp.length hk
  have hn := createRandomized_mono O hcr
  simp only at hn
  have hver : ∀ r, verify O t0 (T.proof i j a b ⟨Ls, Rs, a', b'⟩) g h G H r =
      verifyRest O t1 t0.numVars (T.proof i j a b ⟨Ls, Rs, a', b'⟩) g h G H r := by
    intro r
    rw [verify]
    exact Eq.trans (congrArg (· >>= fun s' => verifyRest O s' t0.numVars (T.proof i j a b ⟨Ls, Rs, a', b'⟩) g h G H r) hcr) (Res.ok_bind _ _)
  rw [hver] at hv hv'
  have key := fun r => verifyRest_iff O t1 t0.numVars (T.proof i j a b ⟨Ls, Rs, a', b'⟩) g h G H r (W j) hn hG hH (by simpa [STree.proof] using l2)
    (by simp [STree.proof, l2, l3]) (by simp only [STree.proof]; omega) (T.chal i j a b m) _ (Prod.ext hch rfl) (hW j hj) xs (by simpa [STree.proof] using hxs)
    (hp.ne_zero hk)
  rw [key] at hv hv'
  exact ⟨hn, two_r hne (of_ite hv) (of_ite hv')⟩

/-- the extractor of the inner product argument works on every leaf -/
theorem out_valid {i j : Nat} (hi : i < ny) (hj : j < nz) (a : Fin 5) (b : Fin 6) (m : Fin 2) :
    (T.scalars.out ⟨Nat.clog 2 t1.numVars, t1.numVars, t0.numVars, W⟩ i j a b m).Valid (nextPow2 t1.numVars)
      (scaleBy (gFac t1.numVars t0.numVars (T.u i j a)) (G.take (nextPow2 t1.numVars)))
      (scaleBy (hFac t1.numVars t0.numVars (T.y i) (T.u i j a)) (H.take (nextPow2 t1.numVars))) (T.w i j a b m • g)
      (pPoint (T.chal i j a b m) t1.numVars t0.numVars (W j) (T.proof i j a b ⟨[], [], 0, 0⟩) h (G.take (nextPow2 t1.numVars)) (H.take (nextPow2 t1.numVars)) +
        (T.w i j a b m * T.tx i j a b) • g) := by
  have hk := hgood.ipp i hi j hj a b m
  refine extract_valid _ _ _ _ _ _ hk ?_ ?_ ?_
  · rw [scaleBy_length _ _ (by simp [gFac, vec, hG]), List.length_take, min_eq_left hG]; rfl
  · rw [scaleBy_length _ _ (by simp [hFac, vec, hH]), List.length_take, min_eq_left hH]; rfl
  · intro Ls Rs xs a' b' hp
    have := (path_gaps hgood hacc h32 hG hH hW hi hj a b m hp).2.1
    exact sub_eq_zero.1 this

/-- a leaf: coefficients of the commitments -/
theorem leafRep_valid (hw : T.scalars.AllWit ⟨Nat.clog 2 t1.numVars, t1.numVars, t0.numVars, W⟩ ny nz) {i j : Nat} (hi : i < ny) (hj : j < nz)
    (a : Fin 5) (b : Fin 6) :
    combine (nextPow2 t1.numVars) (G.take (nextPow2 t1.numVars)) (H.take (nextPow2 t1.numVars)) g h
      (T.scalars.leafRep ⟨Nat.clog 2 t1.numVars, t1.numVars, t0.numVars, W⟩ i j a b) =
    ∑ κ : Fin 3, T.x i j a b ^ ((κ : Nat) + 1) • ((![T.AI1, T.AO1, T.S1] κ) + T.u i j a • (![T.AI2, T.AO2, T.S2] κ)) := by
  obtain ⟨l, r, e⟩ := hw i hi j hj a b 0
  have hv := out_valid hgood hacc h32 hG hH hW hi hj a b 0
  generalize hPub : (⟨Nat.clog 2 t1.numVars, t1.numVars, t0.numVars, W⟩ : Pub F) = c at *
  rw [e] at hv
  simp only [Out.Valid, gFac, hFac, ev_scale_vec, inner_vec, pPoint] at hv
  rw [combine_apply]
  simp only [SScalars.leafRep, SScalars.dot, e, Out.l, Out.r]
  subst hPub
  simp only [STree.scalars, STree.chal, STree.proof] at *
  have hN : 2 ^ Nat.clog 2 t1.numVars = nextPow2 t1.numVars := rfl
  rw [hN]
  clear hN
  generalize hGp : G.take (nextPow2 t1.numVars) = Gp at *
  generalize hHp : H.take (nextPow2 t1.numVars) = Hp at *
  generalize nextPow2 t1.numVars = N at *
  have e1 : ev N Gp (fun e => uFac t0.numVars (T.u i j a) e * (l e - T.x i j a b * ((W j).wR.getD e 0 * (T.y i)⁻¹ ^ e))) =
      ev N Gp (fun e => uFac t0.numVars (T.u i j a) e * l e) -
        ev N Gp (fun e => uFac t0.numVars (T.u i j a) e * (T.x i j a b * ((W j).wR.getD e 0 * (T.y i)⁻¹ ^ e))) := by
    rw [← map_sub]; congr 1; funext e; simp only [Pi.sub_apply]; ring
  have e2 : ev N Hp (fun e => uFac t0.numVars (T.u i j a) e * ((T.y i)⁻¹ ^ e * (r e - (T.x i j a b * (W j).wL.getD e 0 + (W j).wO.getD e 0)) + 1)) =
      ev N Hp (fun e => (T.y i)⁻¹ ^ e * uFac t0.numVars (T.u i j a) e * r e) -
        ev N Hp (fun e => uFac t0.numVars (T.u i j a) e * ((T.y i)⁻¹ ^ e * (T.x i j a b * (W j).wL.getD e 0 + (W j).wO.getD e 0) - 1)) := by
    rw [← map_sub]; congr 1; funext e; simp only [Pi.sub_apply]; ring
  rw [e1, e2]
  generalize ev N Gp (fun e => uFac t0.numVars (T.u i j a) e * l e) = p1 at *
  generalize ev N Hp (fun e => (T.y i)⁻¹ ^ e * uFac t0.numVars (T.u i j a) e * r e) = p2 at *
  simp only [Fin.sum_univ_three, Matrix.cons_val_zero, Matrix.cons_val_one, Matrix.cons_val_two, Matrix.head_cons, Matrix.tail_cons, Matrix.cons_val,
    Fin.val_zero, Fin.val_one, Fin.val_two]
  rw [← sub_eq_zero] at hv ⊢
  rw [← neg_eq_zero, ← hv]
  module

/-- the equation for `t_x` on a leaf -/
theorem t_valid {v vb : List F} (hl : vb.length = v.length) (hV : t1.V = List.zipWith (fun v vb => v • g + vb • h) v vb) {i j : Nat} (hi : i < ny)
    (hj : j < nz) (a : Fin 5) (b : Fin 6) :
    T.tx i j a b • g + T.txb i j a b • h = ∑ κ : Fin 6, T.x i j a b ^ ((κ : Nat) + 1) •
      (![T.T1 i j, (inner (W j).wV v + (W j).wc + ∑ e ∈ Finset.range t1.numVars, (W j).wR.getD e 0 * (T.y i)⁻¹ ^ e * (W j).wL.getD e 0) • g +
        inner (W j).wV vb • h, T.T3 i j, T.T4 i j, T.T5 i j, T.T6 i j] κ) := by
  obtain ⟨Ls, Rs, xs, a', b', hp⟩ := exists_path _ (hgood.ipp i hi j hj a b 0)
  have ht := (path_gaps hgood hacc h32 hG hH hW hi hj a b 0 hp).2.2
  rw [tGap, hV, msm_commits g h _ _ _ hl] at ht
  simp only [delta, STree.chal, STree.proof] at ht
  simp only [Fin.sum_univ_six, Matrix.cons_val_zero, Matrix.cons_val_one, Matrix.cons_val_two, Matrix.head_cons, Matrix.tail_cons, Matrix.cons_val,
    Fin.val_zero, Fin.val_one, Fin.val_two, show ((3 : Fin 6) : Nat) = 3 from rfl, show ((4 : Fin 6) : Nat) = 4 from rfl,
    show ((5 : Fin 6) : Nat) = 5 from rfl]
  rw [← sub_eq_zero, ← neg_eq_zero, ← ht]
  module

/-- the coefficients of the commitments are right -/
theorem rep_valid (hw : T.scalars.AllWit ⟨Nat.clog 2 t1.numVars, t1.numVars, t0.numVars, W⟩ ny nz) (hy : 0 < ny) (hz : 0 < nz) (κ : Fin 3) :
    combine (nextPow2 t1.numVars) (G.take (nextPow2 t1.numVars)) (H.take (nextPow2 t1.numVars)) g h
      (T.scalars.rep1 ⟨Nat.clog 2 t1.numVars, t1.numVars, t0.numVars, W⟩ κ) = ![T.AI1, T.AO1, T.S1] κ ∧
    combine (nextPow2 t1.numVars) (G.take (nextPow2 t1.numVars)) (H.take (nextPow2 t1.numVars)) g h
      (T.scalars.rep2 ⟨Nat.clog 2 t1.numVars, t1.numVars, t0.numVars, W⟩ κ) = ![T.AI2, T.AO2, T.S2] κ := by
  have hc : ∀ a, combine (nextPow2 t1.numVars) (G.take (nextPow2 t1.numVars)) (H.take (nextPow2 t1.numVars)) g h
      (T.scalars.comm ⟨Nat.clog 2 t1.numVars, t1.numVars, t0.numVars, W⟩ a κ) = ![T.AI1, T.AO1, T.S1] κ + T.u 0 0 a • ![T.AI2, T.AO2, T.S2] κ := by
    intro a
    refine coef_solve _ (fun b : Fin 3 => T.x 0 0 a (Fin.castLE (by decide) b)) (fun b => hgood.x0 0 hy 0 hz a _)
      (fun b b' e => Fin.castLE_injective _ (hgood.xd 0 hy 0 hz a e)) _ (fun κ => ![T.AI1, T.AO1, T.S1] κ + T.u 0 0 a • ![T.AI2, T.AO2, T.S2] κ) (fun b => ?_) κ
    exact leafRep_valid hgood hacc h32 hG hH hW hw hy hz a _
  have hne : T.u 0 0 1 - T.u 0 0 0 ≠ 0 := sub_ne_zero.2 fun e => by have := hgood.ud 0 hy 0 hz e; simp at this
  have h2 : combine (nextPow2 t1.numVars) (G.take (nextPow2 t1.numVars)) (H.take (nextPow2 t1.numVars)) g h
      (T.scalars.rep2 ⟨Nat.clog 2 t1.numVars, t1.numVars, t0.numVars, W⟩ κ) = ![T.AI2, T.AO2, T.S2] κ := by
    rw [SScalars.rep2, map_smul, map_sub, hc, hc]
    have : (![T.AI1, T.AO1, T.S1] κ + T.u 0 0 1 • ![T.AI2, T.AO2, T.S2] κ) - (![T.AI1, T.AO1, T.S1] κ + T.u 0 0 0 • ![T.AI2, T.AO2, T.S2] κ) =
        (T.u 0 0 1 - T.u 0 0 0) • ![T.AI2, T.AO2, T.S2] κ := by module
    rw [this, smul_smul]
    show ((T.u 0 0 1 - T.u 0 0 0)⁻¹ * (T.u 0 0 1 - T.u 0 0 0)) • _ = _
    rw [inv_mul_cancel₀ hne, one_smul]
  refine ⟨?_, h2⟩
  rw [SScalars.rep1, map_sub, map_smul, h2, hc]
  show _ + T.u 0 0 0 • _ - T.u 0 0 0 • _ = _
  rw [add_sub_cancel_right]

/-- the relations hold -/
theorem rel_valid {v vb : List F} (hl : vb.length = v.length) (hV : t1.V = List.zipWith (fun v vb => v • g + vb • h) v vb) {ρ : Coefs F}
    (hρ : T.scalars.IsRel ⟨Nat.clog 2 t1.numVars, t1.numVars, t0.numVars, W⟩ ny nz v vb ρ) :
    combine (nextPow2 t1.numVars) (G.take (nextPow2 t1.numVars)) (H.take (nextPow2 t1.numVars)) g h ρ = 0 := by
  have htau : ∀ i < ny, ∀ j < nz, ∀ κ, (T.scalars.tau i j κ).1 • g + (T.scalars.tau i j κ).2 • h =
      ![T.T1 i j, (inner (W j).wV v + (W j).wc + ∑ e ∈ Finset.range t1.numVars, (W j).wR.getD e 0 * (T.y i)⁻¹ ^ e * (W j).wL.getD e 0) • g +
        inner (W j).wV vb • h, T.T3 i j, T.T4 i j, T.T5 i j, T.T6 i j] κ := by
    intro i hi j hj κ
    let E : (F × F) →ₗ[F] V :=
      { toFun := fun q => q.1 • g + q.2 • h
        map_add' := fun q q' => by simp only [Prod.fst_add, Prod.snd_add]; module
        map_smul' := fun c q => by simp only [Prod.smul_fst, Prod.smul_snd, smul_eq_mul, RingHom.id_apply]; module }
    exact coef_solve E (T.x i j 0) (hgood.x0 i hi j hj 0) (hgood.xd i hi j hj 0) (fun b => (T.tx i j 0 b, T.txb i j 0 b)) _
      (fun b => t_valid hgood hacc h32 hG hH hW hl hV hi hj 0 b) κ
  cases hρ with
  | ipp i j a b m hi hj α β γ he =>
    have hv := out_valid hgood hacc h32 hG hH hW hi hj a b m
    rw [he] at hv
    have := hv.2
    simp only [gFac, hFac, ev_scale_vec] at this
    rw [combine_apply]
    simp only [zero_smul, add_zero]
    rw [mul_smul]
    exact this
  | w hw i j a b hi hj =>
    obtain ⟨l, r, e⟩ := hw i hi j hj a b 0
    obtain ⟨l', r', e'⟩ := hw i hi j hj a b 1
    have hv := out_valid hgood hacc h32 hG hH hW hi hj a b 0
    have hv' := out_valid hgood hacc h32 hG hH hW hi hj a b 1
    rw [e] at hv
    rw [e'] at hv'
    simp only [Out.Valid, gFac, hFac, ev_scale_vec, inner_vec, pPoint] at hv hv'
    rw [combine_apply]
    simp only [SScalars.dot, e, e', Out.l, Out.r]
    simp only [STree.scalars, STree.chal, STree.proof] at *
    have hN : 2 ^ Nat.clog 2 t1.numVars = nextPow2 t1.numVars := rfl
    rw [hN]
    clear hN
    generalize hGp : G.take (nextPow2 t1.numVars) = Gp at *
    generalize hHp : H.take (nextPow2 t1.numVars) = Hp at *
    generalize nextPow2 t1.numVars = N at *
    have e1 : ev N Gp (fun e => uFac t0.numVars (T.u i j a) e * (l e - l' e)) =
        ev N Gp (fun e => uFac t0.numVars (T.u i j a) e * l e) - ev N Gp (fun e => uFac t0.numVars (T.u i j a) e * l' e) := by
      rw [← map_sub]; congr 1; funext e; simp only [Pi.sub_apply]; ring
    have e2 : ev N Hp (fun e => (T.y i)⁻¹ ^ e * uFac t0.numVars (T.u i j a) e * (r e - r' e)) =
        ev N Hp (fun e => (T.y i)⁻¹ ^ e * uFac t0.numVars (T.u i j a) e * r e) - ev N Hp (fun e => (T.y i)⁻¹ ^ e * uFac t0.numVars (T.u i j a) e * r' e) := by
      rw [← map_sub]; congr 1; funext e; simp only [Pi.sub_apply]; ring
    rw [e1, e2]
    generalize ev N Gp (fun e => uFac t0.numVars (T.u i j a) e * l e) = p1 at *
    generalize ev N Hp (fun e => (T.y i)⁻¹ ^ e * uFac t0.numVars (T.u i j a) e * r e) = p2 at *
    generalize ev N Gp (fun e => uFac t0.numVars (T.u i j a) e * l' e) = p1' at *
    generalize ev N Hp (fun e => (T.y i)⁻¹ ^ e * uFac t0.numVars (T.u i j a) e * r' e) = p2' at *
    rw [← sub_eq_zero] at hv hv'
    have : ∀ {A B C : V}, A = 0 → B = 0 → C = B - A → C = 0 := fun h1 h2 h3 => by rw [h3, h1, h2, sub_zero]
    refine this hv hv' ?_
    module
  | comm hw i j a b hi hj =>
    have hr := rep_valid hgood hacc h32 hG hH hW hw (by omega) (by omega)
    rw [map_sub, leafRep_valid hgood hacc h32 hG hH hW hw hi hj a b, map_sum, sub_eq_zero]
    refine Finset.sum_congr rfl fun κ _ => ?_
    rw [map_smul, map_add, map_smul, (hr κ).1, (hr κ).2]
    rfl
  | t i j a b hi hj =>
    rw [combine_apply]
    simp only [map_zero, zero_add, Prod.fst_sub, Prod.snd_sub, Prod.fst_sum, Prod.snd_sum, Prod.smul_fst, Prod.smul_snd, sub_smul, Finset.sum_smul,
      smul_eq_mul, mul_smul]
    have h1 := t_valid hgood hacc h32 hG hH hW hl hV hi hj a b
    simp only [← htau i hi j hj, smul_add, Finset.sum_add_distrib] at h1
    simp only [STree.scalars] at *
    rw [← sub_eq_zero] at h1
    rw [← h1]
    abel
  | v i j hi hj =>
    have h1 := htau i hi j hj 1
    rw [combine_apply]
    simp only [map_zero, zero_add, Prod.fst_sub, Prod.snd_sub, sub_smul]
    simp only [Matrix.cons_val_one, Matrix.cons_val_zero, Matrix.head_cons] at h1
    rw [← sub_eq_zero] at h1
    rw [← h1]
    simp only [STree.scalars]
    abel

end main

/-- **C115 (knowledge soundness of constraint systems).** Let `T` be a tree of accepted proofs for a verifier `t0` (`t1` is the verifier after the second
phase): as many values of `y` as the padded number of multipliers, one more `z` than constraints, 5 of `u`, 6 of `x`, 2 of `w`, 4 for each round of the
inner product argument.  Let `v`, `vb` open the commitments.  From the scalars of the tree alone are computed (1) relations between the generators, all of
which hold, and (2) values of the multipliers; if none of the relations is nontrivial then these values and `v` satisfy all gates and all constraints,
and the computed coefficients open `A_I1`, `A_O1`, `S1` and `A_I2`, `A_O2`, `S2`. -/
theorem r1cs_sound (T : STree F V) (t0 t1 : VState F V) (g h : V) (G H : List V) (W : Nat → Weights F) (v vb : List F)
    (hgood : T.Good (nextPow2 t1.numVars) (t1.cons.length + 1) (Nat.clog 2 t1.numVars))
    (hacc : T.Accepted t0 t1 g h G H (nextPow2 t1.numVars) (t1.cons.length + 1)) (h32 : Nat.clog 2 t1.numVars < 32)
    (hG : nextPow2 t1.numVars ≤ G.length) (hH : nextPow2 t1.numVars ≤ H.length)
    (hW : ∀ j < t1.cons.length + 1, flatten t1.numVars t1.V.length t1.cons (T.z j) = .ok (W j))
    (hl : vb.length = v.length) (hV : t1.V = List.zipWith (fun v vb => v • g + vb • h) v vb) :
    let c : Pub F := ⟨Nat.clog 2 t1.numVars, t1.numVars, t0.numVars, W⟩
    let E := combine (F := F) (nextPow2 t1.numVars) (G.take (nextPow2 t1.numVars)) (H.take (nextPow2 t1.numVars)) g h
    (∀ ρ, T.scalars.IsRel c (nextPow2 t1.numVars) (t1.cons.length + 1) v vb ρ → E ρ = 0) ∧
    ((∀ ρ, T.scalars.IsRel c (nextPow2 t1.numVars) (t1.cons.length + 1) v vb ρ → AllZero (nextPow2 t1.numVars) ρ) →
      Sat t1.numVars t1.cons (T.scalars.witness c v) ∧
      ∀ κ, E (T.scalars.rep1 c κ) = ![T.AI1, T.AO1, T.S1] κ ∧ E (T.scalars.rep2 c κ) = ![T.AI2, T.AO2, T.S2] κ) := by
  intro c E
  have hpos : 0 < nextPow2 t1.numVars := by simp [nextPow2]
  refine ⟨fun ρ hρ => rel_valid hgood hacc h32 hG hH hW hl hV hρ, fun hz => ?_⟩
  have huf : ∀ i < nextPow2 t1.numVars, ∀ j < t1.cons.length + 1, ∀ a e, uFac t0.numVars (T.u i j a) e ≠ 0 := by
    intro i hi j hj a e; simp only [uFac]; split; exacts [one_ne_zero, hgood.u0 i hi j hj a]
  have hyp : ∀ i < nextPow2 t1.numVars, ∀ e, (T.y i)⁻¹ ^ e ≠ 0 := fun i hi e => pow_ne_zero _ (inv_ne_zero (hgood.y0 i hi))
  have hw : T.scalars.AllWit c (nextPow2 t1.numVars) (t1.cons.length + 1) := by
    intro i hi j hj a b m
    rcases ho : T.scalars.out c i j a b m with ⟨l, r⟩ | ⟨α, β, γ⟩
    · exact ⟨l, r, rfl⟩
    · exfalso
      have hv := out_valid hgood hacc h32 hG hH hW hi hj a b m
      rw [ho] at hv
      obtain ⟨z1, z2, -⟩ := hz _ (.ipp i j a b m hi hj α β γ ho)
      rcases hv.1 with ⟨e, he, h1 | h1⟩ | h1
      · exact mul_ne_zero (huf i hi j hj a e) h1 (z1 e he).1
      · exact mul_ne_zero (mul_ne_zero (hyp i hi e) (huf i hi j hj a e)) h1 (z1 e he).2
      · exact mul_ne_zero h1 (hgood.w0 i hi j hj a b m) z2
  refine ⟨?_, fun κ => rep_valid hgood hacc h32 hG hH hW hw hpos (by omega) κ⟩
  have hVl : t1.V.length = v.length := by rw [hV]; simp [hl]
  -- for every pair y, z
  have hyz : ∀ i < nextPow2 t1.numVars, ∀ j < t1.cons.length + 1,
      ∑ e ∈ Finset.range (nextPow2 t1.numVars), T.y i ^ e * ((T.scalars.witness c v).aL e * (T.scalars.witness c v).aR e - (T.scalars.witness c v).aO e) +
        ∑ k ∈ Finset.range t1.cons.length, T.z j ^ (k + 1) * (T.scalars.witness c v).lc (t1.cons.getD k []) = 0 := by
    intro i hi j hj
    obtain ⟨hWl, hWs, -⟩ := flatten_ok (hW j hj)
    rw [← hWs]
    refine final_algebra (nextPow2 t1.numVars) t1.numVars t1.V.length t0.numVars (le_nextPow2 _) (T.y i) (hgood.y0 i hi) (W j) hWl v hVl.symm (T.u i j)
      (hgood.u0 i hi j hj) (hgood.ud i hi j hj) (T.scalars.rep1 c 0).1 (T.scalars.rep2 c 0).1 (T.scalars.rep1 c 1).1 (T.scalars.rep2 c 1).1
      (T.scalars.rep1 c 0).2.1 (T.scalars.rep2 c 0).2.1 (T.scalars.rep1 c 2).1 (T.scalars.rep2 c 2).1
      (T.scalars.rep1 c 1).2.1 (T.scalars.rep2 c 1).2.1 (T.scalars.rep1 c 2).2.1 (T.scalars.rep2 c 2).2.1 (T.x i j) (hgood.x0 i hi j hj) (hgood.xd i hi j hj)
      (fun a b => (T.scalars.out c i j a b 0).l) (fun a b => (T.scalars.out c i j a b 0).r) (fun κ => (T.scalars.tau i j κ).1) ?_ ?_ ?_ ?_ _ ?_ ?_ ?_ ?_
    · intro a b e he
      have := ((hz _ (.comm hw i j a b hi hj)).1 e he).1
      simp only [Fin.sum_univ_three, Prod.fst_sub, Prod.fst_add, Prod.smul_fst, Pi.sub_apply, Pi.add_apply, Pi.smul_apply, smul_eq_mul, Fin.val_zero,
        Fin.val_one, Fin.val_two, SScalars.leafRep] at this
      simp only [STree.scalars, c] at *
      linear_combination this
    · intro a b e he
      have := ((hz _ (.comm hw i j a b hi hj)).1 e he).2
      simp only [Fin.sum_univ_three, Prod.snd_sub, Prod.snd_add, Prod.smul_snd, Prod.fst_sub, Prod.fst_add, Prod.smul_fst, Pi.sub_apply, Pi.add_apply,
        Pi.smul_apply, smul_eq_mul, Fin.val_zero, Fin.val_one, Fin.val_two, SScalars.leafRep] at this
      simp only [STree.scalars, c] at *
      linear_combination this
    · intro a b
      have h1 := hz _ (.w hw i j a b hi hj)
      have h2 := (hz _ (.t (c := c) i j a b hi hj)).2.1
      simp only [Prod.fst_sub, Prod.fst_sum, Prod.smul_fst, smul_eq_mul] at h2
      have hdot : T.scalars.dot c i j a b 0 = T.scalars.dot c i j a b 1 := by
        simp only [SScalars.dot]
        refine Finset.sum_congr rfl fun e he => ?_
        have he : e < nextPow2 t1.numVars := Finset.mem_range.1 he
        obtain ⟨p1, p2⟩ := h1.1 e he
        rw [sub_eq_zero.1 ((mul_eq_zero.1 p1).resolve_left (huf i hi j hj a e)),
          sub_eq_zero.1 ((mul_eq_zero.1 p2).resolve_left (mul_ne_zero (hyp i hi e) (huf i hi j hj a e)))]
      have h3 := h1.2.1
      simp only [← hdot] at h3
      have h4 : (T.w i j a b 0 - T.w i j a b 1) * (T.scalars.dot c i j a b 0 - T.tx i j a b) = 0 := by
        simp only [STree.scalars] at h3 ⊢; linear_combination h3
      have h5 := sub_eq_zero.1 ((mul_eq_zero.1 h4).resolve_left (sub_ne_zero.2 (hgood.wd i hi j hj a b)))
      have h6 := sub_eq_zero.1 h2
      exact h5.trans h6
    · have := (hz _ (.v (c := c) i j hi hj)).2.1
      exact sub_eq_zero.1 this
    · intro e; rfl
    · intro e; rfl
    · intro e; rfl
    · rfl
  -- the constraints
  have hcons : ∀ k < t1.cons.length, (T.scalars.witness c v).lc (t1.cons.getD k []) = 0 := by
    let p : Fin (t1.cons.length + 1) → F := fun k => if (k : Nat) = 0 then
        ∑ e ∈ Finset.range (nextPow2 t1.numVars), T.y 0 ^ e * ((T.scalars.witness c v).aL e * (T.scalars.witness c v).aR e - (T.scalars.witness c v).aO e)
      else (T.scalars.witness c v).lc (t1.cons.getD (k - 1) [])
    have hp : p = 0 := by
      refine Matrix.eq_zero_of_forall_index_sum_pow_mul_eq_zero (f := fun j : Fin (t1.cons.length + 1) => T.z j)
        (fun j j' e => Fin.ext (hgood.zd _ j.2 _ j'.2 e)) fun j => ?_
      rw [Fin.sum_univ_succ]
      simp only [p, Fin.val_zero, if_true, pow_zero, one_mul, Fin.val_succ, Nat.succ_ne_zero, if_false, Nat.add_sub_cancel]
      rw [← hyz 0 hpos j j.2, Finset.sum_range fun k => T.z j ^ (k + 1) * (T.scalars.witness c v).lc (t1.cons.getD k [])]
    intro k hk
    have := congrFun hp ⟨k + 1, by omega⟩
    simpa [p] using this
  refine ⟨fun e he => ?_, fun lc hlc => ?_⟩
  · have hp : (fun e : Fin (nextPow2 t1.numVars) => (T.scalars.witness c v).aL e * (T.scalars.witness c v).aR e - (T.scalars.witness c v).aO e) = 0 := by
      refine Matrix.eq_zero_of_forall_index_sum_pow_mul_eq_zero (f := fun i : Fin (nextPow2 t1.numVars) => T.y i)
        (fun i i' e => Fin.ext (hgood.yd _ i.2 _ i'.2 e)) fun i => ?_
      have := hyz i i.2 0 (by omega)
      rw [Finset.sum_eq_zero (s := Finset.range t1.cons.length) fun k hk => by rw [hcons k (Finset.mem_range.1 hk), mul_zero], add_zero] at this
      rw [← this, Finset.sum_range]
    have := congrFun hp ⟨e, lt_of_lt_of_le he (le_nextPow2 _)⟩
    exact sub_eq_zero.1 this
  · obtain ⟨k, hk, rfl⟩ := List.mem_iff_getElem.1 hlc
    have := hcons k hk
    rwa [List.getD_eq_getElem _ _ hk] at this

/-- **C115 (the first phase is fixed before the second).** Two trees that share `A_I1`, `A_O1` (with different challenges in the second phase, that is
different constraints): the values extracted for the multipliers of the first phase are the same, unless the difference of the extracted coefficients is a
nontrivial relation between the generators. -/
theorem r1cs_sound_first_phase (T T' : STree F V) (t0 t1 t1' : VState F V) (g h : V) (G H : List V) (W W' : Nat → Weights F) (v vb : List F)
    (hn : t1'.numVars = t1.numVars) (hAI : T'.AI1 = T.AI1) (hAO : T'.AO1 = T.AO1)
    (c : Pub F) (hc : c = ⟨Nat.clog 2 t1.numVars, t1.numVars, t0.numVars, W⟩) (c' : Pub F) (hc' : c' = ⟨Nat.clog 2 t1.numVars, t1.numVars, t0.numVars, W'⟩)
    (E : Coefs F →ₗ[F] V) (hE : E = combine (nextPow2 t1.numVars) (G.take (nextPow2 t1.numVars)) (H.take (nextPow2 t1.numVars)) g h)
    (h1 : ∀ κ, E (T.scalars.rep1 c κ) = ![T.AI1, T.AO1, T.S1] κ) (h1' : ∀ κ, E (T'.scalars.rep1 c' κ) = ![T'.AI1, T'.AO1, T'.S1] κ) :
    E (T.scalars.rep1 c 0 - T'.scalars.rep1 c' 0) = 0 ∧ E (T.scalars.rep1 c 1 - T'.scalars.rep1 c' 1) = 0 ∧
    (AllZero (nextPow2 t1.numVars) (T.scalars.rep1 c 0 - T'.scalars.rep1 c' 0) → AllZero (nextPow2 t1.numVars) (T.scalars.rep1 c 1 - T'.scalars.rep1 c' 1) →
      ∀ i < t0.numVars, i < t1.numVars → (T.scalars.witness c v).aL i = (T'.scalars.witness c' v).aL i ∧
        (T.scalars.witness c v).aR i = (T'.scalars.witness c' v).aR i ∧ (T.scalars.witness c v).aO i = (T'.scalars.witness c' v).aO i) := by
  refine ⟨?_, ?_, fun z0 z1 i hi hi1 => ?_⟩
  · rw [map_sub, h1, h1']; simp [hAI]
  · rw [map_sub, h1, h1']; simp [hAO]
  · have hlt := lt_of_lt_of_le hi1 (le_nextPow2 t1.numVars)
    have hn1 : c.n1 = t0.numVars := by rw [hc]
    have hn1' : c'.n1 = t0.numVars := by rw [hc']
    simp only [SScalars.witness, SScalars.valG, SScalars.valH, hn1, hn1', hi, if_true]
    exact ⟨sub_eq_zero.1 (z0.1 i hlt).1, sub_eq_zero.1 (z0.1 i hlt).2, sub_eq_zero.1 (z1.1 i hlt).1⟩

end Verif.BP
