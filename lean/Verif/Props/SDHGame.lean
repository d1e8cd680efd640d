import Verif.Props.RSACount
import Mathlib.LinearAlgebra.Lagrange
import Mathlib.Algebra.Polynomial.Div
import Mathlib.Algebra.Polynomial.Eval.Degree
import Mathlib.Algebra.Polynomial.BigOperators
/-!
# Signatures `(x + e) A = g + s h₀ + ∑ m_j h_j` and the strong Diffie-Hellman problem (C208, abstract part)

A signer with the secret `x` publishes `h₀, h_j` and `w = x g₂` and signs lists of messages for a forger, one request after the other.
A request names the messages and a number `r` the holder adds to the `s` of the answer (zero for direct issuance).  The forger wins with
a signature and messages that are not one of those it was given.

`solve1` and `solve2` use such a forger to find `c` and `(x + c)⁻¹ g` from `g, x g, x² g, …, x^(q+1) g` and `x g₂`.
-/
set_option linter.unusedSectionVars false
set_option linter.unusedVariables false
set_option linter.unusedSimpArgs false
namespace Verif.SDH
open Verif.Forking Polynomial

/-- what the signer publishes: `h₀` (`none`), `h_j`, and `w` -/
structure Pub (V W J : Type) where
  h : Option J → V
  w : W

/-- a request: the messages and the number the holder adds to `s` -/
structure Req (F J : Type) where
  m : J → F
  r : F

/-- `(A, e, s)` -/
structure Sig (F V : Type) where
  A : V
  e : F
  s : F

/-- a forger: what it asks next (or that it asks nothing) and what it finally outputs, from the public key and the answers so far -/
structure Forger (F V W J : Type) where
  ask : Pub V W J → List (Option (Sig F V)) → Option (Req F J)
  out : Pub V W J → List (Option (Sig F V)) → Sig F V × (J → F)

variable {F V W J : Type} [Field F] [AddCommGroup V] [Module F V] [AddCommGroup W] [Module F W] [Fintype J]

/-- the answers to the first `n` requests -/
def hist (A : Forger F V W J) (pub : Pub V W J) (issuer : ℕ → Req F J → Sig F V) : ℕ → List (Option (Sig F V))
  | 0 => []
  | n + 1 => hist A pub issuer n ++ [(A.ask pub (hist A pub issuer n)).map (issuer n)]

/-- request number `i` -/
def asked (A : Forger F V W J) (pub : Pub V W J) (issuer : ℕ → Req F J → Sig F V) (i : ℕ) : Option (Req F J) :=
  A.ask pub (hist A pub issuer i)

/-- the output after `q` answers -/
def output (A : Forger F V W J) (pub : Pub V W J) (issuer : ℕ → Req F J → Sig F V) (q : ℕ) : Sig F V × (J → F) :=
  A.out pub (hist A pub issuer q)

/-- `g + s h₀ + ∑ m_j h_j` -/
def base (g : V) (pub : Pub V W J) (m : J → F) (s : F) : V := g + s • pub.h none + ∑ j, m j • pub.h (some j)

/-- the signer: random `e`, `s` of request `i` and the secret `x` -/
def real (g : V) (x : F) (pub : Pub V W J) (e s : ℕ → F) (i : ℕ) (r : Req F J) : Sig F V :=
  ⟨(x + e i)⁻¹ • base g pub r.m (s i + r.r), e i, s i⟩

/-- the equation every verifier checks -/
def Valid (g : V) (x : F) (pub : Pub V W J) (σ : Sig F V) (m : J → F) : Prop := (x + σ.e) • σ.A = base g pub m σ.s

/-- The forger wins: its output is valid, and it is not one of the signatures it was given (with the holder's number added to `s`) on the
messages that were signed. -/
def Wins (g : V) (x : F) (q : ℕ) (A : Forger F V W J) (pub : Pub V W J) (issuer : ℕ → Req F J → Sig F V) : Prop :=
  Valid g x pub (output A pub issuer q).1 (output A pub issuer q).2 ∧
  ∀ i < q, ∀ r, asked A pub issuer i = some r → ¬ ((output A pub issuer q).1.e = (issuer i r).e ∧
    (output A pub issuer q).1.s = (issuer i r).s + r.r ∧ (output A pub issuer q).2 = r.m)

/-- number `i` of a list of `q` -/
def ext {q : ℕ} (t : Fin q → F) (i : ℕ) : F := if h : i < q then t ⟨i, h⟩ else 0

theorem ext_at {q : ℕ} (t : Fin q → F) (i : ℕ) (h : i < q) : ext t i = t ⟨i, h⟩ := by rw [ext, dif_pos h]

/-- the signer's coins: the secret, the exponents of `h₀, h_j` to the base `g`, and `e`, `s` of every request -/
abbrev Coins (F J : Type) (q : ℕ) : Type := F × (Option J → F) × (Fin q → F) × (Fin q → F)

variable (g : V) (g2 : W)

/-- the public key of the coins -/
def pubOf {q : ℕ} (ω : Coins F J q) : Pub V W J := ⟨fun j => ω.2.1 j • g, ω.1 • g2⟩

/-- the signer of the coins -/
def signer {q : ℕ} (ω : Coins F J q) : ℕ → Req F J → Sig F V := real g ω.1 (pubOf g g2 ω) (ext ω.2.2.1) (ext ω.2.2.2)

/-- the forger wins against the signer with these coins -/
def Win {q : ℕ} (A : Forger F V W J) (ω : Coins F J q) : Prop := Wins g ω.1 q A (pubOf g g2 ω) (signer g g2 ω)

/-- a solution of the strong Diffie-Hellman problem: `c` and `(x + c)⁻¹ g` -/
def Solved (x : F) (sol : F × V) : Prop := x + sol.1 ≠ 0 ∧ sol.2 = (x + sol.1)⁻¹ • g

/-! ## The first reduction: the secret of the signer is the secret of the problem -/

section one
variable {q : ℕ}

/-- the polynomial with the value `-1/t_i` at `-e_i`, with two free coefficients -/
noncomputable def hPoly (e t : Fin q → F) (c0 c1 : F) : F[X] :=
  Lagrange.interpolate Finset.univ (fun i => -e i) (fun i => -(t i)⁻¹) + (∏ i, (X - C (-e i))) * (C c0 + C c1 * X)

/-- `p(x) g` from `g, x g, …` -/
noncomputable def evalT (T : Fin (q + 2) → V) (p : F[X]) : V := ∑ i : Fin (q + 2), p.coeff i • T i

/-- the coins of the reduction: `h_j = a_j h₀`, the numbers `e_i`, `t_i` and the free coefficients -/
abbrev Coins1 (F J : Type) (q : ℕ) : Type := (J → F) × (Fin q → F) × (Fin q → F) × F × F

noncomputable def Coins1.poly (κ : Coins1 F J q) : F[X] := hPoly κ.2.1 κ.2.2.1 κ.2.2.2.1 κ.2.2.2.2

/-- its public key -/
noncomputable def pub1 (T : Fin (q + 2) → V) (w : W) (κ : Coins1 F J q) : Pub V W J :=
  ⟨fun | none => evalT T κ.poly | some j => κ.1 j • evalT T κ.poly, w⟩

/-- its answers: `s` is chosen so that `g + s h₀ + ∑ m_j h_j = (1 + t_i h(x)) g`, which it can divide by `x + e_i` -/
noncomputable def sim1 (T : Fin (q + 2) → V) (κ : Coins1 F J q) (i : ℕ) (r : Req F J) : Sig F V :=
  ⟨evalT T ((1 + C (ext κ.2.2.1 i) * κ.poly) /ₘ (X - C (-ext κ.2.1 i))), ext κ.2.1 i,
    ext κ.2.2.1 i - r.r - ∑ j, κ.1 j * r.m j⟩

/-- its solution: divide `1 + t h` for the `t` of the forgery by `X + e` with remainder -/
noncomputable def solve1 [DecidableEq V] (A : Forger F V W J) (T : Fin (q + 2) → V) (w : W) (κ : Coins1 F J q) : F × V :=
  let o := output A (pub1 T w κ) (sim1 T κ) q
  let N := 1 + C (o.1.s + ∑ j, κ.1 j * o.2 j) * κ.poly
  if T 1 = -o.1.e • T 0 then (o.1.e + 1, T 0)
  else (o.1.e, (N.eval (-o.1.e))⁻¹ • (o.1.A - evalT T (N /ₘ (X - C (-o.1.e)))))

/-- the given elements -/
def powers (q : ℕ) (x : F) : Fin (q + 2) → V := fun i => x ^ (i : ℕ) • g

theorem evalT_powers (x : F) (p : F[X]) (h : p.natDegree < q + 2) : evalT (powers g q x) p = p.eval x • g := by
  rw [evalT, eval_eq_sum_range' h, Finset.sum_smul, ← Fin.sum_univ_eq_sum_range (fun i => (p.coeff i * x ^ i) • g)]
  exact Finset.sum_congr rfl fun i _ => by rw [powers, smul_smul]

theorem degree_poly (e t : Fin q → F) (he : Function.Injective e) (c0 c1 : F) : (hPoly e t c0 c1).natDegree ≤ q + 1 := by
  have hinj : Set.InjOn (fun i => -e i) ((Finset.univ : Finset (Fin q)) : Set (Fin q)) := fun i _ j _ h => he (neg_injective h)
  refine natDegree_add_le_of_degree_le ?_ ?_
  · have := Lagrange.degree_interpolate_lt (fun i => -(t i)⁻¹) hinj
    rw [Finset.card_univ, Fintype.card_fin] at this
    refine natDegree_le_of_degree_le (this.le.trans ?_)
    exact_mod_cast Nat.le_succ q
  · refine natDegree_mul_le.trans (Nat.add_le_add ?_ ?_)
    · refine (natDegree_prod_le _ _).trans ?_
      refine (Finset.sum_le_sum fun i _ => (natDegree_X_sub_C_le (-e i))).trans ?_
      simp
    · refine natDegree_add_le_of_degree_le (by rw [natDegree_C]; omega) ?_
      exact natDegree_C_mul_le _ _ |>.trans natDegree_X_le

theorem poly_node (e t : Fin q → F) (he : Function.Injective e) (c0 c1 : F) (i : Fin q) : (hPoly e t c0 c1).eval (-e i) = -(t i)⁻¹ := by
  have hinj : Set.InjOn (fun i => -e i) ((Finset.univ : Finset (Fin q)) : Set (Fin q)) := fun i _ j _ h => he (neg_injective h)
  rw [hPoly, eval_add, Lagrange.eval_interpolate_at_node (fun i => -(t i)⁻¹) hinj (Finset.mem_univ i), eval_mul, eval_prod,
    Finset.prod_eq_zero (Finset.mem_univ i) (by simp), zero_mul, add_zero]

theorem divide (p : F[X]) (c x : F) : p.eval x = p.eval (-c) + (x + c) * (p /ₘ (X - C (-c))).eval x := by
  have h := modByMonic_add_div p (X - C (-c))
  rw [modByMonic_X_sub_C_eq_C_eval] at h
  have := congrArg (eval x) h
  rw [eval_add, eval_C, eval_mul, eval_sub, eval_X, eval_C, sub_neg_eq_add] at this
  exact this.symm

theorem degree_one (e t : Fin q → F) (he : Function.Injective e) (c0 c1 d c : F) :
    ((1 + C d * hPoly e t c0 c1) /ₘ (X - C (-c))).natDegree < q + 2 := by
  have h1 : (1 + C d * hPoly e t c0 c1).natDegree ≤ q + 1 := by
    refine natDegree_add_le_of_degree_le (by rw [natDegree_one]; omega) ?_
    exact (natDegree_C_mul_le _ _).trans (degree_poly e t he c0 c1)
  rw [natDegree_divByMonic _ (monic_X_sub_C _)]
  omega

/-- `s` of the base with the exponents `a_j = η_j / η₀` -/
def ratio (η : Option J → F) (j : J) : F := η (some j) / η none

/-- what request `i` adds to `s` -/
def extra (a : J → F) : Option (Req F J) → F
  | none => 0
  | some r => r.r + ∑ j, a j * r.m j

/-- the number `t_i = s_i + r + ∑ a_j m_j` of the coins -/
def tOf (A : Forger F V W J) (ω : Coins F J q) (i : Fin q) : F :=
  ω.2.2.2 i + extra (ratio ω.2.1) (asked A (pubOf g g2 ω) (signer g g2 ω) i)

/-- the coins for which the simulation works -/
structure Good (A : Forger F V W J) (ω : Coins F J q) : Prop where
  inj : Function.Injective ω.2.2.1
  pole : ∀ i, ω.1 + ω.2.2.1 i ≠ 0
  h0 : ω.2.1 none ≠ 0
  t : ∀ i, tOf g g2 A ω i ≠ 0

/-- the product of the `x + e_i` -/
def nodes (e : Fin q → F) (x : F) : F := ∏ i, (x + e i)

/-- the interpolation at a point -/
noncomputable def inter (e t : Fin q → F) (x : F) : F := (Lagrange.interpolate Finset.univ (fun i => -e i) (fun i => -(t i)⁻¹)).eval x

theorem eval_poly (e t : Fin q → F) (c0 c1 x : F) : (hPoly e t c0 c1).eval x = inter e t x + nodes e x * (c0 + c1 * x) := by
  rw [hPoly, eval_add, eval_mul, eval_prod, inter, nodes]
  simp only [eval_sub, eval_X, eval_C, sub_neg_eq_add, eval_add, eval_mul]

/-- the coins of the reduction that give the same game -/
noncomputable def embed (A : Forger F V W J) (ω : Coins F J q) (c1 : F) : Coins1 F J q :=
  (ratio ω.2.1, ω.2.2.1, tOf g g2 A ω,
    (ω.2.1 none - inter ω.2.2.1 (tOf g g2 A ω) ω.1) / nodes ω.2.2.1 ω.1 - c1 * ω.1, c1)

theorem nodes_ne {e : Fin q → F} {x : F} (h : ∀ i, x + e i ≠ 0) : nodes e x ≠ 0 := Finset.prod_ne_zero_iff.2 fun i _ => h i

theorem embed_eval (A : Forger F V W J) (ω : Coins F J q) (c1 : F) (hω : Good g g2 A ω) : (embed g g2 A ω c1).poly.eval ω.1 = ω.2.1 none := by
  have hn := nodes_ne hω.pole
  rw [Coins1.poly, eval_poly]
  dsimp only [embed]
  field_simp
  ring

theorem pub_eq (A : Forger F V W J) (ω : Coins F J q) (c1 : F) (hω : Good g g2 A ω) :
    pub1 (powers g q ω.1) (ω.1 • g2) (embed g g2 A ω c1) = pubOf g g2 ω := by
  have hd : (embed g g2 A ω c1).poly.natDegree < q + 2 := by
    have := degree_poly ω.2.2.1 (tOf g g2 A ω) hω.inj (embed g g2 A ω c1).2.2.2.1 c1
    exact Nat.lt_succ_of_le this
  unfold pub1 pubOf
  congr 1
  funext j
  rw [evalT_powers g ω.1 _ hd, embed_eval g g2 A ω c1 hω]
  cases j with
  | none => rfl
  | some j =>
    dsimp only [embed, ratio]
    rw [smul_smul, div_mul_cancel₀ _ hω.h0]

/-- the base in terms of `g` -/
theorem base_eq (ω : Coins F J q) (h0 : ω.2.1 none ≠ 0) (m : J → F) (s : F) :
    base g (pubOf g g2 ω) m s = (1 + (s + ∑ j, ratio ω.2.1 j * m j) * ω.2.1 none) • g := by
  unfold base pubOf
  dsimp only
  simp only [smul_smul, ← Finset.sum_smul]
  rw [add_smul, one_smul, add_mul, add_smul, ← add_assoc, Finset.sum_mul]
  congr 2
  refine Finset.sum_congr rfl fun j _ => ?_
  rw [ratio]
  field_simp

theorem sim_eq (A : Forger F V W J) (ω : Coins F J q) (c1 : F) (hω : Good g g2 A ω) (i : ℕ) (hi : i < q) (r : Req F J)
    (hr : asked A (pubOf g g2 ω) (signer g g2 ω) i = some r) :
    sim1 (powers g q ω.1) (embed g g2 A ω c1) i r = signer g g2 ω i r := by
  have ht : tOf g g2 A ω ⟨i, hi⟩ = ω.2.2.2 ⟨i, hi⟩ + (r.r + ∑ j, ratio ω.2.1 j * r.m j) := by rw [tOf]; dsimp only; rw [hr]; rfl
  have e1 : ext (embed g g2 A ω c1).2.1 i = ω.2.2.1 ⟨i, hi⟩ := ext_at _ i hi
  have e2 : ext (embed g g2 A ω c1).2.2.1 i = tOf g g2 A ω ⟨i, hi⟩ := ext_at _ i hi
  have e3 : ext ω.2.2.1 i = ω.2.2.1 ⟨i, hi⟩ := ext_at _ i hi
  have e4 : ext ω.2.2.2 i = ω.2.2.2 ⟨i, hi⟩ := ext_at _ i hi
  have hd : ((1 + C (tOf g g2 A ω ⟨i, hi⟩) * (embed g g2 A ω c1).poly) /ₘ (X - C (-ω.2.2.1 ⟨i, hi⟩))).natDegree < q + 2 :=
    degree_one ω.2.2.1 (tOf g g2 A ω) hω.inj (embed g g2 A ω c1).2.2.2.1 c1 (tOf g g2 A ω ⟨i, hi⟩) (ω.2.2.1 ⟨i, hi⟩)
  have hdiv := divide (1 + C (tOf g g2 A ω ⟨i, hi⟩) * (embed g g2 A ω c1).poly) (ω.2.2.1 ⟨i, hi⟩) ω.1
  have hnode : (embed g g2 A ω c1).poly.eval (-ω.2.2.1 ⟨i, hi⟩) = -(tOf g g2 A ω ⟨i, hi⟩)⁻¹ :=
    poly_node ω.2.2.1 (tOf g g2 A ω) hω.inj _ c1 ⟨i, hi⟩
  have hz : (1 + C (tOf g g2 A ω ⟨i, hi⟩) * (embed g g2 A ω c1).poly).eval (-ω.2.2.1 ⟨i, hi⟩) = 0 := by
    rw [eval_add, eval_one, eval_mul, eval_C, hnode, mul_neg, mul_inv_cancel₀ (hω.t _), add_neg_cancel]
  rw [hz, zero_add, eval_add, eval_one, eval_mul, eval_C, embed_eval g g2 A ω c1 hω] at hdiv
  unfold sim1 signer real
  rw [e1, e2, e3, e4]
  congr 1
  · rw [evalT_powers g ω.1 _ hd, base_eq g g2 ω hω.h0]
    rw [smul_smul, eq_comm, inv_mul_eq_div]
    congr 1
    rw [div_eq_iff (hω.pole _), mul_comm _ (ω.1 + _), ← hdiv, ht]
    ring
  · rw [ht]
    dsimp only [embed]
    ring

theorem hist_congr (A : Forger F V W J) (pub : Pub V W J) (i1 i2 : ℕ → Req F J → Sig F V) (n : ℕ)
    (h : ∀ i < n, ∀ r, asked A pub i1 i = some r → i2 i r = i1 i r) : ∀ i ≤ n, hist A pub i2 i = hist A pub i1 i := by
  intro i
  induction i with
  | zero => intro _; rfl
  | succ i ih =>
    intro hi
    have hh := ih (by omega)
    unfold hist
    rw [hh]
    have := h i (by omega)
    unfold asked at this
    congr 2
    cases hr : A.ask pub (hist A pub i1 i) with
    | none => rfl
    | some r => rw [Option.map_some, Option.map_some, this r hr]

theorem hist1 (A : Forger F V W J) (ω : Coins F J q) (c1 : F) (hω : Good g g2 A ω) (i : ℕ) (hi : i ≤ q) :
    hist A (pub1 (powers g q ω.1) (ω.1 • g2) (embed g g2 A ω c1)) (sim1 (powers g q ω.1) (embed g g2 A ω c1)) i =
      hist A (pubOf g g2 ω) (signer g g2 ω) i := by
  rw [pub_eq g g2 A ω c1 hω]
  exact hist_congr A _ _ _ q (fun i hi r hr => sim_eq g g2 A ω c1 hω i hi r hr) i hi

/-- different coins give different coins of the reduction -/
theorem embed_inj (A : Forger F V W J) (ω ω' : Coins F J q) (c1 c1' : F) (hω : Good g g2 A ω) (hω' : Good g g2 A ω') (hx : ω.1 = ω'.1)
    (h : embed g g2 A ω c1 = embed g g2 A ω' c1') : ω = ω' ∧ c1 = c1' := by
  have hc : c1 = c1' := congrArg (fun κ : Coins1 F J q => κ.2.2.2.2) h
  have he : ω.2.2.1 = ω'.2.2.1 := congrArg (fun κ : Coins1 F J q => κ.2.1) h
  have ht : tOf g g2 A ω = tOf g g2 A ω' := congrArg (fun κ : Coins1 F J q => κ.2.2.1) h
  have ha : ratio ω.2.1 = ratio ω'.2.1 := congrArg (fun κ : Coins1 F J q => κ.1) h
  have h0 : ω.2.1 none = ω'.2.1 none := by
    rw [← embed_eval g g2 A ω c1 hω, ← embed_eval g g2 A ω' c1' hω', h, hx]
  have hη : ω.2.1 = ω'.2.1 := by
    funext j
    cases j with
    | none => exact h0
    | some j =>
      have := congrFun ha j
      rw [ratio, ratio, h0, div_left_inj' hω'.h0] at this
      exact this
  have hpub : pubOf g g2 ω = pubOf g g2 ω' := by unfold pubOf; rw [hx, hη]
  have hasked : ∀ i < q, asked A (pubOf g g2 ω) (signer g g2 ω) i = asked A (pubOf g g2 ω') (signer g g2 ω') i := by
    intro i hi
    unfold asked
    rw [← hist1 g g2 A ω c1 hω i hi.le, ← hist1 g g2 A ω' c1' hω' i hi.le, h, hx, hpub]
  have hs : ω.2.2.2 = ω'.2.2.2 := by
    funext i
    have := congrFun ht i
    rw [tOf, tOf, hasked i i.2, ha] at this
    exact add_right_cancel this
  refine ⟨?_, hc⟩
  obtain ⟨x, η, e, s⟩ := ω
  obtain ⟨x', η', e', s'⟩ := ω'
  dsimp only at hx hη he hs
  rw [hx, hη, he, hs]

end one

/-! ## The second reduction: the problem is put into `h₀, h_j` -/

section two
variable {q : ℕ} [DecidableEq F] [DecidableEq V] [DecidableEq J]

/-- the difference between the forgery and the answer to a request -/
def diff (o : Sig F V × (J → F)) (s : F) (r : Req F J) : Option J → F
  | none => o.1.s - (s + r.r)
  | some j => o.2 j - r.m j

/-- a request whose answer has the same base as the forgery, with different exponents: what is found is the difference -/
def findRel (A : Forger F V W J) (pub : Pub V W J) (issuer : ℕ → Req F J → Sig F V) (q : ℕ) : Option (Option J → F) :=
  (List.range q).findSome? fun i => (asked A pub issuer i).bind fun r =>
    let δ := diff (output A pub issuer q) (issuer i r).s r
    if δ ≠ 0 ∧ ∑ j, δ j • pub.h j = 0 then some δ else none

theorem findRel_some {A : Forger F V W J} {pub : Pub V W J} {issuer : ℕ → Req F J → Sig F V} {δ : Option J → F}
    (h : findRel A pub issuer q = some δ) : δ ≠ 0 ∧ ∑ j, δ j • pub.h j = 0 := by
  unfold findRel at h
  obtain ⟨i, _, hi⟩ := List.exists_of_findSome?_eq_some h
  obtain ⟨r, _, hr⟩ := Option.bind_eq_some_iff.1 hi
  dsimp only at hr
  split at hr
  · rename_i hc
    rw [← Option.some.inj hr]
    exact hc
  · exact absurd hr (by simp)

theorem findRel_none {A : Forger F V W J} {pub : Pub V W J} {issuer : ℕ → Req F J → Sig F V} (h : findRel A pub issuer q = none)
    (i : ℕ) (hi : i < q) (r : Req F J) (hr : asked A pub issuer i = some r) (hδ : diff (output A pub issuer q) (issuer i r).s r ≠ 0) :
    ∑ j, diff (output A pub issuer q) (issuer i r).s r j • pub.h j ≠ 0 := by
  unfold findRel at h
  have := List.findSome?_eq_none_iff.1 h i (List.mem_range.2 hi)
  rw [hr, Option.bind_some] at this
  intro hz
  dsimp only at this
  rw [if_pos ⟨hδ, hz⟩] at this
  exact absurd this (by simp)

/-- its coins: `h_j = β_j g + γ_j D`, its own secret key, and `e`, `s` of every request -/
abbrev Coins2 (F J : Type) (q : ℕ) : Type := (Option J → F) × (Option J → F) × F × (Fin q → F) × (Fin q → F)

/-- its public key for the given `g` and `D` -/
def pub2 (g D : V) (g2 : W) (κ : Coins2 F J q) : Pub V W J := ⟨fun j => κ.1 j • g + κ.2.1 j • D, κ.2.2.1 • g2⟩

/-- its solution: the logarithm of `D` from a relation -/
def solve2 (A : Forger F V W J) (T : Fin (q + 2) → V) (g2 : W) (κ : Coins2 F J q) : F × V :=
  match findRel A (pub2 (T 0) (T 1) g2 κ) (real (T 0) κ.2.2.1 (pub2 (T 0) (T 1) g2 κ) (ext κ.2.2.2.1) (ext κ.2.2.2.2)) q with
  | some δ => (1 + (∑ j, κ.1 j * δ j) / ∑ j, κ.2.1 j * δ j, T 0)
  | none => (0, 0)

/-- the coins of the second reduction that give the same game -/
def embed2 (ω : Coins F J q) (d : F) (γ : Option J → F) : Coins2 F J q := (fun j => ω.2.1 j - d * γ j, γ, ω.1, ω.2.2.1, ω.2.2.2)

theorem pub2_eq (ω : Coins F J q) (d : F) (γ : Option J → F) :
    pub2 (powers g q d 0) (powers g q d 1) g2 (embed2 ω d γ) = pubOf g g2 ω := by
  unfold pub2 pubOf embed2 powers
  congr 1
  funext j
  dsimp only
  rw [Fin.val_zero, Fin.val_one, pow_zero, pow_one, one_smul, smul_smul, ← add_smul]
  congr 1
  ring

theorem solved2 (hg : g ≠ 0) (A : Forger F V W J) (ω : Coins F J q) (d : F) (γ : Option J → F) {δ : Option J → F}
    (h : findRel A (pubOf g g2 ω) (signer g g2 ω) q = some δ) (hγ : ∑ j, γ j * δ j ≠ 0) :
    Solved g d (solve2 A (powers g q d) g2 (embed2 ω d γ)) := by
  have e0 : powers g q d 0 = g := by rw [powers, Fin.val_zero, pow_zero, one_smul]
  have hr := (findRel_some h).2
  have hlin : ∑ j, (embed2 ω d γ).1 j * δ j + d * ∑ j, γ j * δ j = 0 := by
    have : (∑ j, ω.2.1 j * δ j) • g = 0 := by
      rw [← hr, Finset.sum_smul]
      refine Finset.sum_congr rfl fun j _ => ?_
      dsimp only [pubOf]
      rw [smul_smul, mul_comm]
    rcases smul_eq_zero.1 this with h0 | h0
    · rw [← h0, Finset.mul_sum, ← Finset.sum_add_distrib]
      refine Finset.sum_congr rfl fun j _ => ?_
      dsimp only [embed2]
      ring
    · exact absurd h0 hg
  have hs : solve2 A (powers g q d) g2 (embed2 ω d γ) = (1 + (∑ j, (embed2 ω d γ).1 j * δ j) / ∑ j, γ j * δ j, g) := by
    unfold solve2
    rw [pub2_eq, e0]
    change (match findRel A (pubOf g g2 ω) (signer g g2 ω) q with | some δ => _ | none => _) = _
    rw [h]
    rfl
  have h1 : d + (1 + (∑ j, (embed2 ω d γ).1 j * δ j) / ∑ j, γ j * δ j) = 1 := by
    field_simp
    linear_combination hlin
  rw [hs]
  unfold Solved
  dsimp only
  rw [h1]
  exact ⟨one_ne_zero, by rw [inv_one, one_smul]⟩

/-! ## When the first reduction solves the problem -/

/-- the forger's output against the signer with these coins -/
def out (A : Forger F V W J) (ω : Coins F J q) : Sig F V × (J → F) := output A (pubOf g g2 ω) (signer g g2 ω) q

/-- the exponent `t` of the forgery -/
def tOut (A : Forger F V W J) (ω : Coins F J q) : F := (out g g2 A ω).1.s + ∑ j, ratio ω.2.1 j * (out g g2 A ω).2 j

/-- the remainder of the division vanishes although the number `e` of the forgery is new -/
def Bad (A : Forger F V W J) (ω : Coins F J q) (c1 : F) : Prop :=
  ω.1 + (out g g2 A ω).1.e ≠ 0 ∧ (∀ i, ω.2.2.1 i ≠ (out g g2 A ω).1.e) ∧
    1 + tOut g g2 A ω * (embed g g2 A ω c1).poly.eval (-(out g g2 A ω).1.e) = 0

/-- the number `e` of the forgery was drawn for a request that was not made -/
def Unasked (A : Forger F V W J) (i : Fin q) (ω : Coins F J q) : Prop :=
  asked A (pubOf g g2 ω) (signer g g2 ω) i = none ∧ (out g g2 A ω).1.e = ω.2.2.1 i

theorem solved1 (hg : g ≠ 0) (A : Forger F V W J) (ω : Coins F J q) (c1 : F) (hω : Good g g2 A ω) (hw : Win g g2 A ω)
    (hrel : findRel A (pubOf g g2 ω) (signer g g2 ω) q = none) (hb : ¬ Bad g g2 A ω c1) (hu : ∀ i, ¬ Unasked g g2 A i ω) :
    Solved g ω.1 (solve1 A (powers g q ω.1) (ω.1 • g2) (embed g g2 A ω c1)) := by
  have e0 : powers g q ω.1 0 = g := by rw [powers, Fin.val_zero, pow_zero, one_smul]
  have e1 : powers g q ω.1 1 = ω.1 • g := by rw [powers, Fin.val_one, pow_one]
  have hout : output A (pub1 (powers g q ω.1) (ω.1 • g2) (embed g g2 A ω c1)) (sim1 (powers g q ω.1) (embed g g2 A ω c1)) q = out g g2 A ω := by
    unfold output out output
    rw [hist1 g g2 A ω c1 hω q le_rfl, pub_eq g g2 A ω c1 hω]
  obtain ⟨hv, hnew⟩ := hw
  change Valid g ω.1 (pubOf g g2 ω) (out g g2 A ω).1 (out g g2 A ω).2 at hv
  unfold Valid at hv
  rw [base_eq g g2 ω hω.h0] at hv
  change _ = (1 + tOut g g2 A ω * ω.2.1 none) • g at hv
  unfold solve1
  dsimp only
  rw [hout, e0, e1]
  change Solved g ω.1 (if ω.1 • g = -(out g g2 A ω).1.e • g then ((out g g2 A ω).1.e + 1, g) else
    ((out g g2 A ω).1.e, (eval (-(out g g2 A ω).1.e) (1 + C (tOut g g2 A ω) * (embed g g2 A ω c1).poly))⁻¹ •
      ((out g g2 A ω).1.A - evalT (powers g q ω.1)
        ((1 + C (tOut g g2 A ω) * (embed g g2 A ω c1).poly) /ₘ (X - C (-(out g g2 A ω).1.e))))))
  by_cases hx : ω.1 • g = -(out g g2 A ω).1.e • g
  · rw [if_pos hx]
    have hx' : ω.1 = -(out g g2 A ω).1.e := by
      have : (ω.1 - -(out g g2 A ω).1.e) • g = 0 := by rw [sub_smul, hx, sub_self]
      rcases smul_eq_zero.1 this with h | h
      · exact sub_eq_zero.1 h
      · exact absurd h hg
    have h1 : ω.1 + ((out g g2 A ω).1.e + 1) = 1 := by rw [hx']; ring
    unfold Solved
    dsimp only
    rw [h1]
    exact ⟨one_ne_zero, by rw [inv_one, one_smul]⟩
  · rw [if_neg hx]
    have hxe : ω.1 + (out g g2 A ω).1.e ≠ 0 := fun h => hx (by rw [eq_neg_of_add_eq_zero_left h])
    have hρ : eval (-(out g g2 A ω).1.e) (1 + C (tOut g g2 A ω) * (embed g g2 A ω c1).poly) ≠ 0 := by
      rw [eval_add, eval_one, eval_mul, eval_C]
      intro hz
      by_cases hi : ∀ i, ω.2.2.1 i ≠ (out g g2 A ω).1.e
      · exact hb ⟨hxe, hi, hz⟩
      · push Not at hi
        obtain ⟨i, hi⟩ := hi
        have hnode : (embed g g2 A ω c1).poly.eval (-ω.2.2.1 i) = -(tOf g g2 A ω i)⁻¹ :=
          poly_node ω.2.2.1 (tOf g g2 A ω) hω.inj _ c1 i
        rw [← hi, hnode] at hz
        have htt : tOut g g2 A ω = tOf g g2 A ω i := by
          have := hω.t i
          field_simp at hz
          linear_combination -hz
        cases hr : asked A (pubOf g g2 ω) (signer g g2 ω) i with
        | none => exact hu i ⟨hr, hi.symm⟩
        | some r =>
          have es : (signer g g2 ω i r).s = ω.2.2.2 i := ext_at _ _ i.2
          have ee : (signer g g2 ω i r).e = ω.2.2.1 i := ext_at _ _ i.2
          have hδ : diff (out g g2 A ω) (signer g g2 ω i r).s r ≠ 0 := by
            intro hd
            refine hnew i i.2 r hr ⟨hi.symm.trans ee.symm, ?_, ?_⟩
            · have := congrFun hd none
              exact sub_eq_zero.1 this
            · funext j
              have := congrFun hd (some j)
              exact sub_eq_zero.1 this
          refine findRel_none hrel i i.2 r hr hδ ?_
          change ∑ j, diff (out g g2 A ω) (signer g g2 ω i r).s r j • (pubOf g g2 ω).h j = 0
          rw [Fintype.sum_option, es]
          have ht' : tOf g g2 A ω i = ω.2.2.2 i + (r.r + ∑ j, ratio ω.2.1 j * r.m j) := by rw [tOf, hr]; rfl
          have hz0 : (diff (out g g2 A ω) (ω.2.2.2 i) r none + ∑ j, ratio ω.2.1 j * diff (out g g2 A ω) (ω.2.2.2 i) r (some j)) = 0 := by
            dsimp only [diff]
            rw [tOut, ht'] at htt
            simp only [mul_sub, Finset.sum_sub_distrib]
            linear_combination htt
          have hcongr : ∀ j, diff (out g g2 A ω) (ω.2.2.2 i) r (some j) • (pubOf g g2 ω).h (some j) =
              ((ratio ω.2.1 j * diff (out g g2 A ω) (ω.2.2.2 i) r (some j)) * ω.2.1 none) • g := by
            intro j
            dsimp only [pubOf]
            rw [smul_smul, ratio]
            congr 1
            have := hω.h0
            field_simp
          rw [Finset.sum_congr rfl fun j _ => hcongr j, ← Finset.sum_smul, ← Finset.sum_mul]
          dsimp only [pubOf]
          rw [smul_smul, ← add_smul, ← add_mul, hz0, zero_mul, zero_smul]
    have hd : ((1 + C (tOut g g2 A ω) * (embed g g2 A ω c1).poly) /ₘ (X - C (-(out g g2 A ω).1.e))).natDegree < q + 2 :=
      degree_one ω.2.2.1 (tOf g g2 A ω) hω.inj (embed g g2 A ω c1).2.2.2.1 c1 _ _
    have hdiv := divide (1 + C (tOut g g2 A ω) * (embed g g2 A ω c1).poly) (out g g2 A ω).1.e ω.1
    refine ⟨hxe, ?_⟩
    dsimp only
    rw [evalT_powers g ω.1 _ hd]
    rw [eval_add (p := 1) (x := ω.1), eval_one, eval_mul (x := ω.1), eval_C, embed_eval g g2 A ω c1 hω] at hdiv
    generalize eval (-(out g g2 A ω).1.e) (1 + C (tOut g g2 A ω) * (embed g g2 A ω c1).poly) = ρ at hρ hdiv ⊢
    generalize eval ω.1 ((1 + C (tOut g g2 A ω) * (embed g g2 A ω c1).poly) /ₘ (X - C (-(out g g2 A ω).1.e))) = y at hdiv ⊢
    have hA : (out g g2 A ω).1.A = ((ω.1 + (out g g2 A ω).1.e)⁻¹ * (1 + tOut g g2 A ω * ω.2.1 none)) • g := by
      rw [mul_smul, ← hv, smul_smul, inv_mul_cancel₀ hxe, one_smul]
    rw [hA, ← sub_smul, smul_smul, hdiv]
    congr 1
    field_simp
    ring

end two
end Verif.SDH
