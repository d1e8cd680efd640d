import Verif.Props.RSACount
import Mathlib.Algebra.BigOperators.Group.Finset.Basic
import Mathlib.Algebra.Group.Pi.Basic
import Mathlib.GroupTheory.OrderOfElement
import Mathlib.Algebra.BigOperators.Associated
/-!
# Signatures `Z = A^e S^v ∏ R_j^{m_j}` and the strong RSA problem (C204, abstract part)

An issuer publishes group elements `S`, `Z = S^xz`, `R_j = S^xj` and signs lists of attribute values for a forger, one request after
the other.  A request names the values and the number `v'` the holder adds; the answer is a root `A` of exponent `e_i` together with a
random `v''`.  The forger wins with a root of a prime exponent for a list of values it never asked for.

`solver` uses such a forger to take roots of a given group element: it knows neither the order of the group nor any root.
-/
set_option linter.unusedSectionVars false
set_option linter.unusedVariables false
set_option linter.unusedSimpArgs false
namespace Verif.SRSA
open Verif.Forking

/-- what the issuer publishes -/
structure Pub (G J : Type) where
  S : G
  Z : G
  R : J → G

/-- a request: the attribute values and the number the holder adds to `v''` -/
structure Request (J : Type) where
  m : J → ℤ
  vP : ℤ

/-- `(A, e, v)` -/
structure Sig (G : Type) where
  A : G
  e : ℕ
  v : ℤ

/-- a forger: what it asks next and what it finally outputs, from the public key and the answers so far -/
structure Forger (G J : Type) where
  ask : Pub G J → List (Sig G) → Request J
  out : Pub G J → List (Sig G) → Sig G × (J → ℤ)

variable {G J : Type} [CommGroup G] [Fintype J]

/-- the answers to the first `n` requests -/
def hist (F : Forger G J) (pub : Pub G J) (issuer : ℕ → Request J → Sig G) : ℕ → List (Sig G)
  | 0 => []
  | n + 1 => hist F pub issuer n ++ [issuer n (F.ask pub (hist F pub issuer n))]

/-- request number `i` -/
def asked (F : Forger G J) (pub : Pub G J) (issuer : ℕ → Request J → Sig G) (i : ℕ) : Request J :=
  F.ask pub (hist F pub issuer i)

/-- the output after `q` answers -/
def output (F : Forger G J) (pub : Pub G J) (issuer : ℕ → Request J → Sig G) (q : ℕ) : Sig G × (J → ℤ) :=
  F.out pub (hist F pub issuer q)

/-- the equation every verifier checks -/
def Valid (pub : Pub G J) (σ : Sig G) (m : J → ℤ) : Prop :=
  pub.Z = σ.A ^ σ.e * pub.S ^ σ.v * ∏ j, pub.R j ^ m j

/-- The forger wins: its output satisfies the equation, the exponent is a prime between `emin` and `emax`, all values (signed and
forged) are numbers below `emin`, and the list of values was never asked for. -/
def Wins (emin emax q : ℕ) (F : Forger G J) (pub : Pub G J) (issuer : ℕ → Request J → Sig G) : Prop :=
  Valid pub (output F pub issuer q).1 (output F pub issuer q).2 ∧
  (output F pub issuer q).1.e.Prime ∧ emin ≤ (output F pub issuer q).1.e ∧ (output F pub issuer q).1.e ≤ emax ∧
  (∀ j, 0 ≤ (output F pub issuer q).2 j ∧ (output F pub issuer q).2 j < emin) ∧
  ∀ i < q, (∀ j, 0 ≤ (asked F pub issuer i).m j ∧ (asked F pub issuer i).m j < emin) ∧ (output F pub issuer q).2 ≠ (asked F pub issuer i).m

/-- the public key made from `S` with the exponents `x` (`none` is the exponent of `Z`) -/
def pubOf (S : G) (x : Option J → ℤ) : Pub G J := ⟨S, S ^ x none, fun j => S ^ x (some j)⟩

/-- the root of exponent `e` in a group of exponent `N` -/
def root (N e : ℕ) (y : G) : G := y ^ Int.gcdA e N

/-- the issuer, who knows `N`: `v'' = base + t_i` and the root of `Z / (S^(v''+v') ∏ R^m)` -/
def real (N : ℕ) (e : ℕ → ℕ) (base : ℤ) (t : ℕ → ℕ) (pub : Pub G J) (i : ℕ) (r : Request J) : Sig G :=
  ⟨root N (e i) (pub.Z / (pub.S ^ (base + t i + r.vP) * ∏ j, pub.R j ^ r.m j)), e i, base + t i⟩

/-- the exponent `x` with `Z / (S^v ∏ R^m) = S^x` -/
def expo (x : Option J → ℤ) (m : J → ℤ) (v : ℤ) : ℤ := x none - v - ∑ j, x (some j) * m j

/-- the product of the exponents of the requests in `I` -/
def prodE (e : ℕ → ℕ) (I : Finset ℕ) : ℤ := ∏ i ∈ I, (e i : ℤ)

/-- The reduction's answers.  For the requests in `I` it divides the exponent of `S = (u^2)^(∏_I e)` by `e_i`; for another request it
chooses `v''` so that the exponent of the quotient is divisible by `e_i`. -/
def sim (I : Finset ℕ) (e : ℕ → ℕ) (base : ℤ) (u : G) (x : Option J → ℤ) (t : ℕ → ℕ) (w : ℕ) (i : ℕ) (r : Request J) : Sig G :=
  if i ∈ I then ⟨(u ^ 2) ^ (prodE e (I.erase i) * expo x r.m (base + t i + r.vP)), e i, base + t i⟩
  else
    let t' : ℤ := expo x r.m (base + r.vP) % e i + e i * w
    ⟨(u ^ 2) ^ (prodE e I * (expo x r.m (base + t' + r.vP) / e i)), e i, base + t'⟩

/-- The strong-RSA solver: it plays the issuer with `S = (u^2)^(∏_I e)` and exponents `x`, and combines the forgery and `u` into
a root of `u`. -/
def solver (I : Finset ℕ) (e : ℕ → ℕ) (base : ℤ) (q : ℕ) (F : Forger G J) (u : G) (x : Option J → ℤ) (t : ℕ → ℕ) (w : ℕ) : G × ℕ :=
  let o := output F (pubOf ((u ^ 2) ^ prodE e I) x) (sim I e base u x t w) q
  let c := 2 * prodE e I * expo x o.2 o.1.v
  (o.1.A ^ Int.gcdB o.1.e c * u ^ Int.gcdA o.1.e c, o.1.e)

/-- a root of `u` with an exponent of the solver's own choice -/
def Solved (u : G) (s : G × ℕ) : Prop := s.1 ^ s.2 = u ∧ 1 < s.2

/-! ## The reduction's answers are the issuer's -/

theorem hist_congr (F : Forger G J) (pub : Pub G J) (i1 i2 : ℕ → Request J → Sig G) (n : ℕ)
    (h : ∀ i < n, i2 i (asked F pub i1 i) = i1 i (asked F pub i1 i)) : ∀ i ≤ n, hist F pub i2 i = hist F pub i1 i := by
  intro i
  induction i with
  | zero => intro _; rfl
  | succ i ih =>
    intro hi
    have hh := ih (by omega)
    unfold hist
    rw [hh]
    have := h i (by omega)
    unfold asked at this
    rw [this]

theorem root_eq (N e : ℕ) (hc : Nat.Coprime e N) {y b : G} (hb : b ^ N = 1) (hy : b ^ e = y) : root N e y = b := by
  unfold root
  have h := Int.gcd_eq_gcd_ab (e : ℤ) (N : ℤ)
  rw [Int.gcd_natCast_natCast, hc] at h
  have h2 : (e : ℤ) * Int.gcdA e N = 1 - N * Int.gcdB e N := by push_cast at h; linarith
  rw [← hy, ← zpow_natCast, ← zpow_mul, h2, zpow_sub, zpow_one, zpow_mul, zpow_natCast, hb, one_zpow, inv_one, mul_one]

theorem quotient_eq (S : G) (x : Option J → ℤ) (m : J → ℤ) (v : ℤ) :
    (pubOf S x).Z / ((pubOf S x).S ^ v * ∏ j, (pubOf S x).R j ^ m j) = S ^ expo x m v := by
  unfold expo pubOf
  simp only
  have : ∏ j, (S ^ x (some j)) ^ m j = S ^ ∑ j, x (some j) * m j := by
    simp only [← zpow_mul]
    classical
    induction (Finset.univ : Finset J) using Finset.induction_on with
    | empty => simp
    | insert a s ha ih => rw [Finset.prod_insert ha, Finset.sum_insert ha, ih, zpow_add]
  rw [this, zpow_sub, zpow_sub, div_eq_mul_inv, mul_inv, mul_assoc]

theorem valid_iff (S : G) (x : Option J → ℤ) (σ : Sig G) (m : J → ℤ) :
    Valid (pubOf S x) σ m ↔ σ.A ^ σ.e = S ^ expo x m σ.v := by
  rw [← quotient_eq, Valid, eq_div_iff_mul_eq', ← mul_assoc]
  exact eq_comm

theorem expo_shift (x : Option J → ℤ) (m : J → ℤ) (a b : ℤ) : expo x m (a + b) = expo x m a - b := by
  unfold expo; ring

theorem prodE_erase {e : ℕ → ℕ} {I : Finset ℕ} {i : ℕ} (h : i ∈ I) : (e i : ℤ) * prodE e (I.erase i) = prodE e I := by
  unfold prodE
  exact Finset.mul_prod_erase I (fun i => (e i : ℤ)) h

variable {N : ℕ} (hN : ∀ g : G, (g ^ 2) ^ N = 1)
include hN

theorem pow_sq (u : G) (k : ℤ) : ((u ^ 2) ^ k) ^ N = 1 := by
  rw [← zpow_natCast, ← zpow_mul, mul_comm, zpow_mul, zpow_natCast, hN, one_zpow]

/-- a request in `I` -/
theorem sim_in {I : Finset ℕ} {e : ℕ → ℕ} {base : ℤ} {u : G} {x : Option J → ℤ} {t : ℕ → ℕ} {w i : ℕ} {r : Request J} (hi : i ∈ I)
    (hc : Nat.Coprime (e i) N) :
    sim I e base u x t w i r = real N e base t (pubOf ((u ^ 2) ^ prodE e I) x) i r := by
  unfold sim real
  rw [if_pos hi, quotient_eq, root_eq N (e i) hc (pow_sq hN u _) ?_]
  rw [← zpow_natCast, ← zpow_mul, ← zpow_mul, ← prodE_erase hi]
  congr 1
  ring

/-- the request outside `I`, when `v''` fits -/
theorem sim_out {I : Finset ℕ} {e : ℕ → ℕ} {base : ℤ} {u : G} {x : Option J → ℤ} {t : ℕ → ℕ} {i : ℕ} {r : Request J} (hi : i ∉ I)
    (hc : Nat.Coprime (e i) N) (hd : (e i : ℤ) ∣ expo x r.m (base + t i + r.vP)) (t0 : ℕ → ℕ) :
    sim I e base u x t0 (t i / e i) i r = real N e base t (pubOf ((u ^ 2) ^ prodE e I) x) i r := by
  have h1 : expo x r.m (base + t i + r.vP) = expo x r.m (base + r.vP) - t i := by
    rw [show base + (t i : ℤ) + r.vP = base + r.vP + t i by ring, expo_shift]
  rw [h1] at hd
  have ht : expo x r.m (base + r.vP) % e i + e i * ((t i / e i : ℕ) : ℤ) = t i := by
    have h2 : expo x r.m (base + r.vP) % e i = (t i : ℤ) % e i := (Int.modEq_iff_dvd.2 hd).symm
    rw [h2]
    push_cast
    exact Int.emod_add_mul_ediv _ _
  unfold sim real
  rw [if_neg hi]
  simp only [ht]
  rw [quotient_eq, root_eq N (e i) hc (pow_sq hN u _) ?_]
  rw [← zpow_natCast, ← zpow_mul, ← zpow_mul, mul_assoc, Int.ediv_mul_cancel (by rw [h1]; exact hd)]

omit hN in
theorem prime_not_dvd_prodE {e : ℕ → ℕ} {I : Finset ℕ} {p : ℕ} (hp : p.Prime) (h : ∀ i ∈ I, (e i).Prime ∧ e i ≠ p) :
    ¬ (p : ℤ) ∣ prodE e I := by
  unfold prodE
  intro hd
  obtain ⟨i, hi, hdi⟩ := (Nat.prime_iff_prime_int.1 hp).exists_mem_finset_dvd hd
  have := (Nat.prime_dvd_prime_iff_eq hp (h i hi).1).1 (Int.natCast_dvd_natCast.1 hdi)
  exact (h i hi).2 this.symm

omit hN in
/-- the combination is a root of `u` -/
theorem combine (A u : G) (e : ℕ) (c : ℤ) (hc : IsCoprime (e : ℤ) c) (h : A ^ e = u ^ c) :
    (A ^ Int.gcdB e c * u ^ Int.gcdA e c) ^ e = u := by
  have hg := Int.gcd_eq_gcd_ab (e : ℤ) c
  rw [Int.isCoprime_iff_gcd_eq_one.1 hc] at hg
  rw [mul_pow, ← zpow_natCast, ← zpow_mul, mul_comm (Int.gcdB _ _), zpow_mul, zpow_natCast, h, ← zpow_natCast (u ^ _), ← zpow_mul,
    ← zpow_mul, ← zpow_add]
  have : c * Int.gcdB e c + Int.gcdA e c * e = 1 := by push_cast at hg; linarith
  rw [this, zpow_one]

omit hN in
/-- If the reduction's answers are the issuer's, a forgery whose exponent is new to `I` and does not divide the exponent of the
forged quotient gives a root of `u`. -/
theorem solved_core (I : Finset ℕ) (e : ℕ → ℕ) (base : ℤ) (q : ℕ) (F : Forger G J) (u : G) (x : Option J → ℤ) (t0 t : ℕ → ℕ) (w : ℕ)
    (pub : Pub G J) (hpub : pub = pubOf ((u ^ 2) ^ prodE e I) x)
    (hag : ∀ i < q, sim I e base u x t0 w i (asked F pub (real N e base t pub) i) = real N e base t pub i (asked F pub (real N e base t pub) i))
    (o : Sig G × (J → ℤ)) (ho : o = output F pub (real N e base t pub) q)
    (hv : Valid pub o.1 o.2) (hp : o.1.e.Prime) (h2 : o.1.e ≠ 2) (hI : ∀ i ∈ I, (e i).Prime ∧ e i ≠ o.1.e)
    (hx : ¬ (o.1.e : ℤ) ∣ expo x o.2 o.1.v) :
    Solved u (solver I e base q F u x t0 w) := by
  have hh := hist_congr F pub (real N e base t pub) (sim I e base u x t0 w) q hag q le_rfl
  have hout : output F pub (sim I e base u x t0 w) q = o := by
    rw [ho]; unfold output; rw [hh]
  unfold solver Solved
  rw [← hpub, hout]
  simp only
  refine ⟨?_, hp.one_lt⟩
  refine combine _ _ _ _ ?_ ?_
  · have hz := Nat.prime_iff_prime_int.1 hp
    refine IsCoprime.mul_right (IsCoprime.mul_right ?_ ?_) ?_
    · have : Nat.Coprime o.1.e 2 := (Nat.coprime_primes hp Nat.prime_two).2 h2
      exact_mod_cast Nat.isCoprime_iff_coprime.2 this
    · exact (Prime.coprime_iff_not_dvd hz).2 (prime_not_dvd_prodE hp hI)
    · exact (Prime.coprime_iff_not_dvd hz).2 hx
  · rw [hpub, valid_iff] at hv
    rw [hv, ← zpow_natCast u 2, ← zpow_mul, ← zpow_mul]
    congr 1
    push_cast
    ring

/-- exponents matter only modulo `N` -/
theorem pubOf_mod (u : G) (k : ℤ) (x y : Option J → ℤ) (h : ∀ i, ∃ c : ℤ, x i = y i + N * c) :
    pubOf ((u ^ 2) ^ k) x = pubOf ((u ^ 2) ^ k) y := by
  have hS : ∀ c : ℤ, ((u ^ 2) ^ k) ^ ((N : ℤ) * c) = 1 := fun c => by
    rw [zpow_mul, zpow_natCast, pow_sq hN, one_zpow]
  have hx : ∀ i, ((u ^ 2) ^ k) ^ x i = ((u ^ 2) ^ k) ^ y i := fun i => by
    obtain ⟨c, hc⟩ := h i
    rw [hc, zpow_add, hS, mul_one]
  unfold pubOf
  rw [hx none]
  congr 1
  exact funext fun j => hx (some j)

/-! ## How many ways to choose the exponents -/

omit hN
/-- all the exponents but that of `Z`, then that of `Z` -/
theorem join_bijective (α : Type) : Function.Bijective (fun p : (J → α) × α => (fun i : Option J => i.elim p.2 p.1)) := by
  constructor
  · rintro ⟨f, a⟩ ⟨g, b⟩ h
    have h1 := congrFun h none
    have h2 : f = g := funext fun j => congrFun h (some j)
    exact Prod.ext h2 h1
  · intro f
    exact ⟨(fun j => f (some j), f none), funext fun i => by cases i <;> rfl⟩

/-- the exponents `a + N k` -/
def lift (N : ℕ) {K : ℕ} (a : Option J → ℤ) (k : Option J → Fin K) : Option J → ℤ := fun i => a i + N * ((k i : ℕ) : ℤ)

theorem expo_join {K : ℕ} (N : ℕ) (a : Option J → ℤ) (r : J → Fin K) (k : Fin K) (m : J → ℤ) (v : ℤ) :
    expo (lift N a (fun i => i.elim k r)) m v =
      (a none - v - ∑ j, (a (some j) + N * ((r j : ℕ) : ℤ)) * m j) + (N : ℤ) * ((k : ℕ) : ℤ) := by
  unfold expo lift
  simp only [Option.elim_none, Option.elim_some]
  ring

theorem pr_expo [DecidableEq J] (K e N : ℕ) (hK : 0 < K) (he : e.Prime) (hc : Nat.Coprime e N) (a : Option J → ℤ) (m : J → ℤ) (v : ℤ) :
    pr (fun k : Option J → Fin K => (e : ℤ) ∣ expo (lift N a k) m v) ≤ 1 / e + 1 / K ∧
    (1 : ℚ) / e - 1 / K ≤ pr (fun k : Option J → Fin K => (e : ℤ) ∣ expo (lift N a k) m v) := by
  have hd : ¬ (e : ℤ) ∣ (N : ℤ) := fun h => (Nat.Prime.coprime_iff_not_dvd he).1 hc (Int.natCast_dvd_natCast.1 h)
  have : Nonempty (Fin K) := ⟨⟨0, hK⟩⟩
  classical
  rw [← pr_bijective _ (join_bijective (J := J) (Fin K))]
  constructor
  · refine pr_fiber _ _ (by positivity) fun r => ?_
    simp only [expo_join]
    exact (pr_linear K e hK he _ _ hd).1
  · refine pr_fiber_ge _ _ fun r => ?_
    simp only [expo_join]
    exact (pr_linear K e hK he _ _ hd).2

/-- a linear condition on the exponents of the attributes -/
theorem pr_attr [DecidableEq J] (K e N : ℕ) (hK : 0 < K) (he : e.Prime) (hc : Nat.Coprime e N) (a : Option J → ℤ) (d : J → ℤ) (j0 : J)
    (hj : ¬ (e : ℤ) ∣ d j0) (c : ℤ) :
    pr (fun r : J → Fin K => (e : ℤ) ∣ c + ∑ j, (a (some j) + N * ((r j : ℕ) : ℤ)) * d j) ≤ 1 / e + 1 / K := by
  have hd : ¬ (e : ℤ) ∣ (N : ℤ) * d j0 := fun h => by
    rcases (Nat.prime_iff_prime_int.1 he).dvd_mul.1 h with h | h
    · exact (Nat.Prime.coprime_iff_not_dvd he).1 hc (Int.natCast_dvd_natCast.1 h)
    · exact hj h
  have : Nonempty (Fin K) := ⟨⟨0, hK⟩⟩
  rw [← pr_bijective _ ((Equiv.piSplitAt j0 (fun _ : J => Fin K)).symm.bijective),
    ← pr_bijective _ (Equiv.prodComm _ _).bijective]
  refine pr_fiber _ _ (by positivity) fun r => ?_
  have hsum : ∀ k : Fin K, c + ∑ j, (a (some j) + N * ((((Equiv.piSplitAt j0 (fun _ : J => Fin K)).symm (k, r)) j : ℕ) : ℤ)) * d j =
      (c + a (some j0) * d j0 + ∑ j ∈ (Finset.univ.erase j0), (a (some j) + N * ((((Equiv.piSplitAt j0 (fun _ : J => Fin K)).symm (⟨0, hK⟩, r)) j : ℕ) : ℤ)) * d j)
        + (N : ℤ) * d j0 * ((k : ℕ) : ℤ) := by
    intro k
    rw [← Finset.add_sum_erase Finset.univ _ (Finset.mem_univ j0)]
    have h1 : ((Equiv.piSplitAt j0 (fun _ : J => Fin K)).symm (k, r)) j0 = k := by simp [Equiv.piSplitAt]
    have h2 : ∀ j ∈ Finset.univ.erase j0, ((Equiv.piSplitAt j0 (fun _ : J => Fin K)).symm (k, r)) j =
        ((Equiv.piSplitAt j0 (fun _ : J => Fin K)).symm (⟨0, hK⟩, r)) j := fun j hj => by
      have := (Finset.mem_erase.1 hj).1
      simp [Equiv.piSplitAt, this]
    rw [h1, Finset.sum_congr rfl fun j hj => by rw [h2 j hj]]
    ring
  simp only [Equiv.prodComm_apply, Prod.swap_prod_mk, hsum]
  exact (pr_linear K e hK he _ _ hd).1

/-- two lists of values that differ modulo `e`: both exponents are divisible by `e` only rarely -/
theorem pr_both [DecidableEq J] (K e N : ℕ) (hK : 0 < K) (he : e.Prime) (hc : Nat.Coprime e N) (a : Option J → ℤ) (m m' : J → ℤ)
    (v v' : ℤ) (j0 : J) (hj : ¬ (e : ℤ) ∣ m j0 - m' j0) :
    pr (fun k : Option J → Fin K => (e : ℤ) ∣ expo (lift N a k) m v ∧ (e : ℤ) ∣ expo (lift N a k) m' v') ≤ (1 / e + 1 / K) * (1 / e + 1 / K) := by
  have hd : ¬ (e : ℤ) ∣ (N : ℤ) := fun h => (Nat.Prime.coprime_iff_not_dvd he).1 hc (Int.natCast_dvd_natCast.1 h)
  rw [← pr_bijective _ (join_bijective (J := J) (Fin K))]
  simp only [expo_join]
  have hs : ∀ r : J → Fin K, ∑ j, (a (some j) + N * ((r j : ℕ) : ℤ)) * (m j - m' j) =
      ∑ j, (a (some j) + N * ((r j : ℕ) : ℤ)) * m j - ∑ j, (a (some j) + N * ((r j : ℕ) : ℤ)) * m' j := fun r => by
    simp only [mul_sub, Finset.sum_sub_distrib]
  have hA := pr_attr K e N hK he hc a (fun j => m j - m' j) j0 hj (v - v')
  simp only [hs] at hA
  have hB : ∀ r : J → Fin K, pr (fun k : Fin K => (e : ℤ) ∣ (a none - v - ∑ j, (a (some j) + N * ((r j : ℕ) : ℤ)) * m j) + (N : ℤ) * ((k : ℕ) : ℤ))
      ≤ 1 / e + 1 / K := fun r => (pr_linear K e hK he _ _ hd).1
  have key := pr_and_le (fun r : J → Fin K => (e : ℤ) ∣ v - v' + (∑ j, (a (some j) + N * ((r j : ℕ) : ℤ)) * m j - ∑ j, (a (some j) + N * ((r j : ℕ) : ℤ)) * m' j))
    (fun (r : J → Fin K) (k : Fin K) => (e : ℤ) ∣ (a none - v - ∑ j, (a (some j) + N * ((r j : ℕ) : ℤ)) * m j) + (N : ℤ) * ((k : ℕ) : ℤ)) (1 / e + 1 / K) (fun r _ => hB r)
  refine le_trans (le_trans (pr_mono ?_) key) (mul_le_mul_of_nonneg_left hA (by positivity))
  rintro ⟨r, k⟩ ⟨⟨x1, h1⟩, ⟨x2, h2⟩⟩
  exact ⟨⟨x2 - x1, by linear_combination h2 - h1⟩, ⟨x1, h1⟩⟩

end Verif.SRSA
