import Verif.Props.StrongRSA
import Mathlib.Data.Nat.GCD.BigOperators
import Mathlib.Data.Fintype.Option
/-!
# The strong-RSA reduction succeeds about as often as the forger (C204, abstract part)
-/
set_option linter.unusedSectionVars false
set_option linter.unusedVariables false
set_option linter.unusedSimpArgs false
namespace Verif.SRSA
open Verif.Forking

/-- The numbers of the game: the issuer's secret `N`; exponents drawn from `c, …, c + L - 1`; `v'' = base + t` with `t < T`;
the exponents `e i` of the issued roots; the number `q` of requests; the range of the exponent of a forgery. -/
structure Setup where
  N : ℕ
  c : ℕ
  L : ℕ
  T : ℕ
  base : ℤ
  e : ℕ → ℕ
  q : ℕ
  emin : ℕ
  emax : ℕ

/-- the number drawn for request `i` -/
def ext {q T : ℕ} (t : Fin q → Fin T) (i : ℕ) : ℕ := if h : i < q then (t ⟨i, h⟩ : ℕ) else 0

variable {G J : Type} [CommGroup G] [Fintype G] [Fintype J] [DecidableEq J]

/-- what the issuer draws: the number squared to `S`, the exponents, and the parts of `v''` -/
abbrev Coins (G J : Type) (D : Setup) : Type := G × (Option J → Fin D.L) × (Fin D.q → Fin D.T)

/-- the published key -/
def Setup.pub (D : Setup) (s : G) (a : Option J → Fin D.L) : Pub G J := pubOf (s ^ 2) (fun i => (D.c : ℤ) + ((a i : ℕ) : ℤ))

/-- the issuer of the game -/
def Setup.issuer (D : Setup) (ω : Coins G J D) : ℕ → Request J → Sig G :=
  real D.N D.e D.base (ext ω.2.2) (D.pub ω.1 ω.2.1)

/-- what the forger outputs -/
def Setup.out (D : Setup) (F : Forger G J) (ω : Coins G J D) : Sig G × (J → ℤ) :=
  output F (D.pub ω.1 ω.2.1) (D.issuer ω) D.q

/-- the forger wins against the issuer -/
def Setup.Win (D : Setup) (F : Forger G J) (ω : Coins G J D) : Prop :=
  Wins D.emin D.emax D.q F (D.pub ω.1 ω.2.1) (D.issuer ω)

/-- the reduction when the exponent of the forgery is new; exponents are drawn below the public bound `B` -/
def Setup.solvesNew (D : Setup) (B : ℕ) (F : Forger G J) (ω : G × (Option J → Fin B) × (Fin D.q → Fin D.T)) : Prop :=
  Solved ω.1 (solver (Finset.range D.q) D.e D.base D.q F ω.1 (fun i => ((ω.2.1 i : ℕ) : ℤ)) (ext ω.2.2) 0)

/-- the reduction when the exponent of the forgery is that of request `j` -/
def Setup.solvesOld (D : Setup) (B : ℕ) (F : Forger G J) (j : ℕ)
    (ω : (G × (Option J → Fin B) × (Fin D.q → Fin D.T)) × Fin (D.T / D.e j)) : Prop :=
  Solved ω.1.1 (solver ((Finset.range D.q).erase j) D.e D.base D.q F ω.1.1 (fun i => ((ω.1.2.1 i : ℕ) : ℤ)) (ext ω.1.2.2) ω.2)

/-- what is assumed of the numbers -/
structure Setup.Ok (D : Setup) (G : Type) [CommGroup G] [Fintype G] (B K : ℕ) : Prop where
  /-- squares have order dividing `N` -/
  order : ∀ g : G, (g ^ 2) ^ D.N = 1
  /-- exponents are reduced modulo `N` -/
  range : D.c + D.L ≤ D.N
  /-- `B` is at least `K` times `N` -/
  bound : D.N * K ≤ B
  large : D.emax ≤ K
  room : D.emax ≤ D.T
  emin : 2 < D.emin
  order' : D.emin ≤ D.emax
  some : 0 < D.L
  /-- the issued exponents are different primes of the range -/
  prime : ∀ i < D.q, (D.e i).Prime
  lower : ∀ i < D.q, D.emin ≤ D.e i
  upper : ∀ i < D.q, D.e i ≤ D.emax
  distinct : ∀ i < D.q, ∀ j < D.q, D.e i = D.e j → i = j
  /-- the group has no elements whose order is a prime of the range -/
  free : ∀ p : ℕ, p.Prime → D.emin ≤ p → p ≤ D.emax → Nat.Coprime p D.N ∧ Nat.Coprime p (Fintype.card G)

variable {D : Setup} {B K : ℕ}

theorem pow_bijective (ok : D.Ok G B K) (I : Finset ℕ) (hI : ∀ i ∈ I, i < D.q) :
    Function.Bijective (fun u : G => u ^ prodE D.e I) := by
  have hcast : prodE D.e I = ((∏ i ∈ I, D.e i : ℕ) : ℤ) := by unfold prodE; push_cast; rfl
  have hc : (Nat.card G).Coprime (∏ i ∈ I, D.e i) := by
    rw [Nat.card_eq_fintype_card]
    refine Nat.coprime_prod_right_iff.2 fun i hi => ?_
    exact (ok.free _ (ok.prime i (hI i hi)) (ok.lower i (hI i hi)) (ok.upper i (hI i hi))).2.symm
  rw [hcast]
  simp only [zpow_natCast]
  exact (powCoprime hc).bijective

/-- the public key of the reduction is the issuer's for `s = u^(∏ e)` -/
theorem pub_lift (ok : D.Ok G B K) (I : Finset ℕ) (u : G) (a : Option J → Fin D.L) (k : Option J → Fin K) :
    D.pub (u ^ prodE D.e I) a = pubOf ((u ^ 2) ^ prodE D.e I) (lift D.N (fun i => (D.c : ℤ) + ((a i : ℕ) : ℤ)) k) := by
  rw [pubOf_mod ok.order u _ (lift D.N (fun i => (D.c : ℤ) + ((a i : ℕ) : ℤ)) k) (fun i => (D.c : ℤ) + ((a i : ℕ) : ℤ)) (fun i => ⟨_, rfl⟩)]
  unfold Setup.pub
  congr 1
  rw [← zpow_natCast, ← zpow_natCast, ← zpow_mul, ← zpow_mul, mul_comm]

/-- the exponents the reduction draws -/
def up (ok : D.Ok G B K) (a : Option J → Fin D.L) (k : Option J → Fin K) : Option J → Fin B :=
  fun i => ⟨D.c + a i + D.N * k i, by
    have h1 := (a i).2
    have h2 := (k i).2
    have h3 := ok.range
    have h4 := ok.bound
    have h5 : D.N * k i + D.N ≤ D.N * K := by
      calc D.N * k i + D.N = D.N * (k i + 1) := by ring
        _ ≤ D.N * K := Nat.mul_le_mul_left _ h2
    omega⟩

theorem up_lift (ok : D.Ok G B K) (a : Option J → Fin D.L) (k : Option J → Fin K) :
    (fun i => ((up ok a k i : ℕ) : ℤ)) = lift D.N (fun i => (D.c : ℤ) + ((a i : ℕ) : ℤ)) k := by
  funext i
  unfold up lift
  push_cast
  ring

theorem up_inj (ok : D.Ok G B K) {a a' : Option J → Fin D.L} {k k' : Option J → Fin K} (h : up ok a k = up ok a' k') : a = a' ∧ k = k' := by
  have key : ∀ i, (a i : ℕ) = a' i ∧ (k i : ℕ) = k' i := by
    intro i
    have h0 := congrArg Fin.val (congrFun h i)
    unfold up at h0
    simp only at h0
    have h1 := (a i).2
    have h1' := (a' i).2
    have h3 := ok.range
    have hm : (D.c + a i + D.N * k i) % D.N = (D.c + a' i + D.N * k' i) % D.N := by rw [h0]
    rw [Nat.add_mul_mod_self_left, Nat.add_mul_mod_self_left, Nat.mod_eq_of_lt (by omega), Nat.mod_eq_of_lt (by omega)] at hm
    have ha : (a i : ℕ) = a' i := by omega
    refine ⟨ha, ?_⟩
    rw [ha] at h0
    exact Nat.eq_of_mul_eq_mul_left (by omega : 0 < D.N) (by omega)
  exact ⟨funext fun i => Fin.ext (key i).1, funext fun i => Fin.ext (key i).2⟩

/-- the exponent of the forgery is not the exponent of an issued root -/
def Setup.New (D : Setup) (F : Forger G J) (ω : Coins G J D) : Prop := ∀ i < D.q, D.e i ≠ (D.out F ω).1.e

theorem Setup.Ok.posK (ok : D.Ok G B K) : 0 < K := by
  have h1 := ok.large
  have h2 := ok.emin
  have h3 := ok.order'
  omega

theorem Setup.Ok.posB (ok : D.Ok G B K) : 0 < B := by
  have h1 := ok.posK
  have h2 := ok.some
  have h3 := ok.range
  have h4 := ok.bound
  have : 0 < D.N * K := Nat.mul_pos (by omega) h1
  omega

/-- the issuer's coins when `S` comes from the reduction's `u` -/
def Setup.at (D : Setup) (I : Finset ℕ) (ω : Coins G J D) : Coins G J D := (ω.1 ^ prodE D.e I, ω.2)

theorem pr_at (ok : D.Ok G B K) (I : Finset ℕ) (hI : ∀ i ∈ I, i < D.q) (P : Coins G J D → Prop) :
    pr (fun ω : Coins G J D => P (D.at I ω)) = pr P :=
  pr_bijective (fun ω : Coins G J D => D.at I ω) (Function.Bijective.prodMap (pow_bijective ok I hI) Function.bijective_id) P

/-- the exponent of the forged quotient -/
def Setup.quot (D : Setup) (F : Forger G J) (ω : Coins G J D) (k : Option J → Fin K) : ℤ :=
  expo (lift D.N (fun i => (D.c : ℤ) + ((ω.2.1 i : ℕ) : ℤ)) k) (D.out F ω).2 (D.out F ω).1.v

/-- Forgeries with a new exponent. -/
theorem new_exponent (ok : D.Ok G B K) (F : Forger G J) :
    ((K : ℚ) * D.L / B) ^ (Fintype.card J + 1) * ((1 - (1 / D.emin + 1 / K)) * pr (fun ω : Coins G J D => D.Win F ω ∧ D.New F ω)) ≤
      pr (D.solvesNew (J := J) (G := G) B F) := by
  have hK := ok.posK
  have hB := ok.posB
  have : Nonempty (Fin K) := ⟨⟨0, hK⟩⟩
  set I := Finset.range D.q with hI
  have hIq : ∀ i ∈ I, i < D.q := fun i hi => Finset.mem_range.1 hi
  have h1 := pr_and_ge (A := Coins G J D) (B := Option J → Fin K) (fun ω => D.Win F (D.at I ω) ∧ D.New F (D.at I ω))
    (fun ω k => ¬ ((D.out F (D.at I ω)).1.e : ℤ) ∣ D.quot F (D.at I ω) k) (1 - (1 / D.emin + 1 / K)) (by
      rintro ω ⟨⟨_, hp, hlo, hhi, _⟩, _⟩
      refine le_trans ?_ (pr_not_ge _)
      have h := (pr_expo K _ D.N hK hp (ok.free _ hp hlo hhi).1 (fun i => (D.c : ℤ) + ((ω.2.1 i : ℕ) : ℤ)) (D.out F (D.at I ω)).2 (D.out F (D.at I ω)).1.v).1
      have h0 : (0 : ℚ) < D.emin := by exact_mod_cast (by have := ok.emin; omega : 0 < D.emin)
      have h2 : (1 : ℚ) / ((D.out F (D.at I ω)).1.e : ℕ) ≤ 1 / D.emin := by
        apply one_div_le_one_div_of_le h0
        exact_mod_cast hlo
      refine sub_le_sub_left (h.trans ?_) _
      exact add_le_add h2 le_rfl)
  rw [pr_at ok I hIq (fun ω => D.Win F ω ∧ D.New F ω)] at h1
  have h2 := pr_embed (fun ω : Coins G J D × (Option J → Fin K) => (D.Win F (D.at I ω.1) ∧ D.New F (D.at I ω.1)) ∧
      ¬ ((D.out F (D.at I ω.1)).1.e : ℤ) ∣ D.quot F (D.at I ω.1) ω.2) (D.solvesNew (J := J) (G := G) B F)
    (fun ω => (ω.1.1, up ok ω.1.2.1 ω.2, ω.1.2.2)) (by
      rintro ⟨⟨u, a, t⟩, k⟩ _ ⟨⟨u', a', t'⟩, k'⟩ _ h
      simp only [Prod.mk.injEq] at h
      obtain ⟨h1, h2, h3⟩ := h
      obtain ⟨h4, h5⟩ := up_inj ok h2
      rw [h1, h3, h4, h5]) (by
      rintro ⟨⟨u, a, t⟩, k⟩ ⟨⟨⟨hv, hp, hlo, hhi, _, _⟩, hnew⟩, hx⟩
      unfold Setup.solvesNew
      simp only
      rw [up_lift]
      refine solved_core (N := D.N) I D.e D.base D.q F u _ (ext t) (ext t) 0 (D.pub (u ^ prodE D.e I) a) (pub_lift ok I u a k) ?_
        (D.out F (D.at I (u, a, t))) rfl hv hp ?_ ?_ hx
      · intro i hi
        rw [pub_lift ok I u a k]
        exact sim_in ok.order (Finset.mem_range.2 hi) (ok.free _ (ok.prime i hi) (ok.lower i hi) (ok.upper i hi)).1
      · have := ok.emin
        have hlo' : D.emin ≤ (D.out F (D.at I (u, a, t))).1.e := hlo
        omega
      · intro i hi
        exact ⟨ok.prime i (hIq i hi), hnew i (hIq i hi)⟩)
  have hG : 0 < Fintype.card G := Fintype.card_pos
  have hT : 0 < D.T ^ D.q := Nat.pow_pos (by have := ok.room; have := ok.order'; have := ok.emin; omega)
  simp only [Fintype.card_prod, Fintype.card_fun, Fintype.card_fin, Fintype.card_option] at h2
  push_cast at h2
  have hB' : (0 : ℚ) < B := by exact_mod_cast hB
  have hG' : (0 : ℚ) < Fintype.card G := by exact_mod_cast hG
  have hT' : (0 : ℚ) < (D.T : ℚ) ^ D.q := by exact_mod_cast hT
  refine le_trans (mul_le_mul_of_nonneg_left h1 (by positivity)) ?_
  rw [div_pow, mul_pow, div_mul_eq_mul_div, div_le_iff₀ (by positivity)]
  refine le_of_mul_le_mul_right ?_ (mul_pos hG' hT')
  refine le_trans (le_of_eq ?_) (h2.trans (le_of_eq ?_)) <;> ring

/-! ## Forgeries that reuse the exponent of request `j` -/

theorem pr_le_one {Ω : Type} [Fintype Ω] (P : Ω → Prop) : pr P ≤ 1 := by
  classical
  unfold pr
  refine div_le_one_of_le₀ ?_ (Nat.cast_nonneg _)
  exact_mod_cast Finset.card_le_univ _

/-- the numbers below `T` after the last full block of `e` -/
theorem pr_rest (e T : ℕ) (he : 0 < e) (hT : 0 < T) : pr (fun t : Fin T => ¬ (t : ℕ) < e * (T / e)) ≤ (e : ℚ) / T := by
  have h := pr_embed (fun t : Fin T => ¬ (t : ℕ) < e * (T / e)) (fun _ : Fin e => True) (fun t => ⟨(t : ℕ) % e, Nat.mod_lt _ he⟩)
    (by
      intro a ha b hb h
      have h := congrArg Fin.val h
      simp only at h
      have hq : ∀ c : Fin T, ¬ (c : ℕ) < e * (T / e) → (c : ℕ) / e = T / e := by
        intro c hc
        refine le_antisymm (Nat.div_le_div_right c.2.le) ?_
        rw [Nat.le_div_iff_mul_le he, mul_comm]
        omega
      apply Fin.ext
      rw [← Nat.div_add_mod (a : ℕ) e, ← Nat.div_add_mod (b : ℕ) e, h, hq a ha, hq b hb]) (fun _ _ => trivial)
  rw [Fintype.card_fin, Fintype.card_fin] at h
  have h1 := pr_le_one (fun _ : Fin e => True)
  have he' : (0 : ℚ) < e := by exact_mod_cast he
  rw [le_div_iff₀ (by exact_mod_cast hT)]
  nlinarith

theorem pr_coin (j : Fin D.q) (P : Fin D.T → Prop) (b : ℚ) (hb : 0 ≤ b) (h : pr P ≤ b) :
    pr (fun ω : Coins G J D => P (ω.2.2 j)) ≤ b := by
  refine pr_fiber _ _ hb fun s => pr_fiber _ _ hb fun a => ?_
  simp only
  rw [← pr_bijective _ ((Equiv.piSplitAt j (fun _ : Fin D.q => Fin D.T)).symm.bijective), ← pr_bijective _ (Equiv.prodComm _ _).bijective]
  refine pr_fiber _ _ hb fun r => ?_
  have : ∀ x : Fin D.T, ((Equiv.piSplitAt j (fun _ : Fin D.q => Fin D.T)).symm (x, r)) j = x := fun x => by simp [Equiv.piSplitAt]
  simp only [Equiv.prodComm_apply, Prod.swap_prod_mk, this]
  exact h

theorem ext_update {q T : ℕ} (t : Fin q → Fin T) (j : Fin q) (d : Fin T) (i : ℕ) (hi : i ≠ j) : ext (Function.update t j d) i = ext t i := by
  unfold ext
  split_ifs with h
  · rw [Function.update_of_ne]
    intro h'
    exact hi (congrArg Fin.val h')
  · rfl

theorem ext_at {q T : ℕ} (t : Fin q → Fin T) (j : Fin q) : ext t j = t j := by
  unfold ext
  rw [dif_pos j.2]

/-- the request before which everything agrees is the same -/
theorem asked_before (N : ℕ) (e : ℕ → ℕ) (base : ℤ) (F : Forger G J) (pub : Pub G J) (t t' : ℕ → ℕ) (j : ℕ) (h : ∀ i < j, t i = t' i) :
    asked F pub (real N e base t pub) j = asked F pub (real N e base t' pub) j := by
  unfold asked
  rw [hist_congr F pub (real N e base t' pub) (real N e base t pub) j (fun i hi => by unfold real; rw [h i hi]) j le_rfl]

/-- the exponent of the quotient signed for request `j` -/
def Setup.quotAt (D : Setup) (F : Forger G J) (j : ℕ) (ω : Coins G J D) (k : Option J → Fin K) : ℤ :=
  expo (lift D.N (fun i => (D.c : ℤ) + ((ω.2.1 i : ℕ) : ℤ)) k) (asked F (D.pub ω.1 ω.2.1) (D.issuer ω) j).m
    (D.base + (ext ω.2.2 j : ℕ) + (asked F (D.pub ω.1 ω.2.1) (D.issuer ω) j).vP)

theorem differ_mod {e : ℕ} {emin : ℕ} (h : emin ≤ e) {m m' : J → ℤ} (hm : ∀ j, 0 ≤ m j ∧ m j < emin) (hm' : ∀ j, 0 ≤ m' j ∧ m' j < emin)
    (hne : m ≠ m') : ∃ j, ¬ (e : ℤ) ∣ m j - m' j := by
  by_contra hc
  push Not at hc
  apply hne
  funext j
  have h1 := hm j
  have h2 := hm' j
  have h3 : |m j - m' j| < (e : ℤ) := by rw [abs_lt]; constructor <;> (push_cast at *; omega)
  have := Int.eq_zero_of_abs_lt_dvd (hc j) h3
  omega

/-- Forgeries with the exponent of request `j`. -/
theorem old_exponent (ok : D.Ok G B K) (F : Forger G J) (j : ℕ) (hj : j < D.q) (lo : ℚ)
    (hlo : lo = 1 / D.e j - 1 / K - (1 / D.e j + 1 / K) * (1 / D.e j + 1 / K)) (hlo0 : 0 ≤ lo) :
    ((K : ℚ) * D.L / B) ^ (Fintype.card J + 1) * (D.e j * (lo *
      (pr (fun ω : Coins G J D => D.Win F ω ∧ D.e j = (D.out F ω).1.e) - D.e j / D.T))) ≤ pr (D.solvesOld (J := J) (G := G) B F j) := by
  have hK := ok.posK
  have hB := ok.posB
  have hep := ok.prime j hj
  have hfree := ok.free _ hep (ok.lower j hj) (ok.upper j hj)
  have hT : 0 < D.T := by have := ok.room; have := ok.order'; have := ok.emin; omega
  have heT : 0 < D.T / D.e j := Nat.div_pos ((ok.upper j hj).trans ok.room) hep.pos
  have : Nonempty (Fin K) := ⟨⟨0, hK⟩⟩
  have : Nonempty (Fin D.T) := ⟨⟨0, hT⟩⟩
  set I := (Finset.range D.q).erase j with hI
  have hIq : ∀ i ∈ I, i < D.q := fun i hi => Finset.mem_range.1 (Finset.mem_of_mem_erase hi)
  have hIj : ∀ i ∈ I, i ≠ j := fun i hi => Finset.ne_of_mem_erase hi
  -- the cases in which the reduction wins
  obtain ⟨p, hp⟩ : ∃ p : Coins G J D → Prop, p = fun ω => (D.Win F ω ∧ D.e j = (D.out F ω).1.e) ∧ ext ω.2.2 j < D.e j * (D.T / D.e j) := ⟨_, rfl⟩
  have h0 : pr (fun ω : Coins G J D => D.Win F ω ∧ D.e j = (D.out F ω).1.e) - D.e j / D.T ≤ pr p := by
    have h1 := pr_diff (fun ω : Coins G J D => D.Win F ω ∧ D.e j = (D.out F ω).1.e) (fun ω => ¬ ext ω.2.2 j < D.e j * (D.T / D.e j))
    have h2 : pr (fun ω : Coins G J D => (D.Win F ω ∧ D.e j = (D.out F ω).1.e) ∧ ¬ ext ω.2.2 j < D.e j * (D.T / D.e j)) ≤ D.e j / D.T := by
      refine le_trans (pr_mono fun ω h => ?_) (pr_coin (G := G) (J := J) (D := D) ⟨j, hj⟩ (fun t => ¬ (t : ℕ) < D.e j * (D.T / D.e j)) _ (by positivity) (pr_rest _ _ hep.pos hT))
      have := h.2
      rwa [ext_at ω.2.2 ⟨j, hj⟩] at this
    have h3 : pr (fun ω : Coins G J D => (D.Win F ω ∧ D.e j = (D.out F ω).1.e) ∧ ¬ ¬ ext ω.2.2 j < D.e j * (D.T / D.e j)) ≤ pr p :=
      pr_mono fun ω h => by rw [hp]; exact ⟨h.1, not_not.1 h.2⟩
    linarith
  have h1 := pr_and_ge (A := Coins G J D) (B := Option J → Fin K) (fun ω => p (D.at I ω))
    (fun ω k => (D.e j : ℤ) ∣ D.quotAt F j (D.at I ω) k ∧ ¬ (D.e j : ℤ) ∣ D.quot F (D.at I ω) k) lo (by
      intro ω hω
      rw [hp] at hω
      obtain ⟨⟨⟨_, _, hlo', hhi, hm, hq⟩, he⟩, _⟩ := hω
      obtain ⟨hm', hne⟩ := hq j hj
      refine le_trans ?_ (pr_diff _ _)
      obtain ⟨j0, hj0⟩ := differ_mod (ok.lower j hj) hm' hm hne.symm
      have ha := (pr_expo K _ D.N hK hep hfree.1 (fun i => (D.c : ℤ) + ((ω.2.1 i : ℕ) : ℤ))
        (asked F (D.pub (D.at I ω).1 (D.at I ω).2.1) (D.issuer (D.at I ω)) j).m
        (D.base + (ext ω.2.2 j : ℕ) + (asked F (D.pub (D.at I ω).1 (D.at I ω).2.1) (D.issuer (D.at I ω)) j).vP)).2
      have hb := pr_both K _ D.N hK hep hfree.1 (fun i => (D.c : ℤ) + ((ω.2.1 i : ℕ) : ℤ)) _ (D.out F (D.at I ω)).2
        (D.base + (ext ω.2.2 j : ℕ) + (asked F (D.pub (D.at I ω).1 (D.at I ω).2.1) (D.issuer (D.at I ω)) j).vP) (D.out F (D.at I ω)).1.v j0 hj0
      rw [hlo]
      exact sub_le_sub ha hb)
  rw [pr_at ok I hIq p] at h1
  obtain ⟨P, hP⟩ : ∃ P : Coins G J D × (Option J → Fin K) → Prop, P = fun ω => p (D.at I ω.1) ∧ (D.e j : ℤ) ∣ D.quotAt F j (D.at I ω.1) ω.2 ∧
      ¬ (D.e j : ℤ) ∣ D.quot F (D.at I ω.1) ω.2 := ⟨_, rfl⟩
  rw [← hP] at h1
  have h2 := pr_embed (fun ω : (Coins G J D × (Option J → Fin K)) × Fin D.T => P ω.1) (D.solvesOld (J := J) (G := G) B F j)
    (fun ω => ((ω.1.1.1, up ok ω.1.1.2.1 ω.1.2, Function.update ω.1.1.2.2 ⟨j, hj⟩ ω.2),
      ⟨if ext ω.1.1.2.2 j < D.e j * (D.T / D.e j) then ext ω.1.1.2.2 j / D.e j else 0, by
        split_ifs with h
        · exact Nat.div_lt_of_lt_mul h
        · exact heT⟩)) (by
      rintro ⟨⟨⟨u, a, t⟩, k⟩, d⟩ hω ⟨⟨⟨u', a', t'⟩, k'⟩, d'⟩ hω' h
      rw [hP, hp] at hω hω'
      obtain ⟨⟨_, hlt⟩, hdv, _⟩ := hω
      obtain ⟨⟨_, hlt'⟩, hdv', _⟩ := hω'
      simp only [Prod.mk.injEq, Fin.mk.injEq] at h
      obtain ⟨⟨h1, h2, h3⟩, h4⟩ := h
      obtain ⟨h5, h6⟩ := up_inj ok h2
      subst h1 h5 h6
      have hlt : ext t j < D.e j * (D.T / D.e j) := hlt
      have hlt' : ext t' j < D.e j * (D.T / D.e j) := hlt'
      rw [if_pos hlt, if_pos hlt'] at h4
      have hd : d = d' := by
        have := congrFun h3 ⟨j, hj⟩
        rwa [Function.update_self, Function.update_self] at this
      have hoff : ∀ i, i ≠ j → ext t i = ext t' i := fun i hi => by
        rw [← ext_update t ⟨j, hj⟩ d i hi, h3, ext_update t' ⟨j, hj⟩ d' i hi]
      have hask : asked F (D.pub (u ^ prodE D.e I) a) (real D.N D.e D.base (ext t) (D.pub (u ^ prodE D.e I) a)) j =
          asked F (D.pub (u ^ prodE D.e I) a) (real D.N D.e D.base (ext t') (D.pub (u ^ prodE D.e I) a)) j :=
        asked_before _ _ _ _ _ _ _ _ (fun i hi => hoff i (by omega))
      have hdv : (D.e j : ℤ) ∣ expo (lift D.N (fun i => (D.c : ℤ) + ((a i : ℕ) : ℤ)) k)
          (asked F (D.pub (u ^ prodE D.e I) a) (real D.N D.e D.base (ext t) (D.pub (u ^ prodE D.e I) a)) j).m
          (D.base + (ext t j : ℕ) + (asked F (D.pub (u ^ prodE D.e I) a) (real D.N D.e D.base (ext t) (D.pub (u ^ prodE D.e I) a)) j).vP) := hdv
      have hdv' : (D.e j : ℤ) ∣ expo (lift D.N (fun i => (D.c : ℤ) + ((a i : ℕ) : ℤ)) k)
          (asked F (D.pub (u ^ prodE D.e I) a) (real D.N D.e D.base (ext t') (D.pub (u ^ prodE D.e I) a)) j).m
          (D.base + (ext t' j : ℕ) + (asked F (D.pub (u ^ prodE D.e I) a) (real D.N D.e D.base (ext t') (D.pub (u ^ prodE D.e I) a)) j).vP) := hdv'
      rw [hask] at hdv
      have hmod : ((ext t j : ℕ) : ℤ) ≡ ((ext t' j : ℕ) : ℤ) [ZMOD (D.e j : ℕ)] := by
        rw [Int.modEq_iff_dvd]
        have := dvd_sub hdv hdv'
        unfold expo at this
        obtain ⟨x, hx⟩ := this
        exact ⟨x, by linear_combination hx⟩
      have hmod' : ext t j % D.e j = ext t' j % D.e j := Int.natCast_modEq_iff.1 hmod
      have hjj : ext t j = ext t' j := by
        rw [← Nat.div_add_mod (ext t j) (D.e j), ← Nat.div_add_mod (ext t' j) (D.e j), h4, hmod']
      have htt : t = t' := by
        funext i
        apply Fin.ext
        rw [← ext_at t i, ← ext_at t' i]
        by_cases hi : (i : ℕ) = j
        · rw [hi]; exact hjj
        · exact hoff i hi
      rw [htt, hd]) (by
      rintro ⟨⟨⟨u, a, t⟩, k⟩, d⟩ hω
      rw [hP, hp] at hω
      obtain ⟨⟨⟨⟨hv, hpr, hlo', hhi, _, _⟩, he⟩, hlt⟩, hdv, hx⟩ := hω
      have hlt : ext t j < D.e j * (D.T / D.e j) := hlt
      have he : D.e j = (D.out F (D.at I (u, a, t))).1.e := he
      unfold Setup.solvesOld
      simp only
      rw [up_lift, if_pos hlt]
      refine solved_core (N := D.N) I D.e D.base D.q F u _ (ext (Function.update t ⟨j, hj⟩ d)) (ext t) _ (D.pub (u ^ prodE D.e I) a)
        (pub_lift ok I u a k) ?_ (D.out F (D.at I (u, a, t))) rfl hv hpr ?_ ?_ (by rw [← he]; exact hx)
      · intro i hi
        by_cases hij : i = j
        · subst hij
          have hnot : i ∉ I := fun h => hIj i h rfl
          have := sim_out ok.order (J := J) (base := D.base) (u := u) (x := lift D.N (fun i => (D.c : ℤ) + ((a i : ℕ) : ℤ)) k) (t := ext t) (i := i)
            (r := asked F (D.pub (u ^ prodE D.e I) a) (real D.N D.e D.base (ext t) (D.pub (u ^ prodE D.e I) a)) i) hnot hfree.1 hdv
            (ext (Function.update t ⟨i, hj⟩ d))
          rw [this, ← pub_lift ok I u a k]
        · have hin : i ∈ I := Finset.mem_erase.2 ⟨hij, Finset.mem_range.2 hi⟩
          rw [sim_in ok.order hin (ok.free _ (ok.prime i hi) (ok.lower i hi) (ok.upper i hi)).1, ← pub_lift ok I u a k]
          unfold real
          rw [ext_update t ⟨j, hj⟩ d i hij]
      · have := ok.emin
        have hlo'' : D.emin ≤ (D.out F (D.at I (u, a, t))).1.e := hlo'
        omega
      · intro i hi
        refine ⟨ok.prime i (hIq i hi), fun h => hIj i hi (ok.distinct i (hIq i hi) j hj ?_)⟩
        rw [h, he])
  rw [pr_fst P] at h2
  have hG : 0 < Fintype.card G := Fintype.card_pos
  simp only [Fintype.card_prod, Fintype.card_fun, Fintype.card_fin, Fintype.card_option] at h2
  push_cast at h2
  have hB' : (0 : ℚ) < B := by exact_mod_cast hB
  have hG' : (0 : ℚ) < Fintype.card G := by exact_mod_cast hG
  have hT' : (0 : ℚ) < (D.T : ℚ) := by exact_mod_cast hT
  have hTe' : (0 : ℚ) < ((D.T / D.e j : ℕ) : ℚ) := by exact_mod_cast heT
  have hTe : (D.e j : ℚ) * ((D.T / D.e j : ℕ) : ℚ) ≤ D.T := by exact_mod_cast Nat.mul_div_le _ _
  have hPn : 0 ≤ pr P := pr_nonneg P
  have h3 : lo * (pr (fun ω : Coins G J D => D.Win F ω ∧ D.e j = (D.out F ω).1.e) - D.e j / D.T) ≤ pr P :=
    (mul_le_mul_of_nonneg_left h0 hlo0).trans h1
  refine le_trans (mul_le_mul_of_nonneg_left (mul_le_mul_of_nonneg_left h3 (Nat.cast_nonneg _)) (by positivity)) ?_
  rw [div_pow, mul_pow, div_mul_eq_mul_div, div_le_iff₀ (by positivity)]
  refine le_of_mul_le_mul_right ?_ (mul_pos (mul_pos hG' (pow_pos hT' D.q)) hTe')
  refine le_trans ?_ (h2.trans (le_of_eq ?_))
  · have := mul_le_mul_of_nonneg_left hTe (by positivity : (0 : ℚ) ≤ (K : ℚ) ^ (Fintype.card J + 1) * (D.L : ℚ) ^ (Fintype.card J + 1) * pr P * (Fintype.card G * (D.T : ℚ) ^ D.q))
    refine le_trans (le_of_eq ?_) (this.trans (le_of_eq ?_)) <;> ring
  · ring

theorem pr_sum_range {Ω : Type} [Fintype Ω] (n : ℕ) (P : ℕ → Ω → Prop) : pr (fun ω => ∃ i < n, P i ω) ≤ ∑ i ∈ Finset.range n, pr (P i) := by
  induction n with
  | zero => rw [pr_false _ (by simp)]; simp
  | succ n ih =>
    rw [Finset.sum_range_succ]
    refine le_trans (le_trans (pr_mono (Q := fun ω => (∃ i < n, P i ω) ∨ P n ω) ?_) (pr_or _ _)) (add_le_add ih le_rfl)
    rintro ω ⟨i, hi, hp⟩
    rcases Nat.lt_succ_iff_lt_or_eq.1 hi with h | rfl
    · exact Or.inl ⟨i, h, hp⟩
    · exact Or.inr hp

/-- A forger that wins with probability `ε` gives a reduction that takes a root of a random group element: with the exponents drawn
below `B ≥ K N`, the two kinds of run of the reduction succeed together with probability at least
`(K L / B)^(number of exponents) * ((1 - emax / K - 4 / emin) ε - q emax / T)`. -/
theorem forgery_takes_roots (ok : D.Ok G B K) (F : Forger G J) :
    ((K : ℚ) * D.L / B) ^ (Fintype.card J + 1) *
        ((1 - D.emax / K - 4 / D.emin) * pr (fun ω : Coins G J D => D.Win F ω) - D.q * (D.emax / D.T)) ≤
      pr (D.solvesNew (J := J) (G := G) B F) + ∑ j ∈ Finset.range D.q, pr (D.solvesOld (J := J) (G := G) B F j) := by
  have hK := ok.posK
  have hB := ok.posB
  have hT : 0 < D.T := by have := ok.room; have := ok.order'; have := ok.emin; omega
  have hKq : (0 : ℚ) < K := by exact_mod_cast hK
  have hBq : (0 : ℚ) < B := by exact_mod_cast hB
  have hTq : (0 : ℚ) < D.T := by exact_mod_cast hT
  have hmin : (2 : ℚ) < D.emin := by exact_mod_cast ok.emin
  have hmm : (D.emin : ℚ) ≤ D.emax := by exact_mod_cast ok.order'
  have hmK : (D.emax : ℚ) ≤ K := by exact_mod_cast ok.large
  obtain ⟨β, hβ⟩ : ∃ β : ℚ, β = ((K : ℚ) * D.L / B) ^ (Fintype.card J + 1) := ⟨_, rfl⟩
  have hβ0 : 0 ≤ β := by rw [hβ]; positivity
  obtain ⟨κ, hκ⟩ : ∃ κ : ℚ, κ = 1 - D.emax / K - 4 / D.emin := ⟨_, rfl⟩
  have hκ1 : κ ≤ 1 := by
    rw [hκ]
    have : (0 : ℚ) ≤ D.emax / K := by positivity
    have : (0 : ℚ) ≤ 4 / D.emin := by positivity
    linarith
  have hn := new_exponent ok F
  rw [← hβ] at hn
  have hall : pr (fun ω : Coins G J D => D.Win F ω) ≤ pr (fun ω : Coins G J D => D.Win F ω ∧ D.New F ω) +
      ∑ j ∈ Finset.range D.q, pr (fun ω : Coins G J D => D.Win F ω ∧ D.e j = (D.out F ω).1.e) := by
    refine le_trans (le_trans (pr_mono (Q := fun ω => (D.Win F ω ∧ D.New F ω) ∨ ∃ j < D.q, (D.Win F ω ∧ D.e j = (D.out F ω).1.e)) ?_) (pr_or _ _))
      (add_le_add le_rfl (pr_sum_range D.q _))
    intro ω h
    by_cases hnew : D.New F ω
    · exact Or.inl ⟨h, hnew⟩
    · unfold Setup.New at hnew
      push Not at hnew
      obtain ⟨j, hj, he⟩ := hnew
      exact Or.inr ⟨j, hj, h, he⟩
  have hsum : 0 ≤ ∑ j ∈ Finset.range D.q, pr (D.solvesOld (J := J) (G := G) B F j) := Finset.sum_nonneg fun j _ => pr_nonneg _
  have hsn := pr_nonneg (D.solvesNew (J := J) (G := G) B F)
  rw [← hβ, ← hκ]
  have hW := pr_nonneg (fun ω : Coins G J D => D.Win F ω)
  have hqT : (0 : ℚ) ≤ D.q * (D.emax / D.T) := by positivity
  rcases le_or_gt κ 0 with hk | hk
  · have : κ * pr (fun ω : Coins G J D => D.Win F ω) - D.q * (D.emax / D.T) ≤ 0 := by
      have := mul_nonpos_of_nonpos_of_nonneg hk hW
      linarith
    have := mul_nonpos_of_nonneg_of_nonpos hβ0 this
    linarith
  -- every request on its own
  have hold : ∀ j ∈ Finset.range D.q, β * (κ * pr (fun ω : Coins G J D => D.Win F ω ∧ D.e j = (D.out F ω).1.e) - D.emax / D.T) ≤
      pr (D.solvesOld (J := J) (G := G) B F j) := by
    intro j hj
    have hj := Finset.mem_range.1 hj
    have hge : (D.emin : ℚ) ≤ D.e j := by exact_mod_cast ok.lower j hj
    have hle : (D.e j : ℚ) ≤ D.emax := by exact_mod_cast ok.upper j hj
    have he0 : (0 : ℚ) < D.e j := by linarith
    obtain ⟨x, hx⟩ : ∃ x, x = pr (fun ω : Coins G J D => D.Win F ω ∧ D.e j = (D.out F ω).1.e) := ⟨_, rfl⟩
    have hx0 : 0 ≤ x := by rw [hx]; exact pr_nonneg _
    obtain ⟨lo, hlo⟩ : ∃ lo : ℚ, lo = 1 / D.e j - 1 / K - (1 / D.e j + 1 / K) * (1 / D.e j + 1 / K) := ⟨_, rfl⟩
    have helo : (D.e j : ℚ) * lo = 1 - D.e j / K - (1 + D.e j / K) * (1 + D.e j / K) / D.e j := by
      rw [hlo]; field_simp
    have hr1 : (D.e j : ℚ) / K ≤ D.emax / K := by gcongr
    have hr2 : (D.e j : ℚ) / K ≤ 1 := by rw [div_le_one hKq]; linarith
    have hr0 : (0 : ℚ) ≤ D.e j / K := by positivity
    have hr3 : (1 + D.e j / K) * (1 + D.e j / K) / (D.e j : ℚ) ≤ 4 / D.emin := by
      apply div_le_div₀ (by norm_num) _ (by linarith) hge
      have := mul_le_mul (by linarith : 1 + (D.e j : ℚ) / K ≤ 2) (by linarith : 1 + (D.e j : ℚ) / K ≤ 2) (by linarith) (by norm_num)
      linarith
    have hκlo : κ ≤ D.e j * lo := by rw [helo, hκ]; linarith
    have hlo0 : 0 ≤ lo := by
      by_contra hc
      push Not at hc
      have := mul_neg_of_pos_of_neg he0 hc
      linarith
    have h := old_exponent ok F j hj lo hlo hlo0
    rw [← hβ, ← hx] at h
    rw [← hx]
    have hT1 : (D.e j : ℚ) / D.T ≤ D.emax / D.T := by gcongr
    have hT0 : (0 : ℚ) ≤ D.e j / D.T := by positivity
    rcases le_or_gt 0 (x - D.e j / D.T) with hp | hp
    · refine le_trans (mul_le_mul_of_nonneg_left ?_ hβ0) h
      have h1 := mul_le_mul_of_nonneg_right hκlo hp
      have h2 : κ * (D.e j / D.T) ≤ D.e j / D.T := by have := mul_le_mul_of_nonneg_right hκ1 hT0; linarith
      have h3 : κ * (x - D.e j / D.T) = κ * x - κ * (D.e j / D.T) := by ring
      have h4 : (D.e j : ℚ) * (lo * (x - D.e j / D.T)) = D.e j * lo * (x - D.e j / D.T) := by ring
      rw [h4]
      linarith
    · have h0 := mul_le_mul_of_nonneg_right hκ1 hx0
      have h1 : κ * x - D.emax / D.T ≤ 0 := by linarith
      have h2 := mul_nonpos_of_nonneg_of_nonpos hβ0 h1
      exact h2.trans (pr_nonneg _)
  have hs := Finset.sum_le_sum hold
  rw [← Finset.mul_sum, Finset.sum_sub_distrib, ← Finset.mul_sum, Finset.sum_const, Finset.card_range, nsmul_eq_mul] at hs
  have hκn : κ ≤ 1 - (1 / D.emin + 1 / K) := by
    rw [hκ]
    have h1 : (1 : ℚ) / K ≤ D.emax / K := by
      apply div_le_div_of_nonneg_right _ hKq.le
      linarith
    have h2 : (1 : ℚ) / D.emin ≤ 4 / D.emin := by
      apply div_le_div_of_nonneg_right (by norm_num) (by linarith)
    linarith
  have hnew := mul_le_mul_of_nonneg_left (mul_le_mul_of_nonneg_right hκn (pr_nonneg (fun ω : Coins G J D => D.Win F ω ∧ D.New F ω))) hβ0
  have hfin := mul_le_mul_of_nonneg_left (mul_le_mul_of_nonneg_left hall hk.le) hβ0
  rw [mul_sub] at hs ⊢
  rw [mul_add, mul_add] at hfin
  linarith

end Verif.SRSA
