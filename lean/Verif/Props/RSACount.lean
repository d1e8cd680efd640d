import Verif.Props.Resample
import Mathlib.Data.Int.CardIntervalMod
import Mathlib.Data.Int.GCD
import Mathlib.Logic.Equiv.Prod
import Mathlib.RingTheory.Coprime.Lemmas
import Mathlib.RingTheory.Int.Basic
/-!
# Counting for the strong-RSA reduction (C204): embeddings, fibres and linear conditions modulo a prime

`pr` is the fraction of equally likely cases (`Forking.lean`).
-/
set_option linter.unusedSectionVars false
set_option linter.unusedVariables false
set_option linter.unusedSimpArgs false
namespace Verif.Forking

section
variable {Ω Ω' A B : Type} [Fintype Ω] [Fintype Ω'] [Fintype A] [Fintype B]

/-- cases of one experiment sent one to one to cases of another -/
theorem pr_embed (P : Ω → Prop) (Q : Ω' → Prop) (f : Ω → Ω') (hf : ∀ a, P a → ∀ b, P b → f a = f b → a = b)
    (hPQ : ∀ a, P a → Q (f a)) : pr P * Fintype.card Ω ≤ pr Q * Fintype.card Ω' := by
  classical
  have key : (Finset.univ.filter P).card ≤ (Finset.univ.filter Q).card := by
    refine Finset.card_le_card_of_injOn f ?_ ?_
    · intro a ha
      have ha := (Finset.mem_filter.1 (Finset.mem_coe.1 ha)).2
      exact Finset.mem_coe.2 (Finset.mem_filter.2 ⟨Finset.mem_univ _, hPQ a ha⟩)
    · intro a ha b hb h
      exact hf a (Finset.mem_filter.1 (Finset.mem_coe.1 ha)).2 b (Finset.mem_filter.1 (Finset.mem_coe.1 hb)).2 h
  have e : ∀ {X : Type} [Fintype X] (R : X → Prop), pr R * Fintype.card X = ((Finset.univ.filter R).card : ℚ) := by
    intro X _ R
    unfold pr
    rcases Nat.eq_zero_or_pos (Fintype.card X) with h0 | h0
    · have : (Finset.univ.filter R).card = 0 := by
        have := Finset.card_le_univ (Finset.univ.filter R)
        omega
      rw [h0, this]; simp
    · rw [div_mul_cancel₀]
      exact_mod_cast h0.ne'
  rw [e, e]
  exact_mod_cast key

/-- the fraction for a pair is the average of the fractions -/
theorem pr_prod (P : A × B → Prop) : pr P = (∑ a, pr (fun b => P (a, b))) / Fintype.card A := by
  classical
  unfold pr
  have hsum : ((Finset.univ.filter P).card : ℚ) = ∑ a : A, ((Finset.univ.filter (fun x => P (a, x))).card : ℚ) := by
    rw [← Finset.sum_boole, Fintype.sum_prod_type]
    exact Finset.sum_congr rfl fun a _ => by rw [Finset.sum_boole]
  rw [hsum, Fintype.card_prod, Nat.cast_mul, mul_comm, ← div_div, Finset.sum_div]

theorem pr_avg (P : A → Prop) : pr P = (∑ a, (open Classical in if P a then (1 : ℚ) else 0)) / Fintype.card A := by
  classical
  unfold pr
  rw [Finset.sum_boole]

/-- a lower bound for the second part whenever the first part is good -/
theorem pr_and_ge (p : A → Prop) (Q : A → B → Prop) (lo : ℚ) (h : ∀ a, p a → lo ≤ pr (Q a)) :
    lo * pr p ≤ pr (fun ω : A × B => p ω.1 ∧ Q ω.1 ω.2) := by
  classical
  rw [pr_prod, pr_avg, ← mul_div_assoc]
  refine div_le_div_of_nonneg_right ?_ (Nat.cast_nonneg _)
  rw [Finset.mul_sum]
  refine Finset.sum_le_sum fun a _ => ?_
  by_cases ha : p a
  · rw [if_pos ha, mul_one]
    exact (h a ha).trans (pr_mono fun b hb => ⟨ha, hb⟩)
  · rw [if_neg ha, mul_zero]
    exact pr_nonneg _

/-- an upper bound for the second part whenever the first part is good -/
theorem pr_and_le (p : A → Prop) (Q : A → B → Prop) (hi : ℚ) (h : ∀ a, p a → pr (Q a) ≤ hi) :
    pr (fun ω : A × B => p ω.1 ∧ Q ω.1 ω.2) ≤ hi * pr p := by
  classical
  rw [pr_prod, pr_avg, ← mul_div_assoc]
  refine div_le_div_of_nonneg_right ?_ (Nat.cast_nonneg _)
  rw [Finset.mul_sum]
  refine Finset.sum_le_sum fun a _ => ?_
  by_cases ha : p a
  · rw [if_pos ha, mul_one]
    exact (pr_mono fun b (hb : p a ∧ Q a b) => hb.2).trans (h a ha)
  · rw [if_neg ha, mul_zero]
    exact (pr_false _ fun b hb => ha hb.1).le

theorem pr_fiber_ge [Nonempty A] (P : A × B → Prop) (lo : ℚ) (h : ∀ a, lo ≤ pr (fun x => P (a, x))) : lo ≤ pr P := by
  rw [pr_prod, le_div_iff₀ (by exact_mod_cast Fintype.card_pos)]
  calc lo * Fintype.card A = ∑ _a : A, lo := by rw [Finset.sum_const, Finset.card_univ, nsmul_eq_mul]; ring
    _ ≤ _ := Finset.sum_le_sum fun a _ => h a

/-- one event without another -/
theorem pr_diff (P Q : Ω → Prop) : pr P - pr (fun ω => P ω ∧ Q ω) ≤ pr (fun ω => P ω ∧ ¬ Q ω) := by
  have h : pr P ≤ pr (fun ω => (P ω ∧ ¬ Q ω) ∨ (P ω ∧ Q ω)) := pr_mono fun ω h => by
    by_cases hq : Q ω
    · exact Or.inr ⟨h, hq⟩
    · exact Or.inl ⟨h, hq⟩
  have := pr_or (fun ω => P ω ∧ ¬ Q ω) (fun ω => P ω ∧ Q ω)
  linarith

theorem pr_not_ge [Nonempty Ω] (Q : Ω → Prop) : 1 - pr Q ≤ pr (fun ω => ¬ Q ω) := by
  classical
  have h1 : pr (fun _ : Ω => True) = 1 := by
    rw [pr_avg]
    simp only [if_true, Finset.sum_const, Finset.card_univ, nsmul_eq_mul, mul_one]
    exact div_self (by exact_mod_cast Fintype.card_ne_zero)
  have h := pr_diff (fun _ : Ω => True) Q
  have h2 : pr (fun ω => True ∧ Q ω) ≤ pr Q := pr_mono fun ω h => h.2
  have h3 : pr (fun ω => True ∧ ¬ Q ω) ≤ pr (fun ω => ¬ Q ω) := pr_mono fun ω h => h.2
  linarith

end

/-! ## Numbers below `K` in a residue class -/

theorem pr_fin (K : Nat) (p : Nat → Prop) [DecidablePred p] : pr (fun k : Fin K => p k) = (Nat.count p K : ℚ) / K := by
  obtain ⟨P, hP⟩ : ∃ P : Fin K → Prop, P = fun k : Fin K => p k := ⟨_, rfl⟩
  rw [← hP]
  have hP : ∀ k, P k ↔ p k := fun k => by rw [hP]
  classical
  unfold pr
  rw [Fintype.card_fin, Nat.count_eq_card_filter_range]
  congr 2
  refine Finset.card_bij (fun k _ => (k : Nat)) ?_ ?_ ?_
  · intro k hk
    rw [Finset.mem_filter] at hk
    exact Finset.mem_filter.2 ⟨Finset.mem_range.2 k.2, (hP k).1 hk.2⟩
  · intro a _ b _ h
    exact Fin.ext h
  · intro k hk
    have hk := Finset.mem_filter.1 hk
    exact ⟨⟨k, Finset.mem_range.1 hk.1⟩, by rw [Finset.mem_filter]; exact ⟨Finset.mem_univ _, (hP _).2 hk.2⟩, rfl⟩

/-- a linear condition modulo a prime, on one number below `K`: within `1 / K` of the fraction `1 / e` -/
theorem pr_linear (K e : Nat) (hK : 0 < K) (he : e.Prime) (c d : Int) (hd : ¬ (e : Int) ∣ d) :
    pr (fun k : Fin K => (e : Int) ∣ c + d * (k : Nat)) ≤ 1 / e + 1 / K ∧ (1 : ℚ) / e - 1 / K ≤ pr (fun k : Fin K => (e : Int) ∣ c + d * (k : Nat)) := by
  have he0 : 0 < e := he.pos
  have hcop : IsCoprime (e : Int) d := by
    rw [Int.isCoprime_iff_gcd_eq_one]
    change Nat.gcd (e : Int).natAbs d.natAbs = 1
    rw [Int.natAbs_natCast]
    exact (Nat.Prime.coprime_iff_not_dvd he).2 fun h => hd (Int.natCast_dvd.2 h)
  obtain ⟨a, b, hab⟩ := hcop
  -- the solutions are the numbers congruent to `v`
  obtain ⟨v, hv⟩ : ∃ v : Nat, (v : Int) = (-(b * c)) % e := ⟨((-(b * c)) % e).toNat, Int.toNat_of_nonneg (Int.emod_nonneg _ (by omega))⟩
  have hiff : ∀ k : Nat, (e : Int) ∣ c + d * (k : Nat) ↔ k ≡ v [MOD e] := by
    intro k
    rw [← Int.natCast_modEq_iff, hv]
    have h1 : ((k : Int) ≡ (-(b * c)) % e [ZMOD e]) ↔ (e : Int) ∣ k + b * c := by
      rw [Int.modEq_iff_dvd]
      constructor
      · intro h
        have := Int.emod_add_mul_ediv (-(b * c)) e
        obtain ⟨x, hx⟩ := h
        exact ⟨-x - (-(b * c)) / e, by linear_combination (-1 : Int) * hx + this⟩
      · rintro ⟨x, hx⟩
        have := Int.emod_add_mul_ediv (-(b * c)) e
        exact ⟨-x - (-(b * c)) / e, by linear_combination (-1 : Int) * hx + this⟩
    rw [h1]
    constructor
    · rintro ⟨x, hx⟩
      exact ⟨b * x + a * k, by linear_combination b * hx - (k : Int) * hab⟩
    · rintro ⟨x, hx⟩
      exact ⟨d * x + a * c, by linear_combination d * hx - c * hab⟩
  simp only [hiff]
  rw [pr_fin K (fun k => k ≡ v [MOD e]), Nat.count_modEq_card K he0]
  have hKq : (0 : ℚ) < K := by exact_mod_cast hK
  have heq : (0 : ℚ) < e := by exact_mod_cast he0
  have hdm : (e : ℚ) * (K / e : Nat) + (K % e : Nat) = K := by exact_mod_cast Nat.div_add_mod K e
  have hm : ((K % e : Nat) : ℚ) < e := by exact_mod_cast Nat.mod_lt _ he0
  have hm0 : (0 : ℚ) ≤ ((K % e : Nat) : ℚ) := Nat.cast_nonneg _
  have hup : ((K / e : Nat) : ℚ) ≤ K / e := by
    rw [le_div_iff₀ heq]; linarith
  have hlo : (K : ℚ) / e - 1 ≤ ((K / e : Nat) : ℚ) := by
    rw [sub_le_iff_le_add, div_le_iff₀ heq]
    nlinarith
  constructor
  · rw [div_le_iff₀ hKq]
    have : (1 / e + 1 / K) * K = (K : ℚ) / e + 1 := by field_simp
    rw [this]
    push_cast
    split_ifs <;> simp <;> linarith
  · rw [le_div_iff₀ hKq]
    have : (1 / e - 1 / K) * K = (K : ℚ) / e - 1 := by field_simp
    rw [this]
    push_cast
    split_ifs <;> simp <;> linarith

end Verif.Forking
