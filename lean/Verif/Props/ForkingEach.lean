import Verif.Props.ForkedPoK
import Verif.Props.RSACount
/-!
# Running a prover twice, for every value of some coins (C212, C213)

As `forking`, but the verifier's question and what it accepts may depend on the coins (for instance on the public key).
-/
set_option linter.unusedSectionVars false
set_option linter.unusedVariables false
namespace Verif.Forking

variable {C D H O : Type} [DecidableEq D] [Fintype C] [Fintype D] [Fintype H]

theorem forking_each (str : C → O → D) (win : C → O → H → Prop) (A : C → Prover D H O) (q : Nat) (hq : ∀ c, (A c).AtMost q) :
    let ε := pr fun ω : C × (D → H) => win ω.1 ((A ω.1).run ω.2) (ω.2 (str ω.1 ((A ω.1).run ω.2)))
    ε ^ 2 / (q + 1) - ε / Fintype.card H ≤
      pr fun ω : C × (D → H) × (D → H) => Forks (str ω.1) (win ω.1) (A ω.1) ω.2.1 ω.2.2 := by
  intro ε
  let e (c : C) : ℚ := pr fun f : D → H => win c ((A c).run f) (f (str c ((A c).run f)))
  let y (c : C) : ℚ := pr fun f : (D → H) × (D → H) => Forks (str c) (win c) (A c) f.1 f.2
  have hone : ∀ c, e c ^ 2 / (q + 1) - e c / Fintype.card H ≤ y c := by
    intro c
    have h := forking (R := Unit) (str c) (win c) (fun _ => A c) q (fun _ => hq c)
    dsimp only at h
    have hb1 : Function.Bijective fun f : D → H => (((), f) : Unit × (D → H)) :=
      Function.bijective_iff_has_inverse.2 ⟨fun p => p.2, fun _ => rfl, fun _ => rfl⟩
    have hb2 : Function.Bijective fun f : (D → H) × (D → H) => (((), f) : Unit × (D → H) × (D → H)) :=
      Function.bijective_iff_has_inverse.2 ⟨fun p => p.2, fun _ => rfl, fun _ => rfl⟩
    rw [← pr_bijective _ hb1, ← pr_bijective _ hb2] at h
    exact h
  have hε : ε = (∑ c, e c) / Fintype.card C := pr_prod _
  have hy : (pr fun ω : C × (D → H) × (D → H) => Forks (str ω.1) (win ω.1) (A ω.1) ω.2.1 ω.2.2) = (∑ c, y c) / Fintype.card C := pr_prod _
  rw [hy, hε]
  rcases Nat.eq_zero_or_pos (Fintype.card C) with h0 | h0
  · rw [h0]; simp
  have hN : (0 : ℚ) < Fintype.card C := by exact_mod_cast h0
  have hq0 : (0 : ℚ) < (q : ℚ) + 1 := by positivity
  have hcs : (∑ c, e c) ^ 2 ≤ Fintype.card C * ∑ c, e c ^ 2 := sq_sum_le_card_mul_sum_sq
  have hsum : (∑ c, e c ^ 2) / (q + 1) - (∑ c, e c) / Fintype.card H ≤ ∑ c, y c := by
    rw [Finset.sum_div, Finset.sum_div, ← Finset.sum_sub_distrib]
    exact Finset.sum_le_sum fun c _ => hone c
  refine le_trans ?_ (div_le_div_of_nonneg_right hsum hN.le)
  rw [sub_div, div_right_comm _ (Fintype.card H : ℚ)]
  refine sub_le_sub_right ?_ _
  rw [div_right_comm]
  refine div_le_div_of_nonneg_right ?_ hq0.le
  rw [div_pow, div_le_div_iff₀ (by positivity) hN]
  nlinarith

/-- averaging over coins -/
theorem pr_each {C Ω Ω₁ Ω₂ : Type} [Fintype C] [Fintype Ω] [Fintype Ω₁] [Fintype Ω₂] (P : C → Ω → Prop) (Q : C → Ω₁ → Prop) (Q' : C → Ω₂ → Prop)
    (k : ℚ) (hk : 0 ≤ k) (h : ∀ c, pr (P c) ≤ pr (Q c) + pr (Q' c) + k) :
    pr (fun z : C × Ω => P z.1 z.2) ≤ pr (fun z : C × Ω₁ => Q z.1 z.2) + pr (fun z : C × Ω₂ => Q' z.1 z.2) + k := by
  rw [pr_prod, pr_prod, pr_prod]
  rcases Nat.eq_zero_or_pos (Fintype.card C) with h0 | h0
  · rw [h0]; simpa using hk
  have hN : (0 : ℚ) < Fintype.card C := by exact_mod_cast h0
  have hs : ∑ c, pr (P c) ≤ ∑ c, pr (Q c) + ∑ c, pr (Q' c) + Fintype.card C * k := by
    have : ∑ c : C, (pr (Q c) + pr (Q' c) + k) = ∑ c, pr (Q c) + ∑ c, pr (Q' c) + Fintype.card C * k := by
      rw [Finset.sum_add_distrib, Finset.sum_add_distrib, Finset.sum_const, Finset.card_univ, nsmul_eq_mul]
    rw [← this]
    exact Finset.sum_le_sum fun c _ => h c
  have := div_le_div_of_nonneg_right hs hN.le
  refine this.trans (le_of_eq ?_)
  rw [add_div, add_div, mul_div_cancel_left₀ _ hN.ne']

end Verif.Forking
