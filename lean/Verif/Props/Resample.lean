import Verif.Props.ForkedPoK
/-!
# Counting equally likely cases: bijections, union bounds and drawing one value anew

General facts about `pr` used for C201.
-/
set_option linter.unusedSectionVars false
set_option linter.unusedVariables false
set_option linter.unusedSimpArgs false
namespace Verif.Forking

section
variable {Ω Ω' A B : Type} [Fintype Ω] [Fintype Ω'] [Fintype A] [Fintype B]

theorem pr_nonneg (P : Ω → Prop) : 0 ≤ pr P := by
  classical
  unfold pr; positivity

theorem pr_false (P : Ω → Prop) (h : ∀ ω, ¬ P ω) : pr P = 0 := by
  classical
  unfold pr
  rw [Finset.card_eq_zero.2 (Finset.filter_eq_empty_iff.2 (fun {ω} _ => h ω))]
  simp

/-- the same cases under other names -/
theorem pr_bijective (g : Ω → Ω') (hg : Function.Bijective g) (P : Ω' → Prop) : pr (fun ω => P (g ω)) = pr P := by
  classical
  unfold pr
  rw [Fintype.card_of_bijective hg]
  congr 2
  refine Finset.card_bij (fun ω _ => g ω) ?_ ?_ ?_
  · intro ω h
    rw [Finset.mem_filter] at h ⊢
    exact ⟨Finset.mem_univ _, h.2⟩
  · intro ω _ ω' _ h
    exact hg.1 h
  · intro ω' h
    obtain ⟨ω, rfl⟩ := hg.2 ω'
    rw [Finset.mem_filter] at h
    exact ⟨ω, by rw [Finset.mem_filter]; exact ⟨Finset.mem_univ _, h.2⟩, rfl⟩

/-- a part of the case that does not matter -/
theorem pr_fst [Nonempty B] (P : A → Prop) : pr (fun ω : A × B => P ω.1) = pr P := by
  classical
  unfold pr
  have h : (Finset.univ.filter (fun ω : A × B => P ω.1)) = (Finset.univ.filter P) ×ˢ Finset.univ := by
    ext ω
    simp
  rw [h, Finset.card_product, Fintype.card_prod, Finset.card_univ, Nat.cast_mul, Nat.cast_mul]
  have : (Fintype.card B : ℚ) ≠ 0 := by exact_mod_cast Fintype.card_ne_zero
  rw [mul_div_mul_right _ _ this]

/-- the union bound -/
theorem pr_or (P Q : Ω → Prop) : pr (fun ω => P ω ∨ Q ω) ≤ pr P + pr Q := by
  classical
  obtain ⟨E, hE⟩ : ∃ E : Ω → Prop, E = fun ω => P ω ∨ Q ω := ⟨_, rfl⟩
  rw [← hE]
  unfold pr
  rw [← add_div]
  refine div_le_div_of_nonneg_right ?_ (Nat.cast_nonneg _)
  rw [← Nat.cast_add, Nat.cast_le]
  refine (Finset.card_le_card fun ω hω => ?_).trans (Finset.card_union_le _ _)
  have hω := (Finset.mem_filter.1 hω).2
  rw [hE] at hω
  rw [Finset.mem_union, Finset.mem_filter, Finset.mem_filter]
  exact hω.imp (fun h => ⟨Finset.mem_univ _, h⟩) (fun h => ⟨Finset.mem_univ _, h⟩)

theorem pr_exists_lt (n : Nat) (P : Nat → Ω → Prop) (b : ℚ) (h : ∀ i < n, pr (P i) ≤ b) : pr (fun ω => ∃ i < n, P i ω) ≤ n * b := by
  induction n with
  | zero =>
    have : pr (fun ω => ∃ i < 0, P i ω) = 0 := by
      classical
      unfold pr; simp
    rw [this]; simp
  | succ n ih =>
    have h1 : pr (fun ω => ∃ i < n + 1, P i ω) ≤ pr (fun ω => (∃ i < n, P i ω) ∨ P n ω) :=
      pr_mono (fun ω ⟨i, hi, hp⟩ => by
        rcases Nat.lt_succ_iff_lt_or_eq.1 hi with h | rfl
        · exact Or.inl ⟨i, h, hp⟩
        · exact Or.inr hp)
    have h2 := ih (fun i hi => h i (by omega))
    have h3 := h n (by omega)
    have h4 := pr_or (fun ω => ∃ i < n, P i ω) (P n)
    push_cast
    linarith

/-- a bound for every first part is a bound -/
theorem pr_fiber (P : A × B → Prop) (b : ℚ) (hb : 0 ≤ b) (h : ∀ a, pr (fun x => P (a, x)) ≤ b) : pr P ≤ b := by
  classical
  unfold pr at h ⊢
  rcases Nat.eq_zero_or_pos (Fintype.card B) with hB | hB
  · rw [Fintype.card_prod, hB]; simpa using hb
  rcases Nat.eq_zero_or_pos (Fintype.card A) with hA | hA
  · rw [Fintype.card_prod, hA]; simpa using hb
  have hB' : (0 : ℚ) < Fintype.card B := by exact_mod_cast hB
  have hA' : (0 : ℚ) < Fintype.card A := by exact_mod_cast hA
  have hsum : ((Finset.univ.filter P).card : ℚ) = ∑ a : A, ((Finset.univ.filter (fun x => P (a, x))).card : ℚ) := by
    rw [← Finset.sum_boole, Fintype.sum_prod_type]
    exact Finset.sum_congr rfl fun a _ => by rw [Finset.sum_boole]
  rw [Fintype.card_prod, hsum, Nat.cast_mul, div_le_iff₀ (by positivity)]
  calc ∑ a : A, ((Finset.univ.filter (fun x => P (a, x))).card : ℚ) ≤ ∑ _a : A, b * Fintype.card B :=
        Finset.sum_le_sum fun a _ => (div_le_iff₀ hB').1 (h a)
    _ = b * (Fintype.card A * Fintype.card B) := by
        rw [Finset.sum_const, Finset.card_univ, nsmul_eq_mul]; ring

/-- at most `w` of the cases -/
theorem pr_card (P : Ω → Prop) (w : Nat) (l : Finset Ω) (hl : l.card ≤ w) (h : ∀ ω, P ω → ω ∈ l) : pr P ≤ w / Fintype.card Ω := by
  classical
  unfold pr
  refine div_le_div_of_nonneg_right ?_ (Nat.cast_nonneg _)
  rw [Nat.cast_le]
  refine (Finset.card_le_card fun ω hω => ?_).trans hl
  rw [Finset.mem_filter] at hω
  exact h ω hω.2

end

section
variable {D H : Type} [DecidableEq D] [Fintype D] [Fintype H]

open Classical in
/-- A random function `f` is asked at a place `d f` that does not depend on the value there: if a condition, which does not depend on it
either, admits at most `w` values, it holds with probability at most `w / |H|`. -/
theorem resample (d : (D → H) → Option D) (hd : ∀ f x h, d f = some x → d (Function.update f x h) = some x)
    (cond : (D → H) → H → Prop) (hc : ∀ f x h, d f = some x → cond (Function.update f x h) = cond f) (w : Nat)
    (hw : ∀ f x, d f = some x → ∀ l : Finset H, (∀ h ∈ l, cond f h) → l.card ≤ w) :
    pr (fun f : D → H => ∃ x, d f = some x ∧ cond f (f x)) ≤ w / Fintype.card H := by
  rcases isEmpty_or_nonempty H with hH | hH
  · rw [pr_false _ (fun f ⟨x, _, _⟩ => hH.false (f x))]; positivity
  have h1 : pr (fun f : D → H => ∃ x, d f = some x ∧ cond f (f x)) =
      pr (fun p : (D → H) × H => ∃ x, d p.1 = some x ∧ cond p.1 (p.1 x)) := (pr_fst _).symm
  let g : (D → H) × H → (D → H) × H := fun p =>
    match d p.1 with
    | some x => (Function.update p.1 x p.2, p.1 x)
    | none => p
  have hgs : ∀ (f : D → H) (h : H) x, d f = some x → g (f, h) = (Function.update f x h, f x) := by
    intro f h x hx
    simp only [g, hx]
  have hgn : ∀ (f : D → H) (h : H), d f = none → g (f, h) = (f, h) := by
    intro f h hx
    simp only [g, hx]
  have hinv : Function.Involutive g := by
    rintro ⟨f, h⟩
    cases hx : d f with
    | none => rw [hgn f h hx, hgn f h hx]
    | some x =>
      rw [hgs f h x hx, hgs _ _ x (hd f x h hx)]
      simp
  rw [h1, ← pr_bijective g hinv.bijective]
  refine pr_fiber _ _ (by positivity) (fun f => ?_)
  cases hx : d f with
  | none =>
    rw [pr_false _ (fun h ⟨x, h2, _⟩ => by rw [hgn f h hx, hx] at h2; cases h2)]; positivity
  | some x =>
    refine pr_card _ w (Finset.univ.filter (cond f)) (hw f x hx _ (fun h hh => (Finset.mem_filter.1 hh).2)) ?_
    rintro h ⟨y, h2, h3⟩
    rw [hgs f h x hx] at h2 h3
    dsimp only at h2 h3
    rw [hd f x h hx] at h2
    obtain rfl := Option.some.inj h2
    rw [hc f x h hx, Function.update_self] at h3
    simp [h3]
end
end Verif.Forking
