import Verif.Props.SDHGame
/-!
# The probability that a forger of signatures `(x + e) A = g + s h₀ + ∑ m_j h_j` helps with the strong Diffie-Hellman problem (C208)
-/
set_option linter.unusedSectionVars false
set_option linter.unusedVariables false
set_option linter.unusedSimpArgs false
namespace Verif.SDH
open Verif.Forking Polynomial

section count
variable {Ω F : Type} [Fintype Ω] [Fintype F]

theorem pr_le_one' (P : Ω → Prop) : pr P ≤ 1 := by
  unfold pr
  refine div_le_one_of_le₀ ?_ (Nat.cast_nonneg _)
  exact_mod_cast Finset.card_le_univ _

/-- an event that determines one coordinate -/
theorem pr_line [Nonempty Ω] [Nonempty F] (P : Ω → Prop) (f : Ω → F → Ω) (h : ∀ a b, P a → P b → ∀ v v', f a v = f b v' → a = b ∧ v = v') :
    pr P ≤ 1 / Fintype.card F := by
  have key := pr_embed (Ω := Ω × F) (Ω' := Ω) (fun p => P p.1) (fun _ => True) (fun p => f p.1 p.2)
    (fun a ha b hb hab => by
      obtain ⟨h1, h2⟩ := h a.1 b.1 ha hb _ _ hab
      exact Prod.ext h1 h2) (fun _ _ => trivial)
  rw [pr_fst, Fintype.card_prod, Nat.cast_mul] at key
  have h1 := pr_le_one' (fun _ : Ω => True)
  have hΩ : (0 : ℚ) < Fintype.card Ω := by exact_mod_cast Fintype.card_pos
  have hF : (0 : ℚ) < Fintype.card F := by exact_mod_cast Fintype.card_pos
  rw [le_div_iff₀ hF]
  have : pr P * Fintype.card F * Fintype.card Ω ≤ 1 * Fintype.card Ω := by nlinarith
  exact le_of_mul_le_mul_right this hΩ

theorem pr_one_case (P : Ω → Prop) (h : ∀ a b, P a → P b → a = b) : pr P ≤ 1 / Fintype.card Ω := by
  classical
  have := pr_card P 1 (Finset.univ.filter P) (Finset.card_le_one.2 fun a ha b hb => h a b (Finset.mem_filter.1 ha).2 (Finset.mem_filter.1 hb).2)
    (fun ω hω => Finset.mem_filter.2 ⟨Finset.mem_univ _, hω⟩)
  rwa [Nat.cast_one] at this

theorem pr_exists_fin {n : ℕ} (P : Fin n → Ω → Prop) (b : ℚ) (h : ∀ i, pr (P i) ≤ b) : pr (fun ω => ∃ i, P i ω) ≤ n * b := by
  refine le_trans (pr_mono ?_) (pr_exists_lt n (fun i ω => ∃ h : i < n, P ⟨i, h⟩ ω) b ?_)
  · rintro ω ⟨i, hi⟩
    exact ⟨i, i.2, i.2, hi⟩
  · intro i hi
    exact (pr_mono fun ω hω => hω.2).trans (h ⟨i, hi⟩)

end count

variable {F V W J : Type} [Field F] [AddCommGroup V] [Module F V] [AddCommGroup W] [Module F W] [Fintype J]
variable (g : V) (g2 : W) {q : ℕ} [DecidableEq F] [DecidableEq V] [DecidableEq J] [Fintype F]

theorem update_at {n : ℕ} {X : Type} (e e' : Fin n → X) (i : Fin n) (v v' : X) (h : Function.update e i v = Function.update e' i v') (hi : e i = e' i) :
    e = e' ∧ v = v' := by
  constructor
  · funext j
    by_cases hj : j = i
    · rw [hj, hi]
    · have := congrFun h j
      rwa [Function.update_of_ne hj, Function.update_of_ne hj] at this
  · have := congrFun h i
    rwa [Function.update_self, Function.update_self] at this

theorem ext_update (t : Fin q → F) (j : Fin q) (d : F) (i : ℕ) (hi : i ≠ j) : ext (Function.update t j d) i = ext t i := by
  unfold ext
  split
  · rw [Function.update_of_ne]
    intro h
    exact hi (by rw [← h])
  · rfl

/-- two requests with the same `e` -/
theorem pr_collide (i j : Fin q) : pr (fun ω : Coins F J q => i ≠ j ∧ ω.2.2.1 i = ω.2.2.1 j) ≤ 1 / Fintype.card F := by
  refine pr_line _ (fun ω v => (ω.1, ω.2.1, Function.update ω.2.2.1 i v, ω.2.2.2)) ?_
  rintro ⟨x, η, e, s⟩ ⟨x', η', e', s'⟩ ⟨hij, ha⟩ ⟨_, hb⟩ v v' h
  dsimp only at ha hb h
  simp only [Prod.mk.injEq] at h
  obtain ⟨rfl, rfl, h, rfl⟩ := h
  have hj := congrFun h j
  rw [Function.update_of_ne hij.symm, Function.update_of_ne hij.symm] at hj
  obtain ⟨rfl, rfl⟩ := update_at _ _ i v v' h (by rw [ha, hb, hj])
  exact ⟨rfl, rfl⟩

theorem pr_pole (i : Fin q) : pr (fun ω : Coins F J q => ω.1 + ω.2.2.1 i = 0) ≤ 1 / Fintype.card F := by
  refine pr_line _ (fun ω v => (ω.1, ω.2.1, Function.update ω.2.2.1 i v, ω.2.2.2)) ?_
  rintro ⟨x, η, e, s⟩ ⟨x', η', e', s'⟩ ha hb v v' h
  dsimp only at ha hb h
  simp only [Prod.mk.injEq] at h
  obtain ⟨rfl, rfl, h, rfl⟩ := h
  obtain ⟨rfl, rfl⟩ := update_at _ _ i v v' h (by rw [eq_neg_of_add_eq_zero_right ha, eq_neg_of_add_eq_zero_right hb])
  exact ⟨rfl, rfl⟩

theorem pr_t (A : Forger F V W J) (i : Fin q) : pr (fun ω : Coins F J q => tOf g g2 A ω i = 0) ≤ 1 / Fintype.card F := by
  refine pr_line _ (fun ω v => (ω.1, ω.2.1, ω.2.2.1, Function.update ω.2.2.2 i v)) ?_
  have key : ∀ (ω : Coins F J q) (v : F), asked A (pubOf g g2 ω) (signer g g2 ω) i =
      asked A (pubOf g g2 (ω.1, ω.2.1, ω.2.2.1, Function.update ω.2.2.2 i v)) (signer g g2 (ω.1, ω.2.1, ω.2.2.1, Function.update ω.2.2.2 i v)) i := by
    intro ω v
    unfold asked
    congr 1
    refine hist_congr A (pubOf g g2 ω) _ _ i (fun k hk r _ => ?_) i le_rfl
    unfold signer real
    dsimp only
    rw [ext_update _ i v k hk.ne]
    rfl
  rintro ω ω' ha hb v v' h
  have ha := ha
  have hb := hb
  rw [tOf, key ω v] at ha
  rw [tOf, key ω' v'] at hb
  rw [h] at ha
  obtain ⟨x, η, e, s⟩ := ω
  obtain ⟨x', η', e', s'⟩ := ω'
  dsimp only at ha hb h
  simp only [Prod.mk.injEq] at h
  obtain ⟨rfl, rfl, rfl, h⟩ := h
  obtain ⟨rfl, rfl⟩ := update_at _ _ i v v' h (by rw [eq_neg_of_add_eq_zero_left ha, eq_neg_of_add_eq_zero_left hb])
  exact ⟨rfl, rfl⟩

theorem pr_unasked (A : Forger F V W J) (i : Fin q) : pr (Unasked g g2 A i) ≤ 1 / Fintype.card F := by
  refine pr_line _ (fun ω v => (ω.1, ω.2.1, Function.update ω.2.2.1 i v, ω.2.2.2)) ?_
  have key : ∀ (ω : Coins F J q) (v : F), asked A (pubOf g g2 ω) (signer g g2 ω) i = none →
      out g g2 A (ω.1, ω.2.1, Function.update ω.2.2.1 i v, ω.2.2.2) = out g g2 A ω := by
    intro ω v hn
    unfold out output
    congr 1
    refine hist_congr A (pubOf g g2 ω) _ _ q (fun k hk r hr => ?_) q le_rfl
    have hki : k ≠ i := by
      rintro rfl
      rw [hn] at hr
      exact absurd hr (by simp)
    unfold signer real
    dsimp only
    rw [ext_update _ i v k hki]
    rfl
  rintro ω ω' ⟨ha, ha'⟩ ⟨hb, hb'⟩ v v' h
  rw [← key ω v ha] at ha'
  rw [← key ω' v' hb] at hb'
  rw [h] at ha'
  obtain ⟨x, η, e, s⟩ := ω
  obtain ⟨x', η', e', s'⟩ := ω'
  have hee := ha'.symm.trans hb'
  dsimp only at h hee
  simp only [Prod.mk.injEq] at h
  obtain ⟨rfl, rfl, h, rfl⟩ := h
  obtain ⟨rfl, rfl⟩ := update_at _ _ i v v' h hee
  exact ⟨rfl, rfl⟩

theorem pr_bad (A : Forger F V W J) (ω : Coins F J q) : pr (fun c1 => Bad g g2 A ω c1) ≤ 1 / Fintype.card F := by
  refine pr_one_case _ ?_
  rintro c c' ⟨hx, hn, h1⟩ ⟨_, _, h2⟩
  have hm : nodes ω.2.2.1 (-(out g g2 A ω).1.e) ≠ 0 := by
    refine nodes_ne fun i h => hn i ?_
    exact (neg_add_eq_zero.1 h).symm
  rw [Coins1.poly, eval_poly] at h1 h2
  dsimp only [embed] at h1 h2
  generalize (ω.2.1 none - inter ω.2.2.1 (tOf g g2 A ω) ω.1) / nodes ω.2.2.1 ω.1 = k at h1 h2
  generalize inter ω.2.2.1 (tOf g g2 A ω) (-(out g g2 A ω).1.e) = l at h1 h2
  generalize nodes ω.2.2.1 (-(out g g2 A ω).1.e) = n at h1 h2 hm
  generalize (out g g2 A ω).1.e = e at h1 h2 hx
  generalize tOut g g2 A ω = t at h1 h2
  have ht : t ≠ 0 := by
    rintro rfl
    rw [zero_mul, add_zero] at h1
    exact one_ne_zero h1
  have : (c - c') * (t * n * (ω.1 + e)) = 0 := by linear_combination h2 - h1
  rcases mul_eq_zero.1 this with h | h
  · exact sub_eq_zero.1 h
  · exact absurd h (mul_ne_zero (mul_ne_zero ht hm) hx)

/-- the first reduction solves the problem with secret `x` -/
def Solves1 (q : ℕ) (A : Forger F V W J) (p : F × Coins1 F J q) : Prop :=
  Solved g p.1 (solve1 A (powers g q p.1) (p.1 • g2) p.2)

/-- the second reduction solves the problem with secret `x` -/
def Solves2 (q : ℕ) (A : Forger F V W J) (p : F × Coins2 F J q) : Prop := Solved g p.1 (solve2 A (powers g q p.1) g2 p.2)

theorem first (hg : g ≠ 0) (A : Forger F V W J) :
    pr (fun ω : Coins F J q => Good g g2 A ω ∧ Win g g2 A ω ∧ findRel A (pubOf g g2 ω) (signer g g2 ω) q = none ∧ ∀ i, ¬ Unasked g g2 A i ω) ≤
      pr (Solves1 g g2 q A) + 1 / Fintype.card F := by
  let P : Coins F J q → Prop := fun ω =>
    Good g g2 A ω ∧ Win g g2 A ω ∧ findRel A (pubOf g g2 ω) (signer g g2 ω) q = none ∧ ∀ i, ¬ Unasked g g2 A i ω
  have h0 : pr P = pr (fun p : Coins F J q × F => P p.1) := (pr_fst P).symm
  have h1 : pr (fun p : Coins F J q × F => P p.1) ≤
      pr (fun p : Coins F J q × F => P p.1 ∧ ¬ Bad g g2 A p.1 p.2) + pr (fun p : Coins F J q × F => Bad g g2 A p.1 p.2) := by
    refine le_trans (pr_mono fun p hp => ?_) (pr_or _ _)
    by_cases hb : Bad g g2 A p.1 p.2
    · exact Or.inr hb
    · exact Or.inl ⟨hp, hb⟩
  have h2 : pr (fun p : Coins F J q × F => Bad g g2 A p.1 p.2) ≤ 1 / Fintype.card F :=
    pr_fiber _ _ (by positivity) fun ω => pr_bad g g2 A ω
  have h3 := pr_embed (fun p : Coins F J q × F => P p.1 ∧ ¬ Bad g g2 A p.1 p.2) (Solves1 g g2 q A)
    (fun p => (p.1.1, embed g g2 A p.1 p.2)) (by
      rintro a ha b hb hab
      obtain ⟨e1, e2⟩ := Prod.mk.inj hab
      obtain ⟨e3, e4⟩ := embed_inj g g2 A a.1 b.1 a.2 b.2 ha.1.1 hb.1.1 e1 e2
      exact Prod.ext e3 e4) (by
      rintro p ⟨⟨hg', hw, hr, hu⟩, hb⟩
      exact solved1 g g2 hg A p.1 p.2 hg' hw hr hb hu)
  have hcard : Fintype.card (Coins F J q × F) = Fintype.card (F × Coins1 F J q) := by
    simp only [Coins, Coins1, Fintype.card_prod, Fintype.card_pi, Finset.prod_const, Finset.card_univ, Fintype.card_option, Fintype.card_fin]
    ring
  rw [hcard] at h3
  have hpos : (0 : ℚ) < Fintype.card (F × Coins1 F J q) := by exact_mod_cast Fintype.card_pos
  have h4 := le_of_mul_le_mul_right h3 hpos
  change pr P ≤ _
  linarith

theorem second (hg : g ≠ 0) (A : Forger F V W J) :
    pr (fun ω : Coins F J q => ∃ δ, findRel A (pubOf g g2 ω) (signer g g2 ω) q = some δ) ≤ pr (Solves2 g g2 q A) + 1 / Fintype.card F := by
  let P : Coins F J q → Prop := fun ω => ∃ δ, findRel A (pubOf g g2 ω) (signer g g2 ω) q = some δ
  let N : Coins F J q → (Option J → F) → Prop := fun ω γ =>
    ∃ δ, findRel A (pubOf g g2 ω) (signer g g2 ω) q = some δ ∧ ∑ j, γ j * δ j = 0
  have h0 : pr P = pr (fun p : Coins F J q × F × (Option J → F) => P p.1) := (pr_fst P).symm
  have h1 : pr (fun p : Coins F J q × F × (Option J → F) => P p.1) ≤
      pr (fun p : Coins F J q × F × (Option J → F) => P p.1 ∧ ¬ N p.1 p.2.2) + pr (fun p : Coins F J q × F × (Option J → F) => N p.1 p.2.2) := by
    refine le_trans (pr_mono fun p hp => ?_) (pr_or _ _)
    by_cases hb : N p.1 p.2.2
    · exact Or.inr hb
    · exact Or.inl ⟨hp, hb⟩
  have h2 : pr (fun p : Coins F J q × F × (Option J → F) => N p.1 p.2.2) ≤ 1 / Fintype.card F := by
    refine pr_fiber _ _ (by positivity) fun ω => pr_fiber _ _ (by positivity) fun d => ?_
    change pr (fun γ => N ω γ) ≤ _
    cases hf : findRel A (pubOf g g2 ω) (signer g g2 ω) q with
    | none =>
      rw [pr_false (fun γ => N ω γ) (by rintro γ ⟨δ, hδ, _⟩; rw [hf] at hδ; exact absurd hδ (by simp))]
      positivity
    | some δ =>
      obtain ⟨j0, hj0⟩ := Function.ne_iff.1 (findRel_some hf).1
      have hj0 : δ j0 ≠ 0 := hj0
      refine le_trans (pr_mono (Q := fun γ : Option J → F => ∑ j, γ j * δ j = 0) ?_) (pr_line _ (fun γ v => Function.update γ j0 v) ?_)
      · rintro γ ⟨δ', hδ', h⟩
        rw [hf] at hδ'
        rwa [Option.some.inj hδ']
      · intro a b ha hb v v' h
        have hoff : ∀ j, j ≠ j0 → a j = b j := by
          intro j hj
          have := congrFun h j
          rwa [Function.update_of_ne hj, Function.update_of_ne hj] at this
        have hsum : ∑ j, (a j - b j) * δ j = (a j0 - b j0) * δ j0 := by
          refine Finset.sum_eq_single j0 (fun j _ hj => by rw [hoff j hj, sub_self, zero_mul]) (fun h => absurd (Finset.mem_univ _) h)
        have hz : (a j0 - b j0) * δ j0 = 0 := by
          rw [← hsum]
          simp only [sub_mul, Finset.sum_sub_distrib]
          rw [ha, hb, sub_self]
        have h00 : a j0 = b j0 := sub_eq_zero.1 ((mul_eq_zero.1 hz).resolve_right hj0)
        refine ⟨funext fun j => ?_, ?_⟩
        · by_cases hj : j = j0
          · rw [hj, h00]
          · exact hoff j hj
        · have := congrFun h j0
          rwa [Function.update_self, Function.update_self] at this
  have h3 := pr_embed (fun p : Coins F J q × F × (Option J → F) => P p.1 ∧ ¬ N p.1 p.2.2) (Solves2 g g2 q A)
    (fun p => (p.2.1, embed2 p.1 p.2.1 p.2.2)) (by
      rintro ⟨⟨x, η, e, s⟩, d, γ⟩ _ ⟨⟨x', η', e', s'⟩, d', γ'⟩ _ hab
      simp only [embed2, Prod.mk.injEq] at hab
      obtain ⟨rfl, hη, rfl, rfl, rfl, rfl⟩ := hab
      have : η = η' := funext fun j => sub_left_injective (congrFun hη j)
      rw [this]) (by
      rintro p ⟨⟨δ, hδ⟩, hb⟩
      exact solved2 g g2 hg A p.1 p.2.1 p.2.2 hδ fun h => hb ⟨δ, hδ, h⟩)
  have hcard : Fintype.card (Coins F J q × F × (Option J → F)) = Fintype.card (F × Coins2 F J q) := by
    simp only [Coins, Coins2, Fintype.card_prod, Fintype.card_pi, Finset.prod_const, Finset.card_univ, Fintype.card_option, Fintype.card_fin]
    ring
  rw [hcard] at h3
  have hpos : (0 : ℚ) < Fintype.card (F × Coins2 F J q) := by exact_mod_cast Fintype.card_pos
  have h4 := le_of_mul_le_mul_right h3 hpos
  change pr P ≤ _
  linarith

/-- **C208**, abstract: a forger that wins with probability `ε` after `q` requests lets the two reductions solve the strong
Diffie-Hellman problem with probabilities that add up to at least `ε - (q + 1)(q + 2) / p`. -/
theorem forgery_solves (hg : g ≠ 0) (A : Forger F V W J) :
    pr (fun ω : Coins F J q => Win g g2 A ω ∧ ω.2.1 none ≠ 0 ∧ ∀ i, ω.1 + ω.2.2.1 i ≠ 0) ≤
      pr (Solves1 g g2 q A) + pr (Solves2 g g2 q A) + (q * q + 2 * q + 2) / Fintype.card F := by
  have hF : (0 : ℚ) < Fintype.card F := by exact_mod_cast Fintype.card_pos
  have hsplit : pr (fun ω : Coins F J q => Win g g2 A ω ∧ ω.2.1 none ≠ 0 ∧ ∀ i, ω.1 + ω.2.2.1 i ≠ 0) ≤
      pr (fun ω : Coins F J q => ((((Good g g2 A ω ∧ Win g g2 A ω ∧ findRel A (pubOf g g2 ω) (signer g g2 ω) q = none ∧ ∀ i, ¬ Unasked g g2 A i ω) ∨
        ∃ δ, findRel A (pubOf g g2 ω) (signer g g2 ω) q = some δ) ∨ ∃ i : Fin q, ∃ j : Fin q, i ≠ j ∧ ω.2.2.1 i = ω.2.2.1 j) ∨
        ∃ i : Fin q, tOf g g2 A ω i = 0) ∨ ∃ i : Fin q, Unasked g g2 A i ω) := by
    refine pr_mono ?_
    rintro ω ⟨hw, h0, hp⟩
    by_cases hu : ∃ i : Fin q, Unasked g g2 A i ω
    · exact Or.inr hu
    by_cases ht : ∃ i : Fin q, tOf g g2 A ω i = 0
    · exact Or.inl (Or.inr ht)
    by_cases hc : ∃ i : Fin q, ∃ j : Fin q, i ≠ j ∧ ω.2.2.1 i = ω.2.2.1 j
    · exact Or.inl (Or.inl (Or.inr hc))
    refine Or.inl (Or.inl (Or.inl ?_))
    cases hf : findRel A (pubOf g g2 ω) (signer g g2 ω) q with
    | some δ => exact Or.inr ⟨δ, rfl⟩
    | none =>
      refine Or.inl ⟨⟨fun i j hij => ?_, hp, h0, fun i hi => ht ⟨i, hi⟩⟩, hw, rfl, fun i hi => hu ⟨i, hi⟩⟩
      by_contra hne
      exact hc ⟨i, j, hne, hij⟩
  have h1 := first g g2 (q := q) hg A
  have h2 := second g g2 (q := q) hg A
  have h3 : pr (fun ω : Coins F J q => ∃ i : Fin q, ∃ j : Fin q, i ≠ j ∧ ω.2.2.1 i = ω.2.2.1 j) ≤ q * (q * (1 / Fintype.card F)) :=
    pr_exists_fin _ _ fun i => pr_exists_fin _ _ fun j => pr_collide i j
  have h4 : pr (fun ω : Coins F J q => ∃ i : Fin q, tOf g g2 A ω i = 0) ≤ q * (1 / Fintype.card F) := pr_exists_fin _ _ fun i => pr_t g g2 A i
  have h5 : pr (fun ω : Coins F J q => ∃ i : Fin q, Unasked g g2 A i ω) ≤ q * (1 / Fintype.card F) :=
    pr_exists_fin _ _ fun i => pr_unasked g g2 A i
  refine hsplit.trans ?_
  refine (pr_or _ _).trans ?_
  have k1 := pr_or (fun ω : Coins F J q => ((Good g g2 A ω ∧ Win g g2 A ω ∧ findRel A (pubOf g g2 ω) (signer g g2 ω) q = none ∧ ∀ i, ¬ Unasked g g2 A i ω) ∨
        ∃ δ, findRel A (pubOf g g2 ω) (signer g g2 ω) q = some δ) ∨ ∃ i : Fin q, ∃ j : Fin q, i ≠ j ∧ ω.2.2.1 i = ω.2.2.1 j)
        (fun ω : Coins F J q => ∃ i : Fin q, tOf g g2 A ω i = 0)
  have k2 := pr_or (fun ω : Coins F J q => (Good g g2 A ω ∧ Win g g2 A ω ∧ findRel A (pubOf g g2 ω) (signer g g2 ω) q = none ∧ ∀ i, ¬ Unasked g g2 A i ω) ∨
        ∃ δ, findRel A (pubOf g g2 ω) (signer g g2 ω) q = some δ) (fun ω : Coins F J q => ∃ i : Fin q, ∃ j : Fin q, i ≠ j ∧ ω.2.2.1 i = ω.2.2.1 j)
  have k3 := pr_or (fun ω : Coins F J q => Good g g2 A ω ∧ Win g g2 A ω ∧ findRel A (pubOf g g2 ω) (signer g g2 ω) q = none ∧ ∀ i, ¬ Unasked g g2 A i ω)
        (fun ω : Coins F J q => ∃ δ, findRel A (pubOf g g2 ω) (signer g g2 ω) q = some δ)
  have hdiv : ((q : ℚ) * q + 2 * q + 2) / Fintype.card F =
      q * (q * (1 / Fintype.card F)) + q * (1 / Fintype.card F) + q * (1 / Fintype.card F) + 1 / Fintype.card F + 1 / Fintype.card F := by
    field_simp
    ring
  rw [hdiv]
  linarith

end Verif.SDH
