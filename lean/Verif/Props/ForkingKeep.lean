import Verif.Props.Forking
/-!
# Running a prover twice and keeping some answers (C211)

As `forking`, but the second oracle also agrees with the first one on a list `keep d` of questions that goes with the verifier's question
`d`, asked or not, and what the verifier accepts may depend on all answers.
-/
set_option linter.unusedSectionVars false
set_option linter.unusedVariables false
set_option linter.unusedSimpArgs false
namespace Verif.Forking

variable {D H O R : Type} [DecidableEq D]

/-- the oracle of the second run: `f` for the questions asked before the verifier's one `x` was first asked and for those of `keep x`, `f'`
for `x` and everything else -/
def secondKeep (str : O → D) (keep : D → List D) (A : Prover D H O) (f f' : D → H) : D → H :=
  reset ((A.asked f).takeWhile (fun d => d ≠ str (A.run f)) ++ keep (str (A.run f))) f f'

/-- Both runs are accepted, the verifier asks the same question in both and gets different answers. -/
def ForksKeep (str : O → D) (keep : D → List D) (win : O → (D → H) → Prop) (A : Prover D H O) (f f' : D → H) : Prop :=
  let o := A.run f
  let g := secondKeep str keep A f f'
  let o' := A.run g
  win o f ∧ win o' g ∧ str o = str o' ∧ f (str o) ≠ g (str o')

section
variable [Fintype D] [Fintype H]

/-- the kept answers in terms of the number of the question -/
def known (str : O → D) (keep : D → List D) (A : Prover D H O) (j : Nat) (f : D → H) : List D :=
  (questions str A f).take j ++ ((questions str A f)[j]?.map keep).getD []

theorem known_known (str : O → D) (keep : D → List D) (A : Prover D H O) (j : Nat) (f g : D → H)
    (h : ∀ d ∈ known str keep A j f, g d = f d) : known str keep A j g = known str keep A j f := by
  have h3 := prefix_eq str f g A j (fun d hd => h d (List.mem_append_left _ hd))
  have h4 : ∀ l : List D, l[j]? = (l.take (j + 1))[j]? := fun l => by rw [List.getElem?_take_of_lt (Nat.lt_succ_self _)]
  have h5 : ∀ l : List D, l.take j = (l.take (j + 1)).take j := fun l => by rw [List.take_take, Nat.min_eq_left (Nat.le_succ _)]
  unfold known
  rw [h4 (questions str A g), h5 (questions str A g), h3, ← h4, ← h5]

theorem same_question_keep (str : O → D) (keep : D → List D) (A : Prover D H O) (f f' : D → H)
    (h : index str A (secondKeep str keep A f f') = index str A f) : str (A.run f) = str (A.run (secondKeep str keep A f f')) := by
  have h1 := question_at str A f
  have h2 := question_at str A (secondKeep str keep A f f')
  have h3 := prefix_eq str f (secondKeep str keep A f f') A (index str A f) (fun d hd => by
    rw [← before_eq] at hd
    unfold secondKeep reset
    rw [if_pos (List.mem_append_left _ hd)])
  rw [h] at h2
  have h4 : ∀ l : List D, l[index str A f]? = (l.take (index str A f + 1))[index str A f]? := fun l => by
    rw [List.getElem?_take_of_lt (Nat.lt_succ_self _)]
  rw [h4, h3, ← h4, h1] at h2
  exact Option.some.inj h2

theorem not_before_keep (str : O → D) (keep : D → List D) (hk : ∀ d, d ∉ keep d) (A : Prover D H O) (f f' : D → H) :
    secondKeep str keep A f f' (str (A.run f)) = f' (str (A.run f)) := by
  unfold secondKeep reset
  rw [if_neg]
  rw [List.mem_append, not_or]
  exact ⟨takeWhile_not _ _, hk _⟩

variable [Fintype R]

/-- The prover is accepted with probability `ε` and asks at most `q` questions: the two runs fork with probability at least
`ε² / (q + 1) - ε / |H|`. -/
theorem forking_keep (str : O → D) (keep : D → List D) (hk : ∀ d, d ∉ keep d) (win : R → O → (D → H) → Prop) (A : R → Prover D H O) (q : Nat) (hq : ∀ ρ, (A ρ).AtMost q) :
    let ε := pr fun ω : R × (D → H) => win ω.1 ((A ω.1).run ω.2) ω.2
    ε ^ 2 / (q + 1) - ε / Fintype.card H ≤
      pr fun ω : R × (D → H) × (D → H) => ForksKeep str keep (win ω.1) (A ω.1) ω.2.1 ω.2.2 := by
  classical
  intro ε
  set N : ℚ := (Fintype.card (D → H) : ℚ) with hN
  set r : ℚ := (Fintype.card R : ℚ) with hr
  let wins : R → (D → H) → Prop := fun ρ f => win ρ ((A ρ).run f) f
  let at' : R → Fin (q + 1) → (D → H) → Prop := fun ρ j f => wins ρ f ∧ index str (A ρ) f = j
  -- successes
  have hsum : ∀ ρ, ((Finset.univ.filter (wins ρ)).card : ℚ) = ∑ j : Fin (q + 1), ((Finset.univ.filter (at' ρ j)).card : ℚ) := by
    intro ρ
    rw [← Nat.cast_sum]
    congr 1
    rw [Finset.card_eq_sum_card_fiberwise (f := fun f => (⟨index str (A ρ) f, index_lt str (A ρ) f (hq ρ)⟩ : Fin (q + 1))) (t := Finset.univ)
      (fun _ _ => Finset.mem_coe.2 (Finset.mem_univ _))]
    refine Finset.sum_congr rfl fun j _ => ?_
    congr 1
    ext f
    simp only [Finset.mem_filter, Finset.mem_univ, true_and, at', Fin.ext_iff]
  set acc : ℚ := ∑ ρ, ((Finset.univ.filter (wins ρ)).card : ℚ) with hacc
  have hε : ε = acc / (r * N) := by
    simp only [ε, pr, Fintype.card_prod, Nat.cast_mul]
    rw [hacc, hr, hN]
    congr 1
    · rw [← Finset.sum_boole, Fintype.sum_prod_type]
      refine Finset.sum_congr rfl fun ρ _ => ?_
      rw [Finset.sum_boole]
    
  -- pairs
  let pairs : R → Fin (q + 1) → ((D → H) × (D → H)) → Prop := fun ρ j p =>
    at' ρ j p.1 ∧ at' ρ j (reset (known str keep (A ρ) j p.1) p.1 p.2)
  have hmom : ∀ ρ j, ((Finset.univ.filter (at' ρ j)).card : ℚ) ^ 2 ≤ ((Finset.univ.filter (pairs ρ j)).card : ℚ) := fun ρ j =>
    second_moment (K := known str keep (A ρ) j) (fun f g h => known_known str keep (A ρ) j f g h) (at' ρ j)
  have hsec : ∀ (ρ : R) (j : Fin (q + 1)) (p : (D → H) × (D → H)), at' ρ j p.1 → reset (known str keep (A ρ) j p.1) p.1 p.2 = secondKeep str keep (A ρ) p.1 p.2 := by
    intro ρ j p h
    have h1 := question_at str (A ρ) p.1
    rw [h.2] at h1
    rw [secondKeep, before_eq, h.2, known, h1]
    rfl
  let same : R → ((D → H) × (D → H)) → Prop := fun ρ p => wins ρ p.1 ∧ p.1 (str ((A ρ).run p.1)) = p.2 (str ((A ρ).run p.1))
  let fork : R → ((D → H) × (D → H)) → Prop := fun ρ p => ForksKeep str keep (win ρ) (A ρ) p.1 p.2
  have hcover : ∀ ρ, ∑ j : Fin (q + 1), ((Finset.univ.filter (pairs ρ j)).card : ℚ) ≤
      ((Finset.univ.filter (fork ρ)).card : ℚ) + ((Finset.univ.filter (same ρ)).card : ℚ) := by
    intro ρ
    rw [← Nat.cast_sum, ← Nat.cast_add, Nat.cast_le, ← Finset.card_biUnion]
    · refine le_trans (Finset.card_le_card ?_) (Finset.card_union_le _ _)
      intro p hp
      simp only [Finset.mem_biUnion, Finset.mem_univ, true_and, Finset.mem_filter, Finset.mem_union] at hp ⊢
      obtain ⟨j, h1, h2⟩ := hp
      rw [hsec ρ j p h1] at h2
      by_cases hs : p.1 (str ((A ρ).run p.1)) = p.2 (str ((A ρ).run p.1))
      · exact Or.inr ⟨h1.1, hs⟩
      · have hx := same_question_keep str keep (A ρ) p.1 p.2 (h2.2.trans h1.2.symm)
        exact Or.inl ⟨h1.1, h2.1, hx, by rw [← hx, not_before_keep str keep hk]; exact hs⟩
    · intro i _ j _ hij
      rw [Function.onFun, Finset.disjoint_left]
      intro p hp hp'
      simp only [Finset.mem_filter, Finset.mem_univ, true_and] at hp hp'
      exact hij (Fin.ext (hp.1.2.symm.trans hp'.1.2))
  have hsame : ∀ ρ, ((Finset.univ.filter (same ρ)).card : ℚ) * Fintype.card H = ((Finset.univ.filter (wins ρ)).card : ℚ) * N := by
    intro ρ
    have h1 : ((Finset.univ.filter (same ρ)).card : ℚ) = ∑ f ∈ Finset.univ.filter (wins ρ),
        ((Finset.univ.filter (fun f' : D → H => f (str ((A ρ).run f)) = f' (str ((A ρ).run f)))).card : ℚ) := by
      rw [← Finset.sum_boole, Fintype.sum_prod_type, Finset.sum_filter]
      refine Finset.sum_congr rfl fun f _ => ?_
      by_cases hw : wins ρ f
      · rw [if_pos hw, ← Finset.sum_boole]
        exact Finset.sum_congr rfl fun f' _ => by simp only [same, hw, true_and]
      · rw [if_neg hw]
        exact Finset.sum_eq_zero fun f' _ => if_neg (fun h => hw h.1)
    rw [h1, Finset.sum_mul]
    rw [Finset.sum_congr rfl (g := fun _ => N) (fun f _ => ?_), Finset.sum_const, nsmul_eq_mul]
    -- functions with one value fixed
    set x := str ((A ρ).run f)
    have h2 : ∀ c : H, (Finset.univ.filter (fun f' : D → H => c = f' x)).card =
        (Finset.univ.filter (fun f' : D → H => f x = f' x)).card := by
      intro c
      refine Finset.card_bij' (fun f' _ => Function.update f' x (f x)) (fun f' _ => Function.update f' x c) ?_ ?_ ?_ ?_
      · intro f' _; simp
      · intro f' _; simp
      · intro f' hf'
        simp only [Finset.mem_filter, Finset.mem_univ, true_and] at hf'
        simp [hf']
      · intro f' hf'
        simp only [Finset.mem_filter, Finset.mem_univ, true_and] at hf'
        simp [hf']
    have h3 : Fintype.card (D → H) = ∑ c : H, (Finset.univ.filter (fun f' : D → H => c = f' x)).card := by
      rw [← Finset.card_univ, Finset.card_eq_sum_card_fiberwise (f := fun f' : D → H => f' x) (t := Finset.univ) (fun _ _ => Finset.mem_coe.2 (Finset.mem_univ _))]
      refine Finset.sum_congr rfl fun c _ => ?_
      congr 1; ext f'; simp [eq_comm]
    rw [hN, h3, Finset.sum_congr rfl (fun c _ => h2 c), Finset.sum_const, Finset.card_univ, smul_eq_mul, Nat.cast_mul, mul_comm]
  -- put together
  have hfork : (pr fun ω : R × (D → H) × (D → H) => ForksKeep str keep (win ω.1) (A ω.1) ω.2.1 ω.2.2) =
      (∑ ρ, ((Finset.univ.filter (fork ρ)).card : ℚ)) / (r * N ^ 2) := by
    simp only [pr, Fintype.card_prod, Nat.cast_mul]
    rw [hr, hN, sq]
    congr 1
    rw [← Finset.sum_boole, Fintype.sum_prod_type]
    refine Finset.sum_congr rfl fun ρ _ => ?_
    rw [Finset.sum_boole]
  rw [hfork, hε]
  rcases eq_or_ne (r * N) 0 with h0 | h0
  · have : (r * N ^ 2) = 0 := by rw [sq, ← mul_assoc, h0, zero_mul]
    rw [h0, this]; simp
  have hr0 : r ≠ 0 := left_ne_zero_of_mul h0
  have hN0 : N ≠ 0 := right_ne_zero_of_mul h0
  have hrp : 0 < r := lt_of_le_of_ne (Nat.cast_nonneg _) hr0.symm
  have hNp : 0 < N := lt_of_le_of_ne (Nat.cast_nonneg _) hN0.symm
  have hqp : (0 : ℚ) < q + 1 := by positivity
  set Hc : ℚ := (Fintype.card H : ℚ) with hHc
  have hcs : acc ^ 2 ≤ r * (q + 1) * ∑ ρ, ∑ j : Fin (q + 1), ((Finset.univ.filter (at' ρ j)).card : ℚ) ^ 2 := by
    rw [hacc]
    simp only [hsum]
    rw [← Fintype.sum_prod_type (fun p : R × Fin (q + 1) => ((Finset.univ.filter (at' p.1 p.2)).card : ℚ)),
      ← Fintype.sum_prod_type (fun p : R × Fin (q + 1) => ((Finset.univ.filter (at' p.1 p.2)).card : ℚ) ^ 2)]
    have := sq_sum_le_card_mul_sum_sq (s := (Finset.univ : Finset (R × Fin (q + 1))))
      (f := fun p => ((Finset.univ.filter (at' p.1 p.2)).card : ℚ))
    simpa [hr] using this
  have hall : ∑ ρ, ∑ j : Fin (q + 1), ((Finset.univ.filter (at' ρ j)).card : ℚ) ^ 2 ≤
      ∑ ρ, ((Finset.univ.filter (fork ρ)).card : ℚ) + ∑ ρ, ((Finset.univ.filter (same ρ)).card : ℚ) := by
    rw [← Finset.sum_add_distrib]
    exact Finset.sum_le_sum fun ρ _ => le_trans (Finset.sum_le_sum fun j _ => hmom ρ j) (hcover ρ)
  have hsameall : (∑ ρ, ((Finset.univ.filter (same ρ)).card : ℚ)) * Hc = acc * N := by
    rw [hacc, Finset.sum_mul, Finset.sum_mul]
    exact Finset.sum_congr rfl fun ρ _ => hsame ρ
  have hacc0 : 0 ≤ acc := Finset.sum_nonneg fun ρ _ => Nat.cast_nonneg _
  set FK := ∑ ρ, ((Finset.univ.filter (fork ρ)).card : ℚ)
  set SM := ∑ ρ, ((Finset.univ.filter (same ρ)).card : ℚ)
  exact finish hrp hNp hqp hacc0 (Nat.cast_nonneg _) (Finset.sum_nonneg fun ρ _ => Nat.cast_nonneg _) (hcs.trans (mul_le_mul_of_nonneg_left hall (by positivity))) hsameall

end
end Verif.Forking
