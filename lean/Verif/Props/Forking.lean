import Mathlib.Algebra.Order.Chebyshev
import Mathlib.Algebra.Order.BigOperators.Group.Finset
import Mathlib.Algebra.BigOperators.Field
import Mathlib.Data.Fintype.BigOperators
import Mathlib.Data.Fintype.Pi
import Mathlib.Data.Rat.Cast.Order
import Mathlib.Tactic.Linarith
import Mathlib.Tactic.FieldSimp
import Mathlib.Tactic.Ring
import Mathlib.Tactic.Positivity
/-!
# Provers that ask a random oracle, and running one twice (C198)

A prover with coins `ρ` asks an oracle `f` any questions it likes, one after the other, each depending on the answers so far, and
finally outputs something; a verifier asks the oracle one question made from the output and accepts or refuses.  The oracle is a
uniformly random function from a finite set `D` of questions to a finite set `H` of answers.

`forking`: run the prover, and run it again with the same coins and an oracle that agrees with the first one on the questions asked
before the verifier's question and is drawn anew everywhere else.  If the prover is accepted with probability `ε` and asks at most
`q` questions, then with probability at least `ε² / (q + 1) - ε / |H|` both runs are accepted, for the same question of the verifier
and with different answers to it.
-/
set_option linter.unusedSectionVars false
set_option linter.unusedVariables false
set_option linter.unusedSimpArgs false
namespace Verif.Forking

/-- a prover: it outputs something, or asks the oracle a question and continues with the answer -/
inductive Prover (D H O : Type) where
  | out (o : O)
  | ask (d : D) (next : H → Prover D H O)

/-- what it outputs with the oracle `f` -/
def Prover.run {D H O : Type} (f : D → H) : Prover D H O → O
  | .out o => o
  | .ask d next => (next (f d)).run f

/-- the questions it asks the oracle `f`, in order -/
def Prover.asked {D H O : Type} (f : D → H) : Prover D H O → List D
  | .out _ => []
  | .ask d next => d :: (next (f d)).asked f

/-- whatever the answers, it asks at most `q` questions -/
def Prover.AtMost {D H O : Type} : Nat → Prover D H O → Prop
  | _, .out _ => True
  | 0, .ask _ _ => False
  | q + 1, .ask _ next => ∀ c, (next c).AtMost q

/-- the fraction of the (equally likely) cases in which `P` holds -/
noncomputable def pr {Ω : Type} [Fintype Ω] (P : Ω → Prop) : ℚ := by
  classical exact ((Finset.univ.filter P).card : ℚ) / Fintype.card Ω

variable {D H O R : Type} [DecidableEq D]

/-- the first oracle on `K`, the second one elsewhere -/
def reset (K : List D) (f f' : D → H) : D → H := fun d => if d ∈ K then f d else f' d

/-- the oracle of the second run: `f` for the questions asked before `x` was first asked, `f'` for `x` and everything else -/
def second (str : O → D) (A : Prover D H O) (f f' : D → H) : D → H :=
  reset ((A.asked f).takeWhile (fun d => d ≠ str (A.run f))) f f'

/-- Both runs are accepted, the verifier asks the same question in both and gets different answers. -/
def Forks (str : O → D) (win : O → H → Prop) (A : Prover D H O) (f f' : D → H) : Prop :=
  let o := A.run f
  let g := second str A f f'
  let o' := A.run g
  win o (f (str o)) ∧ win o' (g (str o')) ∧ str o = str o' ∧ f (str o) ≠ g (str o')

/-! ## Counting -/

section
variable [Fintype D] [Fintype H]

theorem reset_eq {K : (D → H) → List D} (hK : ∀ f g : D → H, (∀ d ∈ K f, g d = f d) → K g = K f) (f f' : D → H) :
    K (reset (K f) f f') = K f := hK f _ (fun d hd => by simp [reset, hd])

/-- exchanging the two oracles outside the known part -/
def exchange {K : (D → H) → List D} (hK : ∀ f g : D → H, (∀ d ∈ K f, g d = f d) → K g = K f) :
    Equiv.Perm ((D → H) × (D → H)) :=
  Function.Involutive.toPerm (fun p => (reset (K p.1) p.1 p.2, reset (K p.1) p.2 p.1)) (by
    rintro ⟨f, f'⟩
    simp only [reset_eq hK]
    ext d <;> simp only [reset] <;> split <;> rfl)

theorem second_moment {K : (D → H) → List D} (hK : ∀ f g : D → H, (∀ d ∈ K f, g d = f d) → K g = K f)
    (A : (D → H) → Prop) [DecidablePred A] :
    ((Finset.univ.filter A).card : ℚ) ^ 2 ≤
      ((Finset.univ.filter (fun p : (D → H) × (D → H) => A p.1 ∧ A (reset (K p.1) p.1 p.2))).card : ℚ) := by
  classical
  set N : ℚ := (Fintype.card (D → H) : ℚ) with hN
  let a : (D → H) → ℚ := fun f => if A f then 1 else 0
  let m : (D → H) → ℚ := fun f => ∑ f', a (reset (K f) f f')
  have hreset : ∀ f f' f'' : D → H, reset (K (reset (K f) f f')) (reset (K f) f f') f'' = reset (K f) f f'' := by
    intro f f' f''
    rw [reset_eq hK]
    ext d; simp only [reset]; split <;> rfl
  have hm : ∀ f f' : D → H, m (reset (K f) f f') = m f := fun f f' => by simp only [m, hreset]
  have hA : ((Finset.univ.filter A).card : ℚ) = ∑ f, a f := by simp [a]
  have hP : ((Finset.univ.filter (fun p : (D → H) × (D → H) => A p.1 ∧ A (reset (K p.1) p.1 p.2))).card : ℚ) = ∑ f, a f * m f := by
    rw [← Finset.sum_boole, Fintype.sum_prod_type]
    refine Finset.sum_congr rfl fun f _ => ?_
    simp only [m, Finset.mul_sum]
    refine Finset.sum_congr rfl fun f' _ => ?_
    simp only [a]
    by_cases h1 : A f <;> by_cases h2 : A (reset (K f) f f') <;> simp [h1, h2]
  have swap : ∀ φ : (D → H) → ℚ, N * ∑ f, φ f = ∑ f, ∑ f', φ (reset (K f) f f') := by
    intro φ
    have h1 : ∑ p : (D → H) × (D → H), φ p.1 = N * ∑ f, φ f := by
      rw [Fintype.sum_prod_type]
      simp [Finset.mul_sum, hN]
    rw [← h1, ← Equiv.sum_comp (exchange hK), Fintype.sum_prod_type]
    rfl
  have e1 : N * ∑ f, a f = ∑ f, m f := swap a
  have e2 : N * ∑ f, a f * m f = ∑ f, m f ^ 2 := by
    rw [swap]
    refine Finset.sum_congr rfl fun f _ => ?_
    simp only [hm, ← Finset.sum_mul, sq]
    rfl
  have cs : (∑ f, m f) ^ 2 ≤ N * ∑ f, m f ^ 2 := by
    have := sq_sum_le_card_mul_sum_sq (s := (Finset.univ : Finset (D → H))) (f := m)
    simpa [hN] using this
  rw [hA, hP]
  rw [← e1, ← e2] at cs
  rcases eq_or_ne N 0 with h0 | h0
  · have : IsEmpty (D → H) := by
      rw [hN, Nat.cast_eq_zero] at h0
      exact Fintype.card_eq_zero_iff.1 h0
    simp
  · have hpos : 0 < N ^ 2 := by positivity
    have : N ^ 2 * (∑ f, a f) ^ 2 ≤ N ^ 2 * ∑ f, a f * m f := by nlinarith
    exact le_of_mul_le_mul_left this hpos

/-! ## Questions -/

/-- the questions of the prover and the verifier -/
def questions (str : O → D) (A : Prover D H O) (f : D → H) : List D := A.asked f ++ [str (A.run f)]

/-- oracles that agree on the first `j` questions lead to the same `j + 1` first questions -/
theorem prefix_eq (str : O → D) (f g : D → H) : ∀ (A : Prover D H O) (j : Nat),
    (∀ d ∈ (questions str A f).take j, g d = f d) → (questions str A g).take (j + 1) = (questions str A f).take (j + 1)
  | .out o, j, _ => rfl
  | .ask d next, 0, _ => rfl
  | .ask d next, j + 1, h => by
    have hd : g d = f d := h d (by simp [questions, Prover.asked])
    have ih := prefix_eq str f g (next (f d)) j (fun d' hd' => h d' (by
      simp only [questions, Prover.asked, Prover.run, List.cons_append, List.take_succ_cons, List.mem_cons]
      exact Or.inr hd'))
    simp only [questions, Prover.asked, Prover.run, List.cons_append, List.take_succ_cons, hd] at ih ⊢
    rw [ih]

theorem asked_length (f : D → H) : ∀ (q : Nat) (A : Prover D H O), A.AtMost q → (A.asked f).length ≤ q
  | _, .out _, _ => Nat.zero_le _
  | 0, .ask _ _, h => h.elim
  | q + 1, .ask d next, h => by
    simp only [Prover.asked, List.length_cons]
    have := asked_length f q (next (f d)) (h (f d))
    omega

/-- the number of questions before the verifier's one -/
def index (str : O → D) (A : Prover D H O) (f : D → H) : Nat := ((A.asked f).takeWhile (fun d => d ≠ str (A.run f))).length

theorem index_lt (str : O → D) (A : Prover D H O) (f : D → H) {q : Nat} (h : A.AtMost q) : index str A f < q + 1 := by
  have h1 := asked_length f q A h
  have h2 : index str A f ≤ (A.asked f).length := (List.takeWhile_prefix _).length_le
  omega

theorem takeWhile_append_stop (x : D) (l : List D) : (l ++ [x]).takeWhile (fun d => d ≠ x) = l.takeWhile (fun d => d ≠ x) := by
  induction l with
  | nil => simp
  | cons a l ih =>
    by_cases h : a = x
    · simp [h]
    · simp only [List.cons_append, List.takeWhile_cons]
      simp only [h, ne_eq, not_false_eq_true, decide_true, if_true]
      rw [← ih]

theorem takeWhile_take (p : D → Bool) (l : List D) : l.takeWhile p = l.take (l.takeWhile p).length :=
  (List.prefix_iff_eq_take.1 (List.takeWhile_prefix p))

theorem next_is (x : D) (l : List D) : (l ++ [x])[(l.takeWhile (fun d => d ≠ x)).length]? = some x := by
  induction l with
  | nil => simp
  | cons a l ih =>
    by_cases h : a = x
    · simp [h]
    · simp only [List.takeWhile_cons, h, ne_eq, not_false_eq_true, decide_true, if_true, List.length_cons, List.cons_append,
        List.getElem?_cons_succ]
      exact ih

theorem takeWhile_not (x : D) (l : List D) : x ∉ l.takeWhile (fun d => d ≠ x) := by
  induction l with
  | nil => simp
  | cons a l ih =>
    by_cases h : a = x
    · simp [h]
    · simp only [List.takeWhile_cons, h, ne_eq, not_false_eq_true, decide_true, if_true, List.mem_cons, not_or]
      exact ⟨fun e => h e.symm, ih⟩

/-- the questions before the verifier's one are the first ones -/
theorem before_eq (str : O → D) (A : Prover D H O) (f : D → H) :
    (A.asked f).takeWhile (fun d => d ≠ str (A.run f)) = (questions str A f).take (index str A f) := by
  have h1 : (questions str A f).takeWhile (fun d => d ≠ str (A.run f)) = (A.asked f).takeWhile (fun d => d ≠ str (A.run f)) :=
    takeWhile_append_stop _ _
  have h2 := takeWhile_take (fun d => d ≠ str (A.run f)) (questions str A f)
  rw [h1] at h2
  exact h2

theorem question_at (str : O → D) (A : Prover D H O) (f : D → H) : (questions str A f)[index str A f]? = some (str (A.run f)) :=
  next_is _ _

/-- the same place in both runs means the same question -/
theorem same_question (str : O → D) (A : Prover D H O) (f f' : D → H)
    (h : index str A (second str A f f') = index str A f) : str (A.run f) = str (A.run (second str A f f')) := by
  have h1 := question_at str A f
  have h2 := question_at str A (second str A f f')
  have h3 := prefix_eq str f (second str A f f') A (index str A f) (fun d hd => by
    rw [← before_eq] at hd
    simp only [second, reset, hd, if_true])
  rw [h] at h2
  have h4 : ∀ l : List D, l[index str A f]? = (l.take (index str A f + 1))[index str A f]? := fun l => by
    rw [List.getElem?_take_of_lt (Nat.lt_succ_self _)]
  rw [h4, h3, ← h4, h1] at h2
  exact Option.some.inj h2

/-- the verifier's question was not among those before it -/
theorem not_before (str : O → D) (A : Prover D H O) (f f' : D → H) : second str A f f' (str (A.run f)) = f' (str (A.run f)) := by
  simp only [second, reset]
  rw [if_neg]
  intro h
  exact takeWhile_not _ _ h

/-! ## The bound -/

variable [Fintype R]

theorem finish {acc r N Q Hc FK SM : ℚ} (hr : 0 < r) (hN : 0 < N) (hQ : 0 < Q) (hacc : 0 ≤ acc) (hH : 0 ≤ Hc) (hF : 0 ≤ FK)
    (h1 : acc ^ 2 ≤ r * Q * (FK + SM)) (h2 : SM * Hc = acc * N) :
    (acc / (r * N)) ^ 2 / Q - acc / (r * N) / Hc ≤ FK / (r * N ^ 2) := by
  rcases eq_or_ne Hc 0 with hH0 | hH0
  · have hacc1 : acc = 0 := by
      rw [hH0, mul_zero] at h2
      exact (mul_eq_zero.1 h2.symm).resolve_right hN.ne'
    rw [hacc1]
    simp only [zero_div, ne_eq, OfNat.ofNat_ne_zero, not_false_eq_true, zero_pow, sub_zero]
    positivity
  have hSM : SM = acc * N / Hc := by rw [← h2]; field_simp
  have h3 : acc ^ 2 / (r * Q) ≤ FK + SM := by
    rw [div_le_iff₀ (by positivity)]
    linarith
  rw [hSM] at h3
  have e1 : (acc / (r * N)) ^ 2 / Q - acc / (r * N) / Hc = (acc ^ 2 / (r * Q) - acc * N / Hc) / (r * N ^ 2) := by
    field_simp
  rw [e1]
  exact div_le_div_of_nonneg_right (by linarith) (by positivity)

/-- **C198** The prover is accepted with probability `ε` and asks at most `q` questions: the two runs fork with probability at least
`ε² / (q + 1) - ε / |H|`. -/
theorem forking (str : O → D) (win : O → H → Prop) (A : R → Prover D H O) (q : Nat) (hq : ∀ ρ, (A ρ).AtMost q) :
    let ε := pr fun ω : R × (D → H) => win ((A ω.1).run ω.2) (ω.2 (str ((A ω.1).run ω.2)))
    ε ^ 2 / (q + 1) - ε / Fintype.card H ≤
      pr fun ω : R × (D → H) × (D → H) => Forks str win (A ω.1) ω.2.1 ω.2.2 := by
  classical
  intro ε
  set N : ℚ := (Fintype.card (D → H) : ℚ) with hN
  set r : ℚ := (Fintype.card R : ℚ) with hr
  let wins : R → (D → H) → Prop := fun ρ f => win ((A ρ).run f) (f (str ((A ρ).run f)))
  let at' : R → Fin (q + 1) → (D → H) → Prop := fun ρ j f => wins ρ f ∧ index str (A ρ) f = j
  -- successes
  have hsum : ∀ ρ, ((Finset.univ.filter (wins ρ)).card : ℚ) = ∑ j : Fin (q + 1), ((Finset.univ.filter (at' ρ j)).card : ℚ) := by
    intro ρ
    rw [← Nat.cast_sum]
    congr 1
    rw [Finset.card_eq_sum_card_fiberwise (f := fun f => (⟨index str (A ρ) f, index_lt str (A ρ) f (hq ρ)⟩ : Fin (q + 1))) (t := Finset.univ)
      (fun _ _ => Finset.mem_coe.2 (Finset.mem_univ _))]
    refine Finset.sum_congr rfl fun j _ => ?_
    congr 1
    ext f
    simp only [Finset.mem_filter, Finset.mem_univ, true_and, at', Fin.ext_iff]
  set acc : ℚ := ∑ ρ, ((Finset.univ.filter (wins ρ)).card : ℚ) with hacc
  have hε : ε = acc / (r * N) := by
    simp only [ε, pr, Fintype.card_prod, Nat.cast_mul]
    rw [hacc, hr, hN]
    congr 1
    · rw [← Finset.sum_boole, Fintype.sum_prod_type]
      refine Finset.sum_congr rfl fun ρ _ => ?_
      rw [Finset.sum_boole]
    
  -- pairs
  let pairs : R → Fin (q + 1) → ((D → H) × (D → H)) → Prop := fun ρ j p =>
    at' ρ j p.1 ∧ at' ρ j (reset ((questions str (A ρ) p.1).take j) p.1 p.2)
  have hmom : ∀ ρ j, ((Finset.univ.filter (at' ρ j)).card : ℚ) ^ 2 ≤ ((Finset.univ.filter (pairs ρ j)).card : ℚ) := fun ρ j =>
    second_moment (K := fun f => (questions str (A ρ) f).take j) (fun f g h => by
      have := congrArg (List.take j) (prefix_eq str f g (A ρ) j h)
      simpa [List.take_take] using this) (at' ρ j)
  have hsec : ∀ (ρ : R) (j : Fin (q + 1)) (p : (D → H) × (D → H)), at' ρ j p.1 → reset ((questions str (A ρ) p.1).take j) p.1 p.2 = second str (A ρ) p.1 p.2 := by
    intro ρ j p h
    rw [second, before_eq, h.2]
  let same : R → ((D → H) × (D → H)) → Prop := fun ρ p => wins ρ p.1 ∧ p.1 (str ((A ρ).run p.1)) = p.2 (str ((A ρ).run p.1))
  let fork : R → ((D → H) × (D → H)) → Prop := fun ρ p => Forks str win (A ρ) p.1 p.2
  have hcover : ∀ ρ, ∑ j : Fin (q + 1), ((Finset.univ.filter (pairs ρ j)).card : ℚ) ≤
      ((Finset.univ.filter (fork ρ)).card : ℚ) + ((Finset.univ.filter (same ρ)).card : ℚ) := by
    intro ρ
    rw [← Nat.cast_sum, ← Nat.cast_add, Nat.cast_le, ← Finset.card_biUnion]
    · refine le_trans (Finset.card_le_card ?_) (Finset.card_union_le _ _)
      intro p hp
      simp only [Finset.mem_biUnion, Finset.mem_univ, true_and, Finset.mem_filter, Finset.mem_union] at hp ⊢
      obtain ⟨j, h1, h2⟩ := hp
      rw [hsec ρ j p h1] at h2
      by_cases hs : p.1 (str ((A ρ).run p.1)) = p.2 (str ((A ρ).run p.1))
      · exact Or.inr ⟨h1.1, hs⟩
      · have hx := same_question str (A ρ) p.1 p.2 (h2.2.trans h1.2.symm)
        exact Or.inl ⟨h1.1, h2.1, hx, by rw [← hx, not_before]; exact hs⟩
    · intro i _ j _ hij
      rw [Function.onFun, Finset.disjoint_left]
      intro p hp hp'
      simp only [Finset.mem_filter, Finset.mem_univ, true_and] at hp hp'
      exact hij (Fin.ext (hp.1.2.symm.trans hp'.1.2))
  have hsame : ∀ ρ, ((Finset.univ.filter (same ρ)).card : ℚ) * Fintype.card H = ((Finset.univ.filter (wins ρ)).card : ℚ) * N := by
    intro ρ
    have h1 : ((Finset.univ.filter (same ρ)).card : ℚ) = ∑ f ∈ Finset.univ.filter (wins ρ),
        ((Finset.univ.filter (fun f' : D → H => f (str ((A ρ).run f)) = f' (str ((A ρ).run f)))).card : ℚ) := by
      rw [← Finset.sum_boole, Fintype.sum_prod_type, Finset.sum_filter]
      refine Finset.sum_congr rfl fun f _ => ?_
      by_cases hw : wins ρ f
      · rw [if_pos hw, ← Finset.sum_boole]
        exact Finset.sum_congr rfl fun f' _ => by simp only [same, hw, true_and]
      · rw [if_neg hw]
        exact Finset.sum_eq_zero fun f' _ => if_neg (fun h => hw h.1)
    rw [h1, Finset.sum_mul]
    rw [Finset.sum_congr rfl (g := fun _ => N) (fun f _ => ?_), Finset.sum_const, nsmul_eq_mul]
    -- functions with one value fixed
    set x := str ((A ρ).run f)
    have h2 : ∀ c : H, (Finset.univ.filter (fun f' : D → H => c = f' x)).card =
        (Finset.univ.filter (fun f' : D → H => f x = f' x)).card := by
      intro c
      refine Finset.card_bij' (fun f' _ => Function.update f' x (f x)) (fun f' _ => Function.update f' x c) ?_ ?_ ?_ ?_
      · intro f' _; simp
      · intro f' _; simp
      · intro f' hf'
        simp only [Finset.mem_filter, Finset.mem_univ, true_and] at hf'
        simp [hf']
      · intro f' hf'
        simp only [Finset.mem_filter, Finset.mem_univ, true_and] at hf'
        simp [hf']
    have h3 : Fintype.card (D → H) = ∑ c : H, (Finset.univ.filter (fun f' : D → H => c = f' x)).card := by
      rw [← Finset.card_univ, Finset.card_eq_sum_card_fiberwise (f := fun f' : D → H => f' x) (t := Finset.univ) (fun _ _ => Finset.mem_coe.2 (Finset.mem_univ _))]
      refine Finset.sum_congr rfl fun c _ => ?_
      congr 1; ext f'; simp [eq_comm]
    rw [hN, h3, Finset.sum_congr rfl (fun c _ => h2 c), Finset.sum_const, Finset.card_univ, smul_eq_mul, Nat.cast_mul, mul_comm]
  -- put together
  have hfork : (pr fun ω : R × (D → H) × (D → H) => Forks str win (A ω.1) ω.2.1 ω.2.2) =
      (∑ ρ, ((Finset.univ.filter (fork ρ)).card : ℚ)) / (r * N ^ 2) := by
    simp only [pr, Fintype.card_prod, Nat.cast_mul]
    rw [hr, hN, sq]
    congr 1
    rw [← Finset.sum_boole, Fintype.sum_prod_type]
    refine Finset.sum_congr rfl fun ρ _ => ?_
    rw [Finset.sum_boole]
  rw [hfork, hε]
  rcases eq_or_ne (r * N) 0 with h0 | h0
  · have : (r * N ^ 2) = 0 := by rw [sq, ← mul_assoc, h0, zero_mul]
    rw [h0, this]; simp
  have hr0 : r ≠ 0 := left_ne_zero_of_mul h0
  have hN0 : N ≠ 0 := right_ne_zero_of_mul h0
  have hrp : 0 < r := lt_of_le_of_ne (Nat.cast_nonneg _) hr0.symm
  have hNp : 0 < N := lt_of_le_of_ne (Nat.cast_nonneg _) hN0.symm
  have hqp : (0 : ℚ) < q + 1 := by positivity
  set Hc : ℚ := (Fintype.card H : ℚ) with hHc
  have hcs : acc ^ 2 ≤ r * (q + 1) * ∑ ρ, ∑ j : Fin (q + 1), ((Finset.univ.filter (at' ρ j)).card : ℚ) ^ 2 := by
    rw [hacc]
    simp only [hsum]
    rw [← Fintype.sum_prod_type (fun p : R × Fin (q + 1) => ((Finset.univ.filter (at' p.1 p.2)).card : ℚ)),
      ← Fintype.sum_prod_type (fun p : R × Fin (q + 1) => ((Finset.univ.filter (at' p.1 p.2)).card : ℚ) ^ 2)]
    have := sq_sum_le_card_mul_sum_sq (s := (Finset.univ : Finset (R × Fin (q + 1))))
      (f := fun p => ((Finset.univ.filter (at' p.1 p.2)).card : ℚ))
    simpa [hr] using this
  have hall : ∑ ρ, ∑ j : Fin (q + 1), ((Finset.univ.filter (at' ρ j)).card : ℚ) ^ 2 ≤
      ∑ ρ, ((Finset.univ.filter (fork ρ)).card : ℚ) + ∑ ρ, ((Finset.univ.filter (same ρ)).card : ℚ) := by
    rw [← Finset.sum_add_distrib]
    exact Finset.sum_le_sum fun ρ _ => le_trans (Finset.sum_le_sum fun j _ => hmom ρ j) (hcover ρ)
  have hsameall : (∑ ρ, ((Finset.univ.filter (same ρ)).card : ℚ)) * Hc = acc * N := by
    rw [hacc, Finset.sum_mul, Finset.sum_mul]
    exact Finset.sum_congr rfl fun ρ _ => hsame ρ
  have hacc0 : 0 ≤ acc := Finset.sum_nonneg fun ρ _ => Nat.cast_nonneg _
  set FK := ∑ ρ, ((Finset.univ.filter (fork ρ)).card : ℚ)
  set SM := ∑ ρ, ((Finset.univ.filter (same ρ)).card : ℚ)
  exact finish hrp hNp hqp hacc0 (Nat.cast_nonneg _) (Finset.sum_nonneg fun ρ _ => Nat.cast_nonneg _) (hcs.trans (mul_le_mul_of_nonneg_left hall (by positivity))) hsameall

end
end Verif.Forking
