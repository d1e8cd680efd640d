import Verif.Sharing.Model
import Mathlib.LinearAlgebra.Lagrange
import Mathlib.Algebra.BigOperators.Module
import Mathlib.Tactic.FieldSimp
import Mathlib.Tactic.Module
import Mathlib.Data.List.GetD
set_option linter.unusedSectionVars false
/-!
# Helper lemmas for the sharing crate
-/
namespace Verif.Sharing
open Polynomial Finset

variable {F : Type} [Field F] [DecidableEq F]
variable {R : Type} [AddCommGroup R] [Module F R] [DecidableEq R]

/-- Value at `x` of the polynomial with coefficient list `cs` (lowest first), coefficients in a module:
`cs[0] + x • cs[1] + x^2 • cs[2] + …`. -/
def mPolyVal (cs : List R) (x : F) : R := ∑ k ∈ range cs.length, x ^ k • cs.getD k 0

theorem mPolyVal_nil (x : F) : mPolyVal ([] : List R) x = 0 := by simp [mPolyVal]

theorem mPolyVal_cons (a : R) (as : List R) (x : F) :
    mPolyVal (a :: as) x = a + x • mPolyVal as x := by
  unfold mPolyVal
  rw [List.length_cons, sum_range_succ', smul_sum, add_comm]
  congr 1
  · simp
  · refine sum_congr rfl fun k _ => ?_
    rw [List.getD_cons_succ, smul_smul, pow_succ, mul_comm]

theorem evaluate_eq (cs : List F) (x : F) : evaluate cs x = mPolyVal cs x := by
  unfold evaluate
  rcases List.eq_nil_or_concat cs with h | ⟨l, top, h⟩
  · subst h; simp [mPolyVal]
  · subst h
    simp only [List.concat_eq_append, List.reverse_append, List.reverse_cons, List.reverse_nil, List.nil_append,
      List.singleton_append, List.foldl_reverse]
    induction l with
    | nil => simp [mPolyVal_cons, mPolyVal_nil]
    | cons a l ih =>
      rw [List.cons_append, mPolyVal_cons, ← ih]
      simp only [List.foldr_cons, smul_eq_mul]; ring

theorem foldl_range_add (n : Nat) (f : Nat → R) (z : R) :
    (List.range n).foldl (fun r i => r + f i) z = z + ∑ i ∈ range n, f i := by
  induction n with
  | zero => simp
  | succ n ih => rw [List.range_succ, List.foldl_append, ih, sum_range_succ]; simp [add_assoc]

theorem interpolate_eq (xs : List F) (ys : List R) :
    interpolate xs ys = ∑ i ∈ range xs.length, basisAt xs i • ys.getD i 0 := by
  unfold interpolate
  rw [foldl_range_add (f := fun i => basisAt xs i • ys.getD i 0), zero_add]

theorem basisAt_eq (xs : List F) (i : Nat) :
    basisAt xs i = ∏ j ∈ (range xs.length).erase i, (xs.getD j 0 / (xs.getD j 0 - xs.getD i 0)) := by
  have key : ∀ n : Nat, ∀ z : F, (List.range n).foldl
      (fun basis j => if i = j then basis else basis * (xs.getD j 0 / (xs.getD j 0 - xs.getD i 0))) z
      = z * ∏ j ∈ (range n).erase i, (xs.getD j 0 / (xs.getD j 0 - xs.getD i 0)) := by
    intro n
    induction n with
    | zero => simp
    | succ n ih =>
      intro z
      rw [List.range_succ, List.foldl_append, ih]
      by_cases h : i = n
      · subst h
        simp only [List.foldl_cons, List.foldl_nil, if_true]
        congr 1
        refine prod_congr ?_ fun _ _ => rfl
        ext j; simp only [mem_erase, mem_range]; omega
      · simp only [List.foldl_cons, List.foldl_nil, if_neg h]
        rw [mul_assoc]
        congr 1
        have : (range (n+1)).erase i = insert n ((range n).erase i) := by
          ext j; simp only [mem_erase, mem_range, mem_insert]; omega
        rw [this, prod_insert (by simp), mul_comm]
  have := key xs.length 1
  rw [one_mul] at this
  exact this

/-- The Lagrange weights at zero reproduce `p(0)` for every polynomial of degree below the number of nodes. -/
theorem weights_eval (xs : List F) (hx : xs.Nodup) (p : F[X]) (hp : p.degree < xs.length) :
    ∑ i ∈ range xs.length, basisAt xs i * p.eval (xs.getD i 0) = p.eval 0 := by
  classical
  have hinj : Set.InjOn (fun i => xs.getD i 0) (range xs.length : Set ℕ) := by
    intro a ha b hb hab
    simp only [coe_range, Set.mem_Iio] at ha hb
    simp only [List.getD_eq_getElem _ _ ha, List.getD_eq_getElem _ _ hb] at hab
    exact (List.Nodup.getElem_inj_iff hx).1 hab
  have h := Lagrange.eq_interpolate (s := range xs.length) (v := fun i => xs.getD i 0) (f := p) hinj
    (by simpa using hp)
  have h0 := congrArg (Polynomial.eval 0) h
  rw [h0, Lagrange.interpolate_apply, eval_finsetSum]
  refine sum_congr rfl fun i hi => ?_
  rw [eval_mul, eval_C, mul_comm, basisAt_eq, Lagrange.basis, eval_prod]
  congr 1
  refine prod_congr rfl fun j hj => ?_
  have hne : xs.getD j 0 - xs.getD i 0 ≠ 0 := by
    intro hz
    have := hinj (mem_of_mem_erase hj) hi (sub_eq_zero.1 hz)
    exact (ne_of_mem_erase hj) this
  have hne' : xs.getD i 0 - xs.getD j 0 ≠ 0 := by
    intro hz; apply hne; rw [sub_eq_zero] at hz ⊢; exact hz.symm
  simp only [Lagrange.basisDivisor, eval_mul, eval_C, eval_sub, eval_X]
  field_simp
  ring

/-- Interpolating at zero the values of a module-valued polynomial with at most as many coefficients as
nodes returns its constant coefficient. -/
theorem interpolate_polyVal (xs : List F) (hx : xs.Nodup) (c0 : R) (cs : List R)
    (hlen : (c0 :: cs).length ≤ xs.length) :
    interpolate xs (xs.map (mPolyVal (c0 :: cs))) = c0 := by
  rw [interpolate_eq]
  have : ∀ i ∈ range xs.length, basisAt xs i • (xs.map (mPolyVal (c0 :: cs))).getD i 0
      = ∑ k ∈ range (c0 :: cs).length, (basisAt xs i * (xs.getD i 0) ^ k) • (c0 :: cs).getD k 0 := by
    intro i hi
    rw [mem_range] at hi
    rw [List.getD_eq_getElem _ _ (by simpa using hi), List.getElem_map, mPolyVal, smul_sum,
      List.getD_eq_getElem _ _ hi]
    refine sum_congr rfl fun k _ => ?_
    rw [smul_smul]
  rw [sum_congr rfl this, sum_comm]
  have hk : ∀ k ∈ range (c0 :: cs).length,
      ∑ i ∈ range xs.length, (basisAt xs i * (xs.getD i 0) ^ k) • (c0 :: cs).getD k 0
      = (if k = 0 then (1:F) else 0) • (c0 :: cs).getD k 0 := by
    intro k hk
    rw [mem_range] at hk
    rw [← sum_smul]
    congr 1
    have := weights_eval xs hx (X ^ k) (by
      rw [degree_X_pow]; exact_mod_cast lt_of_lt_of_le hk hlen)
    simp only [eval_pow, eval_X] at this
    rw [this]
    by_cases h0 : k = 0 <;> simp [h0]
  rw [sum_congr rfl hk]
  simp only [ite_smul, one_smul, zero_smul]
  rw [sum_ite_eq' (range (c0 :: cs).length) 0]
  simp

/-! ### combine_shares -/

/-- The conditions under which a share passes the checks of `combine_shares`, given the identifiers before it. -/
def GoodShare (cR : Codec R) (s : Share) : Prop :=
  s.identifier ≠ 0 ∧ ∃ y, cR.dec s.value = some y ∧ y ≠ 0

/-- decoded y-coordinate -/
def yOf (cR : Codec R) (s : Share) : R := (cR.dec s.value).getD 0

theorem collectShares_append (cR : Codec R) (pre post : List Share) (dups : List Nat) (xs : List F)
    (ys : List R) (hgood : ∀ s ∈ pre, GoodShare cR s)
    (hnd : (pre.map Share.identifier).Nodup) (hdisj : ∀ s ∈ pre, s.identifier ∉ dups) :
    collectShares F cR (pre ++ post) dups xs ys =
    collectShares F cR post ((pre.map Share.identifier).reverse ++ dups)
      (xs ++ pre.map (fun s => (s.identifier : F))) (ys ++ pre.map (yOf cR)) := by
  induction pre generalizing dups xs ys with
  | nil => simp
  | cons s pre ih =>
    obtain ⟨hid, y, hy, hy0⟩ := hgood s (by simp)
    have hnd' := List.nodup_cons.1 (List.map_cons ▸ hnd)
    rw [List.cons_append, collectShares, if_neg hid, if_neg (hdisj s (by simp))]
    simp only [hy, Res.ofOption_some, Res.ok_bind, if_neg hy0]
    rw [ih _ _ _ (fun t ht => hgood t (by simp [ht])) hnd'.2]
    · simp [yOf, hy]
    · intro t ht
      simp only [List.mem_cons, not_or]
      refine ⟨?_, hdisj t (by simp [ht])⟩
      intro he
      exact hnd'.1 (he ▸ List.mem_map_of_mem ht)

theorem collectShares_good (cR : Codec R) (shares : List Share)
    (hgood : ∀ s ∈ shares, GoodShare cR s) (hnd : (shares.map Share.identifier).Nodup) :
    collectShares F cR shares [] [] [] =
      .ok (shares.map (fun s => (s.identifier : F)), shares.map (yOf cR)) := by
  have := collectShares_append (F := F) cR shares [] [] [] [] hgood hnd (by simp)
  simpa [collectShares] using this

theorem collectShares_ok_imp (cR : Codec R) (shares : List Share) (dups : List Nat) (xs : List F)
    (ys : List R) (r) (h : collectShares F cR shares dups xs ys = .ok r) :
    (∀ s ∈ shares, GoodShare cR s) ∧ (shares.map Share.identifier).Nodup ∧
      ∀ s ∈ shares, s.identifier ∉ dups := by
  induction shares generalizing dups xs ys with
  | nil => simp
  | cons s rest ih =>
    rw [collectShares] at h
    split at h
    · simp at h
    split at h
    · simp at h
    rename_i h0 hd
    cases hdec : cR.dec s.value with
    | none => simp [hdec] at h
    | some y =>
      simp only [hdec, Res.ofOption_some, Res.ok_bind] at h
      split at h
      · simp at h
      rename_i hy
      obtain ⟨h1, h2, h3⟩ := ih _ _ _ h
      refine ⟨?_, ?_, ?_⟩
      · intro t ht
        rcases List.mem_cons.1 ht with rfl | ht
        · exact ⟨h0, y, hdec, hy⟩
        · exact h1 t ht
      · rw [List.map_cons, List.nodup_cons]
        refine ⟨?_, h2⟩
        intro hm
        obtain ⟨t, ht, hte⟩ := List.mem_map.1 hm
        exact h3 t ht (by simp [hte])
      · intro t ht
        rcases List.mem_cons.1 ht with rfl | ht
        · exact hd
        · intro hin; exact h3 t ht (by simp [hin])

theorem collectShares_not_panic (cR : Codec R) (shares : List Share) (dups : List Nat) (xs : List F)
    (ys : List R) : collectShares F cR shares dups xs ys ≠ .panic := by
  induction shares generalizing dups xs ys with
  | nil => simp [collectShares]
  | cons s rest ih =>
    rw [collectShares]
    split; · simp
    split; · simp
    cases hdec : cR.dec s.value with
    | none => simp
    | some y =>
      simp only [Res.ofOption_some, Res.ok_bind]
      split; · simp
      exact ih _ _ _

theorem commitLoop_eq (x : F) (vs : List R) (i : F) (rhs : R) :
    commitLoop x vs i rhs = rhs + (i * x) • mPolyVal vs x := by
  induction vs generalizing i rhs with
  | nil => simp [commitLoop, mPolyVal_nil]
  | cons v vs ih =>
    rw [commitLoop, ih, mPolyVal_cons, smul_add, smul_smul]; abel

theorem commitLoop_start (x : F) (c0 : R) (cs : List R) :
    commitLoop x cs 1 c0 = mPolyVal (c0 :: cs) x := by
  rw [commitLoop_eq, mPolyVal_cons, one_mul]

theorem mPolyVal_map_smul (cs : List F) (g : R) (x : F) :
    mPolyVal (cs.map (fun c => c • g)) x = mPolyVal cs x • g := by
  induction cs with
  | nil => simp [mPolyVal_nil]
  | cons a as ih => rw [List.map_cons, mPolyVal_cons, mPolyVal_cons, ih, smul_smul, add_smul, smul_eq_mul]

theorem mPolyVal_eq_eval (cs : List F) (x : F) :
    mPolyVal cs x = (∑ k ∈ range cs.length, C (cs.getD k 0) * X ^ k).eval x := by
  rw [eval_finsetSum, mPolyVal]
  refine sum_congr rfl fun k _ => ?_
  rw [eval_mul, eval_C, eval_pow, eval_X, smul_eq_mul, mul_comm]

/-- A list-coded polynomial with at least as many distinct roots as coefficients vanishes identically. -/
theorem coeffs_zero_of_roots (cs : List F) (s : Finset F) (hs : cs.length ≤ s.card)
    (hz : ∀ x ∈ s, mPolyVal cs x = 0) : ∀ k, cs.getD k 0 = 0 := by
  classical
  set p : F[X] := ∑ k ∈ range cs.length, C (cs.getD k 0) * X ^ k with hp
  have hcoeff : ∀ k, p.coeff k = cs.getD k 0 := by
    intro k
    rw [hp, finsetSum_coeff]
    simp only [coeff_C_mul, coeff_X_pow, mul_ite, mul_one, mul_zero]
    rw [sum_ite_eq (range cs.length) k]
    by_cases hk : k < cs.length
    · simp [hk]
    · simp [hk]
  have hp0 : p = 0 := by
    refine Polynomial.eq_zero_of_degree_lt_of_eval_finset_eq_zero s ?_ ?_
    · refine lt_of_lt_of_le ?_ (by exact_mod_cast hs : ((cs.length : ℕ) : WithBot ℕ) ≤ s.card)
      rw [Polynomial.degree_lt_iff_coeff_zero]
      intro m hm
      rw [hcoeff]
      exact List.getD_eq_default _ _ hm
    · intro x hx
      rw [← mPolyVal_eq_eval]; exact hz x hx
  intro k
  rw [← hcoeff, hp0, coeff_zero]

end Verif.Sharing
