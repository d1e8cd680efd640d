import Verif.Sharing.Lemmas
import Verif.Toy
import Mathlib.Tactic.LinearCombination
import Mathlib.Tactic.IntervalCases
/-!
# Properties of the `ursa_sharing` crate (C01 – C09)
-/
set_option linter.unusedSectionVars false
namespace Verif.Sharing
open Finset

variable {F : Type} [Field F] [DecidableEq F]
variable {R : Type} [AddCommGroup R] [Module F R] [DecidableEq R]

/-- `S::from_usize` separates the numbers `0..n` (true of every field with more than `n` elements whose
`from_usize` is the canonical map, such as the scalar fields of all supported curves). -/
def Separates (F : Type) [Field F] (n : Nat) : Prop :=
  ∀ i j : Nat, i ≤ n → j ≤ n → (i : F) = (j : F) → i = j

/-! ### C01 reconstruction -/

/-- core of the reconstruction theorems: any shares lying on a module-valued polynomial -/
theorem combine_on_poly {sch : Scheme} {n : Nat} (hsep : Separates F n) (cR : Codec R) (c0 : R) (cs : List R)
    (q : List Share) (hlen : (c0 :: cs).length ≤ q.length) (ht : sch.threshold ≤ q.length)
    (hids : (q.map Share.identifier).Nodup) (hrange : ∀ s ∈ q, s.identifier ≠ 0 ∧ s.identifier ≤ n)
    (hval : ∀ s ∈ q, cR.dec s.value = some (mPolyVal (c0 :: cs) (s.identifier : F))) :
    combineShares F sch cR q =
      if ∃ s ∈ q, cR.dec s.value = some 0 then .err .ShareInvalidValue else .ok c0 := by
  unfold combineShares
  rw [if_neg (not_lt.2 ht)]
  split
  · rename_i hz
    -- the first zero-valued share is reported
    have : ∀ (l : List Share), (∃ s ∈ l, cR.dec s.value = some 0) →
        ∃ pre s post, l = pre ++ s :: post ∧ cR.dec s.value = some 0 ∧
          ∀ u ∈ pre, cR.dec u.value ≠ some 0 := by
      intro l
      induction l with
      | nil => rintro ⟨s, hs, _⟩; simp at hs
      | cons a l ih =>
        rintro ⟨s, hs, h0⟩
        by_cases ha : cR.dec a.value = some 0
        · exact ⟨[], a, l, by simp, ha, by simp⟩
        · rcases List.mem_cons.1 hs with rfl | hs
          · exact absurd h0 ha
          · obtain ⟨pre, u, post, he, hu, hp⟩ := ih ⟨s, hs, h0⟩
            refine ⟨a :: pre, u, post, by simp [he], hu, ?_⟩
            intro w hw
            rcases List.mem_cons.1 hw with rfl | hw
            · exact ha
            · exact hp w hw
    obtain ⟨pre, s, post, rfl, hs0, hpre⟩ := this q hz
    have hnd := hids
    rw [List.map_append, List.map_cons, List.nodup_append] at hnd
    have hcol : collectShares F cR (pre ++ s :: post) [] [] [] = .err .ShareInvalidValue := by
      rw [collectShares_append]
      · rw [collectShares, if_neg (hrange s (by simp)).1, if_neg]
        · simp [hs0]
        · simp only [List.append_nil, List.mem_reverse]
          intro hm
          exact hnd.2.2 _ hm _ (by simp) rfl
      · intro u hu
        refine ⟨(hrange u (by simp [hu])).1, _, hval u (by simp [hu]), ?_⟩
        intro h; exact hpre u hu (by rw [hval u (by simp [hu]), h])
      · exact hnd.1
      · simp
    rw [hcol]; rfl
  · rename_i hz
    have hgood : ∀ s ∈ q, GoodShare cR s := by
      intro s hs
      refine ⟨(hrange s hs).1, _, hval s hs, ?_⟩
      intro h; exact hz ⟨s, hs, by rw [hval s hs, h]⟩
    rw [collectShares_good cR q hgood hids]
    simp only [Res.ok_bind, Res.pure_eq]
    congr 1
    have hy : q.map (yOf cR) = (q.map (fun s => (s.identifier : F))).map (mPolyVal (c0 :: cs)) := by
      rw [List.map_map]
      refine List.map_congr_left fun s hs => ?_
      simp [yOf, hval s hs]
    rw [hy]
    refine interpolate_polyVal _ ?_ _ _ (by simpa using hlen)
    have : (q.map (fun s => (s.identifier : F))) = (q.map Share.identifier).map (fun i : ℕ => (i : F)) := by
      rw [List.map_map]; rfl
    rw [this]
    refine List.Nodup.map_on ?_ hids
    intro a ha b hb hab
    obtain ⟨s, hs, rfl⟩ := List.mem_map.1 ha
    obtain ⟨u, hu, rfl⟩ := List.mem_map.1 hb
    exact hsep _ _ (hrange s hs).2 (hrange u hu).2 hab

theorem scheme_new_ok {t n : Nat} {sch : Scheme} (h : Scheme.new t n = .ok sch) :
    2 ≤ t ∧ t ≤ n ∧ sch = ⟨t, n⟩ := by
  unfold Scheme.new at h
  split at h; · simp at h
  split at h; · simp at h
  simp only [Res.ok.injEq] at h
  exact ⟨by omega, by omega, h.symm⟩

/-- facts about the members of an honest split -/
theorem split_mem {sch : Scheme} {cF : Codec F} {rng : Nat → F} {secret : F} {shares : List Share}
    (hn : sch.limit < 2 ^ 32) (h : splitSecret sch cF rng secret = .ok shares) :
    secret ≠ 0 ∧ ∀ s ∈ shares, s.identifier ≠ 0 ∧ s.identifier ≤ sch.limit ∧
      s = mkShare cF (polyNew rng secret sch.threshold) (s.identifier - 1) ∧
      cF.dec s.value = some (mPolyVal (polyNew rng secret sch.threshold) (s.identifier : F)) := by
  unfold splitSecret getSharesAndPolynomial at h
  split at h; · simp at h
  rename_i h0
  refine ⟨h0, ?_⟩
  simp only [Res.ok_bind, Res.pure_eq, Res.ok.injEq] at h
  subst h
  intro s hs
  obtain ⟨i, hi, rfl⟩ := List.mem_map.1 hs
  rw [List.mem_range] at hi
  have hid : (mkShare cF (polyNew rng secret sch.threshold) i).identifier = i + 1 := by
    simp only [mkShare]; exact Nat.mod_eq_of_lt (by omega)
  refine ⟨by omega, by omega, by rw [hid]; rfl, ?_⟩
  rw [hid, ← evaluate_eq]
  simp [mkShare, cF.dec_enc]

theorem split_ids_nodup {sch : Scheme} {cF : Codec F} {rng : Nat → F} {secret : F} {shares q : List Share}
    (hn : sch.limit < 2 ^ 32) (h : splitSecret sch cF rng secret = .ok shares) (hq : q ⊆ shares)
    (hnd : q.Nodup) : (q.map Share.identifier).Nodup := by
  refine List.Nodup.map_on ?_ hnd
  intro a ha b hb hab
  have h1 := (split_mem hn h).2 a (hq ha)
  have h2 := (split_mem hn h).2 b (hq hb)
  rw [h1.2.2.1, h2.2.2.1, hab]

/-- **C01.** Any list of at least `threshold` distinct shares of a split, in any order, reconstructs the secret,
unless one of them has the value zero, which is reported as `ShareInvalidValue`. -/
theorem shamir_any_quorum {t n : Nat} {sch : Scheme} (hnew : Scheme.new t n = .ok sch)
    (hn : n < 2 ^ 32) (hsep : Separates F n) (cF : Codec F) (rng : Nat → F) (secret : F)
    (shares : List Share) (hsplit : splitSecret sch cF rng secret = .ok shares)
    (quorum : List Share) (hsub : quorum ⊆ shares) (hnd : quorum.Nodup) (hlen : t ≤ quorum.length) :
    combineShares F sch cF quorum =
      if ∃ s ∈ quorum, cF.dec s.value = some 0 then .err .ShareInvalidValue else .ok secret := by
  obtain ⟨ht, _, rfl⟩ := scheme_new_ok hnew
  have hm := (split_mem hn hsplit).2
  refine combine_on_poly hsep cF secret ((List.range (t - 1)).map rng) quorum ?_ hlen
    (split_ids_nodup hn hsplit hsub hnd) (fun s hs => ⟨(hm s (hsub hs)).1, (hm s (hsub hs)).2.1⟩)
    (fun s hs => (hm s (hsub hs)).2.2.2)
  simp; omega

/-- **C01, in the exponent.** `combine_shares` is generic in the group: multiplying every share by a group
element `g` and combining in the group gives `secret • g` (used by threshold decryption / signing). -/
theorem shamir_any_quorum_group {t n : Nat} {sch : Scheme} (hnew : Scheme.new t n = .ok sch)
    (hn : n < 2 ^ 32) (hsep : Separates F n) (cF : Codec F) (cR : Codec R) (rng : Nat → F) (secret : F) (g : R)
    (shares : List Share) (hsplit : splitSecret sch cF rng secret = .ok shares)
    (quorum : List Share) (hsub : quorum ⊆ shares) (hnd : quorum.Nodup) (hlen : t ≤ quorum.length)
    (lifted : List Share)
    (hlift : lifted = quorum.map (fun s => ⟨s.identifier, cR.enc (((cF.dec s.value).getD 0) • g)⟩)) :
    combineShares F sch cR lifted =
      if ∃ s ∈ lifted, cR.dec s.value = some 0 then .err .ShareInvalidValue else .ok (secret • g) := by
  obtain ⟨ht, _, rfl⟩ := scheme_new_ok hnew
  have hm := (split_mem hn hsplit).2
  subst hlift
  refine combine_on_poly hsep cR (secret • g) (((List.range (t - 1)).map rng).map (fun c => c • g)) _ ?_ (by simpa)
    ?_ ?_ ?_
  · simp; omega
  · rw [List.map_map]; exact split_ids_nodup hn hsplit hsub hnd
  · intro s hs
    obtain ⟨u, hu, rfl⟩ := List.mem_map.1 hs
    exact ⟨(hm u (hsub hu)).1, (hm u (hsub hu)).2.1⟩
  · intro s hs
    obtain ⟨u, hu, rfl⟩ := List.mem_map.1 hs
    have := (hm u (hsub hu)).2.2.2
    simp only [cR.dec_enc, this, Option.getD_some]
    rw [← mPolyVal_map_smul]; rfl

section Examples
open Toy
/-- a 2-of-3 split of 5 over GF(101) with polynomial 5 + 7x: shares 12, 19, 26 -/
def exShares : List Share := [⟨1, [12]⟩, ⟨2, [19]⟩, ⟨3, [26]⟩]

theorem ex_sep : Separates (ZMod 101) 3 := by
  intro i j hi hj
  interval_cases i <;> interval_cases j <;> decide

/-- non-vacuity of C01: shares 3 and 1 (in that order) give back 5 -/
example : combineShares (ZMod 101) ⟨2, 3⟩ codec101 [⟨3, [26]⟩, ⟨1, [12]⟩] = .ok 5 := by
  have h := shamir_any_quorum (F := ZMod 101) (t := 2) (n := 3) (sch := ⟨2, 3⟩) rfl (by norm_num) ex_sep codec101
    (fun _ => 7) 5 exShares (by decide) [⟨3, [26]⟩, ⟨1, [12]⟩] (by decide) (by decide) (by decide)
  rw [h, if_neg (by decide)]

/-- the zero-share branch is reachable: 5 - 5x has the share 0 at x = 1 -/
example : combineShares (ZMod 101) ⟨2, 3⟩ codec101 [⟨1, [0]⟩, ⟨2, [96]⟩] = .err .ShareInvalidValue := by
  have h := shamir_any_quorum (F := ZMod 101) (t := 2) (n := 3) (sch := ⟨2, 3⟩) rfl (by norm_num) ex_sep codec101
    (fun _ => -5) 5 [⟨1, [0]⟩, ⟨2, [96]⟩, ⟨3, [91]⟩] (by decide) [⟨1, [0]⟩, ⟨2, [96]⟩] (by decide) (by decide)
    (by decide)
  rw [h, if_pos (by decide)]
end Examples

/-! ### C02 secrecy -/

/-- **C02.** A view of `threshold - 1` share values (at distinct non-zero points) is consistent with every
candidate secret, by exactly one choice of the random coefficients drawn by `Polynomial::new`. -/
theorem shamir_view_independent_of_secret (t : Nat) (ht : 1 ≤ t) (points : List F) (values : List F)
    (hlen : points.length = t - 1) (hvlen : values.length = t - 1) (hnd : points.Nodup)
    (hnz : (0 : F) ∉ points) (candidate : F) :
    ∃ rng : Nat → F,
      points.map (evaluate (polyNew rng candidate t)) = values ∧
      ∀ rng' : Nat → F, points.map (evaluate (polyNew rng' candidate t)) = values →
        ∀ i, i < t - 1 → rng' i = rng i := by
  classical
  -- existence: interpolate through (0, candidate) and the given points
  let nodes : List F := 0 :: points
  have hnodes : nodes.Nodup := List.nodup_cons.2 ⟨hnz, hnd⟩
  have hinj : Set.InjOn (fun i => nodes.getD i 0) (range nodes.length : Set ℕ) := by
    intro a ha b hb hab
    simp only [coe_range, Set.mem_Iio] at ha hb
    simp only [List.getD_eq_getElem _ _ ha, List.getD_eq_getElem _ _ hb] at hab
    exact (List.Nodup.getElem_inj_iff hnodes).1 hab
  let r : ℕ → F := fun i => (candidate :: values).getD i 0
  let p := Lagrange.interpolate (range nodes.length) (fun i => nodes.getD i 0) r
  have hpe : ∀ i < t, p.eval (nodes.getD i 0) = r i := by
    intro i hi
    exact Lagrange.eval_interpolate_at_node r hinj (by simp [nodes, hlen]; omega)
  have hdeg : p.degree < (t : ℕ) := by
    have := Lagrange.degree_interpolate_lt r hinj
    rw [card_range] at this
    have e : nodes.length = t := by simp [nodes, hlen]; omega
    exact lt_of_lt_of_eq this (by rw [e])
  have hnat : p.natDegree < t := by
    rcases eq_or_ne p 0 with h | h
    · rw [h, Polynomial.natDegree_zero]; omega
    · exact (Polynomial.natDegree_lt_iff_degree_lt h).2 hdeg
  have hrepr : ∀ x, evaluate (polyNew (fun i => p.coeff (i + 1)) candidate t) x = p.eval x := by
    intro x
    rw [evaluate_eq, Polynomial.eval_eq_sum_range' (n := t)
      hnat, mPolyVal]
    have el : (polyNew (fun i => p.coeff (i + 1)) candidate t).length = t := by simp [polyNew]; omega
    rw [el]
    refine sum_congr rfl fun k hk => ?_
    rw [mem_range] at hk
    rw [smul_eq_mul, mul_comm]
    congr 1
    cases k with
    | zero =>
      have h0 := hpe 0 (by omega)
      simp only [nodes, r, List.getD_cons_zero] at h0
      rw [← Polynomial.coeff_zero_eq_eval_zero] at h0
      simp [polyNew, h0]
    | succ k =>
      have : k < t - 1 := by omega
      simp [polyNew, this]
  refine ⟨fun i => p.coeff (i + 1), ?_, ?_⟩
  · refine List.ext_getElem (by simp [hlen, hvlen]) ?_
    intro i h1 h2
    rw [List.getElem_map, hrepr]
    have hi : i + 1 < t := by omega
    have := hpe (i + 1) hi
    simp only [nodes, r, List.getD_cons_succ] at this
    rw [List.getD_eq_getElem _ _ (by omega), List.getD_eq_getElem _ _ (by omega)] at this
    exact this
  · intro rng' hr' i hi
    -- difference of the two coefficient lists vanishes on the points
    set rng := fun i => p.coeff (i + 1) with hrng
    have hboth : points.map (evaluate (polyNew rng' candidate t)) =
        points.map (evaluate (polyNew rng candidate t)) := by
      rw [hr']
      refine (List.ext_getElem (by simp [hlen, hvlen]) ?_).symm
      intro i h1 h2
      rw [List.getElem_map, hrepr]
      have hi : i + 1 < t := by omega
      have := hpe (i + 1) hi
      simp only [nodes, r, List.getD_cons_succ] at this
      rw [List.getD_eq_getElem _ _ (by omega), List.getD_eq_getElem _ _ (by omega)] at this
      exact this
    have hzero := coeffs_zero_of_roots ((List.range (t - 1)).map (fun i => rng' i - rng i)) points.toFinset
      (by rw [List.toFinset_card_of_nodup hnd]; simp [hlen])
      (by
        intro x hx
        rw [List.mem_toFinset] at hx
        have hxe : evaluate (polyNew rng' candidate t) x = evaluate (polyNew rng candidate t) x :=
          (List.map_inj_left.1 hboth) x hx
        rw [evaluate_eq, evaluate_eq, polyNew, polyNew, mPolyVal_cons, mPolyVal_cons, add_right_inj] at hxe
        have hx0 : x ≠ 0 := fun h => hnz (h ▸ hx)
        have hxe' := mul_left_cancel₀ hx0 (by simpa only [smul_eq_mul] using hxe)
        have hsub : mPolyVal ((List.range (t - 1)).map (fun i => rng' i - rng i)) x =
            mPolyVal ((List.range (t - 1)).map rng') x - mPolyVal ((List.range (t - 1)).map rng) x := by
          simp only [mPolyVal, List.length_map, List.length_range]
          rw [← sum_sub_distrib]
          refine sum_congr rfl fun k hk => ?_
          rw [mem_range] at hk
          simp [hk, mul_sub]
        rw [hsub, hxe', sub_self])
    have := hzero i
    simp only [List.getD_eq_getElem?_getD, List.getElem?_map, List.getElem?_range hi, Option.map_some,
      Option.getD_some] at this
    exact sub_eq_zero.1 this

/-- non-vacuity of C02: with threshold 3, two shares (values 9 and 4 at points 1 and 2) fit the candidate secret 77 -/
example : ∃ rng : Nat → ZMod 101, [1, 2].map (evaluate (polyNew rng 77 3)) = [9, 4] :=
  let ⟨rng, h, _⟩ := shamir_view_independent_of_secret (F := ZMod 101) 3 (by norm_num) [1, 2] [9, 4] rfl rfl
    (by decide) (by decide) 77
  ⟨rng, h⟩

/-! ### C03 validation of `combine_shares` -/

/-- **C03.** `combine_shares` returns a value exactly if there are enough shares, all identifiers are non-zero and
pairwise distinct, and all values decode to non-zero elements. -/
theorem combine_succeeds_iff (sch : Scheme) (cR : Codec R) (shares : List Share) :
    (∃ r, combineShares F sch cR shares = .ok r) ↔
      sch.threshold ≤ shares.length ∧ (∀ s ∈ shares, s.identifier ≠ 0) ∧
      (shares.map Share.identifier).Nodup ∧
      (∀ s ∈ shares, ∃ y, cR.dec s.value = some y ∧ y ≠ 0) := by
  constructor
  · rintro ⟨r, h⟩
    unfold combineShares at h
    split at h; · simp at h
    rw [Res.bind_eq_ok] at h
    obtain ⟨p, hp, _⟩ := h
    obtain ⟨h1, h2, _⟩ := collectShares_ok_imp cR shares _ _ _ _ hp
    exact ⟨by omega, fun s hs => (h1 s hs).1, h2, fun s hs => (h1 s hs).2⟩
  · rintro ⟨h1, h2, h3, h4⟩
    unfold combineShares
    rw [if_neg (by omega), collectShares_good cR shares (fun s hs => ⟨h2 s hs, h4 s hs⟩) h3]
    exact ⟨_, rfl⟩

/-- **C03.** The error reported is the one of the first offending share (after the quorum-size check). -/
theorem combine_first_error (sch : Scheme) (cR : Codec R) (pre post : List Share) (s : Share)
    (hlen : sch.threshold ≤ (pre ++ s :: post).length)
    (hpre : ∀ u ∈ pre, u.identifier ≠ 0 ∧ ∃ y, cR.dec u.value = some y ∧ y ≠ 0)
    (hids : (pre.map Share.identifier).Nodup) :
    (s.identifier = 0 → combineShares F sch cR (pre ++ s :: post) = .err .ShareInvalidIdentifier) ∧
    (s.identifier ≠ 0 → s.identifier ∈ pre.map Share.identifier →
        combineShares F sch cR (pre ++ s :: post) = .err .ShareDuplicateIdentifier) ∧
    (s.identifier ≠ 0 → s.identifier ∉ pre.map Share.identifier → cR.dec s.value = none →
        combineShares F sch cR (pre ++ s :: post) = .err .InvalidPoint) ∧
    (s.identifier ≠ 0 → s.identifier ∉ pre.map Share.identifier → cR.dec s.value = some 0 →
        combineShares F sch cR (pre ++ s :: post) = .err .ShareInvalidValue) := by
  have h := collectShares_append (F := F) cR pre (s :: post) [] [] [] hpre hids (by simp)
  unfold combineShares
  rw [if_neg (by omega), h, collectShares]
  refine ⟨?_, ?_, ?_, ?_⟩
  · intro h0; simp [h0]
  · intro h0 h1
    rw [if_neg h0, if_pos (by simpa using h1)]; rfl
  · intro h0 h1 h2
    rw [if_neg h0, if_neg (by simpa using h1)]; simp [h2]
  · intro h0 h1 h2
    rw [if_neg h0, if_neg (by simpa using h1)]; simp [h2]

/-- **C03.** Too few shares are rejected whatever they contain. -/
theorem combine_below_threshold (sch : Scheme) (cR : Codec R) (shares : List Share)
    (h : shares.length < sch.threshold) :
    combineShares F sch cR shares = .err .ShareMinThreshold := by
  unfold combineShares; rw [if_pos h]

/-- **C03.** `combine_shares` never panics. -/
theorem combine_never_panics (sch : Scheme) (cR : Codec R) (shares : List Share) :
    combineShares F sch cR shares ≠ .panic := by
  unfold combineShares
  split; · simp
  cases h : collectShares F cR shares [] [] [] with
  | ok a => simp
  | err e => simp
  | panic => exact absurd h (collectShares_not_panic cR shares _ _ _)

/-- non-vacuity of C03: all four error branches and success occur -/
example : combineShares (ZMod 101) ⟨2, 3⟩ Toy.codec101 [⟨1, [12]⟩, ⟨1, [19]⟩] = .err .ShareDuplicateIdentifier ∧
    combineShares (ZMod 101) ⟨2, 3⟩ Toy.codec101 [⟨1, [12]⟩, ⟨0, [19]⟩] = .err .ShareInvalidIdentifier ∧
    combineShares (ZMod 101) ⟨2, 3⟩ Toy.codec101 [⟨1, [12]⟩, ⟨2, [200]⟩] = .err .InvalidPoint ∧
    combineShares (ZMod 101) ⟨2, 3⟩ Toy.codec101 [⟨1, [12]⟩] = .err .ShareMinThreshold ∧
    combineShares (ZMod 101) ⟨2, 3⟩ Toy.codec101 [⟨1, [12]⟩, ⟨2, [19]⟩] = .ok 5 := by decide +kernel

/-! ### C04 parameters -/

/-- **C04.** `Scheme::new` succeeds exactly for `2 ≤ threshold ≤ limit`. -/
theorem scheme_new_iff (t n : Nat) :
    (∃ s, Scheme.new t n = .ok s) ↔ 2 ≤ t ∧ t ≤ n := by
  unfold Scheme.new
  split
  · simp; omega
  · split
    · simp; omega
    · simp; omega

/-- **C04.** which error for which violation -/
theorem scheme_new_errors (t n : Nat) :
    (n < t → Scheme.new t n = .err .ShareLimitLessThanThreshold) ∧
    (t ≤ n → t < 2 → Scheme.new t n = .err .ShareMinThreshold) := by
  unfold Scheme.new
  constructor
  · intro h; rw [if_pos h]
  · intro h h'; rw [if_neg (by omega), if_pos h']

/-- **C04.** `split_secret` succeeds exactly for non-zero secrets, with exactly the identifiers `1, …, limit`. -/
theorem split_iff (sch : Scheme) (cF : Codec F) (rng : Nat → F) (secret : F) (hn : sch.limit < 2 ^ 32) :
    (secret = 0 → splitSecret sch cF rng secret = .err .ShareInvalidSecret) ∧
    (secret ≠ 0 → ∃ shares, splitSecret sch cF rng secret = .ok shares ∧
      shares.map Share.identifier = (List.range sch.limit).map (· + 1)) := by
  unfold splitSecret getSharesAndPolynomial
  constructor
  · intro h; simp [h]
  · intro h
    refine ⟨_, by rw [if_neg h]; rfl, ?_⟩
    rw [List.map_map]
    refine List.map_congr_left fun i hi => ?_
    rw [List.mem_range] at hi
    simp only [Function.comp, mkShare]
    exact Nat.mod_eq_of_lt (by omega)

/-- C04, the excluded point: with a limit of `2^32` or more the `as u32` cast makes one share carry the
reserved identifier 0, which `combine_shares` always rejects. -/
theorem split_identifier_wraps (sch : Scheme) (cF : Codec F) (rng : Nat → F) (secret : F) (h0 : secret ≠ 0)
    (hn : 2 ^ 32 ≤ sch.limit) :
    ∃ shares, splitSecret sch cF rng secret = .ok shares ∧ ∃ s ∈ shares, s.identifier = 0 := by
  unfold splitSecret getSharesAndPolynomial
  refine ⟨_, by rw [if_neg h0]; rfl, _, List.mem_map_of_mem (a := 2 ^ 32 - 1) (by rw [List.mem_range]; omega), ?_⟩
  simp [mkShare]

/-! ### C05 Feldman completeness -/

/-- **C05.** Every honest Feldman share verifies, unless its value is zero (reported as `ShareInvalidValue`). -/
theorem feldman_share_verifies {t n : Nat} {sch : Scheme} (hnew : Scheme.new t n = .ok sch) (hn : n < 2 ^ 32)
    (cF : Codec F) (rng : Nat → F) (secret : F) (g : R) (v : FeldmanVerifier R) (shares : List Share)
    (hsplit : feldmanSplit sch cF rng secret g = .ok (v, shares)) (s : Share) (hs : s ∈ shares) :
    feldmanVerify sch cF s v =
      if cF.dec s.value = some 0 then .err .ShareInvalidValue else .ok () := by
  obtain ⟨ht, _, rfl⟩ := scheme_new_ok hnew
  unfold feldmanSplit at hsplit
  simp only [hnew, Res.ok_bind] at hsplit
  rw [Res.bind_eq_ok] at hsplit
  obtain ⟨⟨sh, poly⟩, hg, he⟩ := hsplit
  simp only [Res.pure_eq, Res.ok.injEq, Prod.mk.injEq] at he
  obtain ⟨rfl, rfl⟩ := he
  have hpoly : poly = polyNew rng secret t := by
    unfold getSharesAndPolynomial at hg
    split at hg; · simp at hg
    simp only [Res.ok.injEq, Prod.mk.injEq] at hg
    exact hg.2.symm
  have hsp : splitSecret ⟨t, n⟩ cF rng secret = .ok sh := by
    unfold splitSecret; rw [hg]; rfl
  have hd := ((split_mem hn hsp).2 s hs).2.2.2
  subst hpoly
  unfold feldmanVerify
  rw [if_neg (by simp [polyNew]; omega)]
  simp only [hd, Res.ofOption_some, Res.ok_bind, Option.some.injEq]
  split
  · rfl
  · simp only [polyNew, List.map_cons]
    rw [commitLoop_start]
    have := mPolyVal_map_smul (polyNew rng secret t) g (s.identifier : F)
    simp only [polyNew, List.map_cons] at this
    refine if_pos ?_
    rw [this, smul_neg, add_neg_cancel]

/-- non-vacuity of C05: 2-of-3 over GF(101), generator 3 -/
example : feldmanVerify (R := ZMod 101) ⟨2, 3⟩ Toy.codec101 ⟨2, [19]⟩ ⟨3, [15, 21]⟩ = .ok () := by
  have h := feldman_share_verifies (F := ZMod 101) (R := ZMod 101) (t := 2) (n := 3) (sch := ⟨2, 3⟩) rfl
    (by norm_num) Toy.codec101 (fun _ => 7) 5 3 ⟨3, [15, 21]⟩ exShares (by decide) ⟨2, [19]⟩ (by decide)
  rw [h, if_neg (by decide)]

/-! ### C06 Feldman agreement -/

/-- **C06 (partial).** With exactly `threshold` commitments `c_k = a_k • g` (by a possibly dishonest dealer), every
list of at least `threshold` accepted shares with distinct identifiers recombines to `a_0`, the discrete logarithm
of the first commitment: any two accepted quorums agree. What is missing compared with C06: `verify_share` does not
enforce that there are *exactly* `threshold` commitments, see `feldman_long_commitments_disagree`. -/
theorem feldman_accepted_quorums_agree_partial {t n : Nat} {sch : Scheme} (hnew : Scheme.new t n = .ok sch)
    (hsep : Separates F n) (cF : Codec F) (v : FeldmanVerifier R) (hg : ∀ a : F, a • v.g = 0 → a = 0)
    (a0 : F) (as : List F) (hcomm : v.commitments = (a0 :: as).map (fun a => a • v.g))
    (hcount : v.commitments.length = t)
    (q : List Share) (hq : t ≤ q.length) (hids : (q.map Share.identifier).Nodup)
    (hrange : ∀ s ∈ q, s.identifier ≠ 0 ∧ s.identifier ≤ n)
    (hacc : ∀ s ∈ q, feldmanVerify sch cF s v = .ok ()) :
    vssCombine F sch cF q = .ok a0 := by
  obtain ⟨ht, htn, rfl⟩ := scheme_new_ok hnew
  have hval : ∀ s ∈ q, cF.dec s.value = some (mPolyVal (a0 :: as) (s.identifier : F)) ∧
      cF.dec s.value ≠ some 0 := by
    intro s hs
    have h := hacc s hs
    unfold feldmanVerify at h
    split at h; · simp at h
    cases hd : cF.dec s.value with
    | none => simp [hd] at h
    | some y =>
      simp only [hd, Res.ofOption_some, Res.ok_bind] at h
      split at h; · simp at h
      rename_i hy
      rw [hcomm] at h
      simp only [List.map_cons] at h
      split at h
      · rename_i hz
        rw [commitLoop_start] at hz
        have := mPolyVal_map_smul (a0 :: as) v.g (s.identifier : F)
        rw [List.map_cons] at this
        rw [this, smul_neg, ← sub_eq_add_neg, ← sub_smul] at hz
        have := sub_eq_zero.1 (hg _ hz)
        exact ⟨by rw [this], by simpa using hy⟩
      · simp at h
  unfold vssCombine
  rw [show Scheme.new (Scheme.mk t n).threshold (Scheme.mk t n).limit = .ok ⟨t, n⟩ from hnew, Res.ok_bind]
  rw [combine_on_poly hsep cF a0 as q ?_ hq hids hrange (fun s hs => (hval s hs).1), if_neg]
  · rintro ⟨s, hs, h⟩
    exact (hval s hs).2 h
  · rw [hcomm, List.length_map] at hcount; rw [hcount]; exact hq

/-- non-vacuity of `feldman_accepted_quorums_agree_partial` -/
example : vssCombine (ZMod 101) ⟨2, 3⟩ Toy.codec101 [⟨3, [26]⟩, ⟨2, [19]⟩] = .ok 5 :=
  feldman_accepted_quorums_agree_partial (F := ZMod 101) (R := ZMod 101) (t := 2) (n := 3) (sch := ⟨2, 3⟩) rfl ex_sep
    Toy.codec101 ⟨3, [15, 21]⟩ (by decide +kernel) 5 [7] (by decide) rfl [⟨3, [26]⟩, ⟨2, [19]⟩] (by decide) (by decide)
    (by decide) (by decide)

/-- **C06 is violated by the code**: `verify_share` accepts verifiers with *more* than `threshold` commitments, so
a dishonest dealer of a 2-of-3 sharing can publish a degree-2 verifier for which all three shares are accepted but
the quorums {1,2} and {1,3} reconstruct different secrets. -/
theorem feldman_long_commitments_disagree :
    ∃ (v : FeldmanVerifier (ZMod 101)) (s1 s2 s3 : Share),
      (∀ s ∈ [s1, s2, s3], feldmanVerify ⟨2, 3⟩ Toy.codec101 s v = .ok ()) ∧
      ∃ a b, vssCombine (ZMod 101) ⟨2, 3⟩ Toy.codec101 [s1, s2] = .ok a ∧
             vssCombine (ZMod 101) ⟨2, 3⟩ Toy.codec101 [s1, s3] = .ok b ∧ a ≠ b :=
  -- polynomial 5 + 7x + x^2 : values 13, 23, 35
  ⟨⟨1, [5, 7, 1]⟩, ⟨1, [13]⟩, ⟨2, [23]⟩, ⟨3, [35]⟩, by decide, 3, 2, by decide +kernel, by decide +kernel, by decide⟩

/-! ### C07 Pedersen completeness and binding equation -/

theorem pedersen_commit_val (t : Nat) (ht : 1 ≤ t) (rng rng' : Nat → F) (a b : F) (g h : R) (x : F) :
    mPolyVal ((List.range t).map (fun i => (polyNew rng a t).getD i 0 • g + (polyNew rng' b t).getD i 0 • h)) x
      = mPolyVal (polyNew rng a t) x • g + mPolyVal (polyNew rng' b t) x • h := by
  have e1 : (polyNew rng a t).length = t := by simp [polyNew]; omega
  have e2 : (polyNew rng' b t).length = t := by simp [polyNew]; omega
  simp only [mPolyVal, List.length_map, List.length_range, e1, e2]
  rw [sum_smul, sum_smul, ← sum_add_distrib]
  refine sum_congr rfl fun k hk => ?_
  rw [mem_range] at hk
  rw [List.getD_eq_getElem _ _ (by simpa using hk), List.getElem_map, List.getElem_range, smul_add, smul_smul, smul_smul]
  simp only [smul_eq_mul]

/-- **C07.** Every honest pair of shares (same identifier) verifies unless one of the two values is zero. -/
theorem pedersen_shares_verify {t n : Nat} {sch : Scheme} (hnew : Scheme.new t n = .ok sch) (hn : n < 2 ^ 32)
    (cF : Codec F) (rng rng' : Nat → F) (blinding secret : F) (g h : R) (res : PedersenResult F R)
    (hsplit : pedersenSplit sch cF rng rng' blinding secret g h = .ok res)
    (s b : Share) (hs : s ∈ res.secretShares) (hb : b ∈ res.blindingShares) (hid : s.identifier = b.identifier) :
    pedersenVerify sch cF s b res.verifier =
      if cF.dec s.value = some 0 then .err .ShareInvalidValue
      else if cF.dec b.value = some 0 then .err .PedersenBlindShareInvalid
      else .ok () := by
  obtain ⟨ht, _, rfl⟩ := scheme_new_ok hnew
  unfold pedersenSplit at hsplit
  simp only [hnew, Res.ok_bind] at hsplit
  rw [Res.bind_eq_ok] at hsplit
  obtain ⟨⟨sh, poly⟩, hg1, hsplit⟩ := hsplit
  rw [Res.bind_eq_ok] at hsplit
  obtain ⟨⟨sh', poly'⟩, hg2, he⟩ := hsplit
  simp only [Res.pure_eq, Res.ok.injEq] at he
  subst he
  have hp1 : poly = polyNew rng secret t := by
    unfold getSharesAndPolynomial at hg1
    split at hg1; · simp at hg1
    simp only [Res.ok.injEq, Prod.mk.injEq] at hg1
    exact hg1.2.symm
  have hp2 : poly' = polyNew rng' blinding t := by
    unfold getSharesAndPolynomial at hg2
    split at hg2; · simp at hg2
    simp only [Res.ok.injEq, Prod.mk.injEq] at hg2
    exact hg2.2.symm
  have hsp1 : splitSecret ⟨t, n⟩ cF rng secret = .ok sh := by unfold splitSecret; rw [hg1]; rfl
  have hsp2 : splitSecret ⟨t, n⟩ cF rng' blinding = .ok sh' := by unfold splitSecret; rw [hg2]; rfl
  have hd1 := ((split_mem hn hsp1).2 s hs).2.2.2
  have hd2 := ((split_mem hn hsp2).2 b hb).2.2.2
  subst hp1 hp2
  unfold pedersenVerify
  simp only [hd1, hd2, Res.ofOption_some, Res.ok_bind, Option.some.injEq]
  split
  · rfl
  split
  · rfl
  obtain ⟨k, hk⟩ : ∃ k, t = k + 1 := ⟨t - 1, by omega⟩
  have hval := pedersen_commit_val t (by omega) rng rng' secret blinding g h (s.identifier : F)
  have hcons : ∃ c0 cs, (List.range t).map (fun i => (polyNew rng secret t).getD i 0 • g +
      (polyNew rng' blinding t).getD i 0 • h) = c0 :: cs := by
    rw [hk, List.range_succ_eq_map]; exact ⟨_, _, rfl⟩
  obtain ⟨c0, cs, hc⟩ := hcons
  rw [hc] at hval
  simp only [hc, commitLoop_start, hval]
  rw [if_pos]
  rw [← hid, smul_neg, smul_neg]; abel

/-- **C07.** Acceptance is exactly the Pedersen equation (for verifiers with at least one commitment). -/
theorem pedersen_accept_iff (sch : Scheme) (cF : Codec F) (s b : Share) (v : PedersenVerifier R)
    (hne : v.commitments ≠ []) :
    pedersenVerify sch cF s b v = .ok () ↔
      ∃ y z : F, cF.dec s.value = some y ∧ cF.dec b.value = some z ∧ y ≠ 0 ∧ z ≠ 0 ∧
        y • v.g + z • v.h = ∑ k ∈ range v.commitments.length, (s.identifier : F) ^ k • v.commitments.getD k 0 := by
  obtain ⟨g, h, comms⟩ := v
  cases comms with
  | nil => exact absurd rfl hne
  | cons c0 cs =>
    have hsum : (∑ k ∈ range (c0 :: cs).length, (s.identifier : F) ^ k • (c0 :: cs).getD k 0)
        = mPolyVal (c0 :: cs) (s.identifier : F) := rfl
    simp only [hsum]
    unfold pedersenVerify
    cases hs : cF.dec s.value with
    | none => simp
    | some y =>
      cases hb : cF.dec b.value with
      | none =>
        simp only [Res.ofOption_some, Res.ok_bind, Res.ofOption_none, Res.err_bind]
        split <;> simp
      | some z =>
        simp only [Res.ofOption_some, Res.ok_bind, commitLoop_start]
        by_cases hy : y = 0
        · simp [hy]
        by_cases hz : z = 0
        · simp [hz, hy]
        simp only [if_neg hy, if_neg hz]
        constructor
        · intro hh
          split at hh
          · rename_i he
            refine ⟨y, z, rfl, rfl, hy, hz, ?_⟩
            rw [smul_neg, smul_neg] at he
            rw [← sub_eq_zero, ← neg_eq_zero, ← he]; abel
          · simp at hh
        · rintro ⟨y', z', h1, h2, _, _, he⟩
          simp only [Option.some.injEq] at h1 h2
          subst h1 h2
          rw [if_pos]
          rw [← he, smul_neg, smul_neg]; abel

/-- C07, excluded point: an empty commitment vector makes `verify_share` panic instead of returning an error. -/
theorem pedersen_empty_commitments_panic :
    ∃ (s b : Share) (v : PedersenVerifier (ZMod 101)),
      pedersenVerify (F := ZMod 101) ⟨2, 3⟩ Toy.codec101 s b v = .panic :=
  ⟨⟨1, [1]⟩, ⟨1, [1]⟩, ⟨1, 1, []⟩, by decide⟩

/-- non-vacuity of C07: 5 + 7x and 9 + 2x with g = 3, h = 10 -/
example : pedersenVerify (F := ZMod 101) (R := ZMod 101) ⟨2, 3⟩ Toy.codec101 ⟨2, [19]⟩ ⟨2, [13]⟩
    ⟨3, 10, [105, 41]⟩ = .ok () := by decide +kernel

example : ∃ res : PedersenResult (ZMod 101) (ZMod 101),
    pedersenSplit ⟨2, 3⟩ Toy.codec101 (fun _ => 7) (fun _ => 2) 9 5 3 10 = .ok res ∧
    ⟨2, [19]⟩ ∈ res.secretShares ∧ ⟨2, [13]⟩ ∈ res.blindingShares ∧
    pedersenVerify (F := ZMod 101) ⟨2, 3⟩ Toy.codec101 ⟨2, [19]⟩ ⟨2, [13]⟩ res.verifier = .ok () := by
  refine ⟨_, rfl, by decide, by decide, ?_⟩
  have h := pedersen_shares_verify (F := ZMod 101) (R := ZMod 101) (t := 2) (n := 3) (sch := ⟨2, 3⟩) rfl
    (by norm_num) Toy.codec101 (fun _ => 7) (fun _ => 2) 9 5 3 10 _ rfl ⟨2, [19]⟩ ⟨2, [13]⟩ (by decide) (by decide) rfl
  rw [h, if_neg (by decide), if_neg (by decide)]

/-! ### C08 hiding -/

/-- **C08.** If `h = k • g` with `k ≠ 0`, then for the commitments published for `(secret, rng)` with blinding
`(b, rng')` and for any other `(secret₂, rng₂)` there is exactly one blinding polynomial producing the same
commitments. -/
theorem pedersen_perfectly_hiding (t : Nat) (ht : 2 ≤ t) (g h : R) (k : F) (hk : k ≠ 0) (hh : h = k • g)
    (hg : ∀ a : F, a • g = 0 → a = 0)
    (rng rng' : Nat → F) (secret b : F) (rng₂ : Nat → F) (secret₂ : F) :
    let comm := fun (p q : List F) => (List.range t).map (fun i => p.getD i 0 • g + q.getD i 0 • h)
    ∃ (b₂ : F) (rng₂' : Nat → F),
      comm (polyNew rng secret t) (polyNew rng' b t) = comm (polyNew rng₂ secret₂ t) (polyNew rng₂' b₂ t) ∧
      ∀ b₃ rng₃', comm (polyNew rng secret t) (polyNew rng' b t) = comm (polyNew rng₂ secret₂ t) (polyNew rng₃' b₃ t) →
        polyNew rng₃' b₃ t = polyNew rng₂' b₂ t := by
  intro comm
  have key : ∀ p p₂ q q₂ : F, p • g + q • h = p₂ • g + q₂ • h ↔ q₂ = q + (p - p₂) / k := by
    intro p p₂ q q₂
    rw [hh, smul_smul, smul_smul, ← add_smul, ← add_smul, ← sub_eq_zero, ← sub_smul]
    constructor
    · intro h0
      have := hg _ h0
      field_simp
      linear_combination (-1 : F) * this
    · intro h0
      rw [h0]
      have : p + q * k - (p₂ + (q + (p - p₂) / k) * k) = 0 := by field_simp; ring
      rw [this, zero_smul]
  have hget0 : ∀ (r : Nat → F) (s : F), (polyNew r s t).getD 0 0 = s := by intro r s; rfl
  have hgetS : ∀ (r : Nat → F) (s : F) (i : Nat), i + 1 < t → (polyNew r s t).getD (i + 1) 0 = r i := by
    intro r s i hi
    have : i < t - 1 := by omega
    simp [polyNew, this]
  have hcomm : ∀ (r r' : Nat → F) (s c : F) (r₂ r₂' : Nat → F) (s₂ c₂ : F),
      comm (polyNew r s t) (polyNew r' c t) = comm (polyNew r₂ s₂ t) (polyNew r₂' c₂ t) ↔
      (c₂ = c + (s - s₂) / k ∧ ∀ i, i + 1 < t → r₂' i = r' i + (r i - r₂ i) / k) := by
    intro r r' s c r₂ r₂' s₂ c₂
    simp only [comm]
    rw [List.map_inj_left]
    constructor
    · intro hall
      refine ⟨?_, ?_⟩
      · have := hall 0 (by rw [List.mem_range]; omega)
        rw [hget0, hget0, hget0, hget0] at this
        exact (key _ _ _ _).1 this
      · intro i hi
        have := hall (i + 1) (by rw [List.mem_range]; omega)
        rw [hgetS _ _ _ hi, hgetS _ _ _ hi, hgetS _ _ _ hi, hgetS _ _ _ hi] at this
        exact (key _ _ _ _).1 this
    · rintro ⟨h0, hS⟩ i hi
      rw [List.mem_range] at hi
      cases i with
      | zero => rw [hget0, hget0, hget0, hget0]; exact (key _ _ _ _).2 h0
      | succ i =>
        rw [hgetS _ _ _ hi, hgetS _ _ _ hi, hgetS _ _ _ hi, hgetS _ _ _ hi]
        exact (key _ _ _ _).2 (hS i hi)
  refine ⟨b + (secret - secret₂) / k, fun i => rng' i + (rng i - rng₂ i) / k, ?_, ?_⟩
  · rw [hcomm]; exact ⟨rfl, fun _ _ => rfl⟩
  · intro b₃ rng₃' h3
    rw [hcomm] at h3
    unfold polyNew
    rw [h3.1]
    congr 1
    refine List.map_congr_left fun i hi => ?_
    rw [List.mem_range] at hi
    exact h3.2 i (by omega)

/-- non-vacuity of C08: g = 3, h = 10 = 37 • 3 in GF(101) -/
example : ∀ a : ZMod 101, a • (3 : ZMod 101) = 0 → a = 0 := by decide +kernel
example : (10 : ZMod 101) = (37 : ZMod 101) • (3 : ZMod 101) ∧ (37 : ZMod 101) ≠ 0 := by decide +kernel

/-! ### C09 byte formats -/

/-- **C09 (positive half for shares).** Parsing `identifier ‖ value` gives the share back. -/
theorem share_parse (s : Share) (h : s.identifier < 2 ^ 32) :
    Share.tryFrom (beU32 s.identifier ++ s.value) = .ok s := by
  unfold Share.tryFrom
  rw [if_neg (by simp)]
  have e1 : List.take 4 (beU32 s.identifier ++ s.value) = beU32 s.identifier :=
    List.take_left' (beU32_length _)
  have e2 : List.drop 4 (beU32 s.identifier ++ s.value) = s.value := List.drop_left' (beU32_length _)
  rw [e1, e2, ofBe_beU32_of_lt h]

/-- `Share::new` keeps every identifier that fits 32 bits, so its result is parsed back from `identifier ‖ value` -/
theorem share_new_parse (id : Nat) (v : Bytes) (h : id < 2 ^ 32) :
    (Share.new id v).identifier = id ∧ (Share.new id v).value = v ∧
      Share.tryFrom (beU32 id ++ v) = .ok (Share.new id v) := by
  have e : Share.new id v = ⟨id, v⟩ := by unfold Share.new; rw [Nat.mod_eq_of_lt h]
  rw [e]
  exact ⟨rfl, rfl, share_parse ⟨id, v⟩ h⟩

/-- and fewer than four bytes are rejected -/
theorem share_parse_short (bs : Bytes) (h : bs.length < 4) :
    Share.tryFrom bs = .err .ShareSecretMinSize := by
  unfold Share.tryFrom; rw [if_pos h]

/-- **C09 is violated**: `Share::to_bytes` never returns, for any share, whatever the stack depth available. -/
theorem share_to_bytes_diverges (s : Share) (fuel : Nat) : Share.toBytes fuel s = none := by
  induction fuel with
  | zero => rfl
  | succ n ih => simp [Share.toBytes, ih]

theorem slice_append_mid (a b c : Bytes) : slice (a ++ b ++ c) a.length (a.length + b.length) = .ok b := by
  unfold slice
  rw [if_pos (by simp)]
  congr 1
  rw [List.take_left' (by simp), List.drop_left]

theorem readCommitments_same (cR : Codec R) (value : Bytes) (o e : Nat) (c : R)
    (h : slice value o e = .ok (cR.enc c)) (k : Nat) :
    readCommitments cR value o e k = .ok (List.replicate k c) := by
  induction k with
  | zero => rfl
  | succ k ih => simp [readCommitments, h, cR.dec_enc, ih, List.replicate_succ]

/-- **C09 (partial), Feldman.** What serialising and parsing a verifier really returns: the generator, and the
*first* commitment repeated. The round trip is the identity only when all commitments are equal. -/
theorem feldman_verifier_round_trip_partial (cR : Codec R) (g c0 : R) (cs : List R)
    (hlen : (c0 :: cs).length < 2 ^ 32) :
    FeldmanVerifier.tryFrom cR (FeldmanVerifier.toBytes cR ⟨g, c0 :: cs⟩) =
      .ok ⟨g, List.replicate (c0 :: cs).length c0⟩ := by
  have hb : FeldmanVerifier.toBytes cR ⟨g, c0 :: cs⟩ =
      cR.enc g ++ beU32 (c0 :: cs).length ++ cR.enc c0 ++ (cs.map cR.enc).flatten := by
    simp [FeldmanVerifier.toBytes]
  unfold FeldmanVerifier.tryFrom
  have hl : ¬ (FeldmanVerifier.toBytes cR ⟨g, c0 :: cs⟩).length < cR.size * 2 + 4 := by
    rw [hb]; simp only [List.length_append, cR.enc_length, beU32_length]; omega
  rw [if_neg hl]
  have s1 : slice (FeldmanVerifier.toBytes cR ⟨g, c0 :: cs⟩) 0 cR.size = .ok (cR.enc g) := by
    have := slice_append_mid [] (cR.enc g) (beU32 (c0 :: cs).length ++ cR.enc c0 ++ (cs.map cR.enc).flatten)
    simpa [hb, cR.enc_length] using this
  have s2 : slice (FeldmanVerifier.toBytes cR ⟨g, c0 :: cs⟩) cR.size (cR.size + 4) = .ok (beU32 (c0 :: cs).length) := by
    have := slice_append_mid (cR.enc g) (beU32 (c0 :: cs).length) (cR.enc c0 ++ (cs.map cR.enc).flatten)
    rw [cR.enc_length, beU32_length] at this
    rw [hb, ← this]; simp only [List.append_assoc]
  have s3 : slice (FeldmanVerifier.toBytes cR ⟨g, c0 :: cs⟩) (cR.size + 4) (cR.size + 4 + cR.size) = .ok (cR.enc c0) := by
    have := slice_append_mid (cR.enc g ++ beU32 (c0 :: cs).length) (cR.enc c0) (cs.map cR.enc).flatten
    rw [List.length_append, cR.enc_length, cR.enc_length, beU32_length] at this
    rw [hb, ← this]
  simp only [s1, s2, Res.ok_bind, cR.dec_enc, Res.ofOption_some, ofBe_beU32_of_lt hlen,
    readCommitments_same cR _ _ _ c0 s3, Res.pure_eq]

/-- **C09 is violated** for Feldman verifiers with two different commitments. -/
theorem feldman_verifier_round_trip_fails :
    ∃ v : FeldmanVerifier (ZMod 101),
      FeldmanVerifier.tryFrom Toy.codec101 (v.toBytes Toy.codec101) ≠ .ok v :=
  ⟨⟨3, [15, 21]⟩, by decide⟩

/-- **C09 (partial), Pedersen.** As for Feldman. -/
theorem pedersen_verifier_round_trip_partial (cR : Codec R) (g h c0 : R) (cs : List R)
    (hlen : (c0 :: cs).length < 2 ^ 32) :
    PedersenVerifier.tryFrom cR (PedersenVerifier.toBytes cR ⟨g, h, c0 :: cs⟩) =
      .ok ⟨g, h, List.replicate (c0 :: cs).length c0⟩ := by
  have hb : PedersenVerifier.toBytes cR ⟨g, h, c0 :: cs⟩ =
      cR.enc g ++ cR.enc h ++ beU32 (c0 :: cs).length ++ cR.enc c0 ++ (cs.map cR.enc).flatten := by
    simp [PedersenVerifier.toBytes]
  unfold PedersenVerifier.tryFrom
  have hl : ¬ (PedersenVerifier.toBytes cR ⟨g, h, c0 :: cs⟩).length < cR.size * 2 + 4 := by
    rw [hb]; simp only [List.length_append, cR.enc_length, beU32_length]; omega
  rw [if_neg hl]
  have s1 : slice (PedersenVerifier.toBytes cR ⟨g, h, c0 :: cs⟩) 0 cR.size = .ok (cR.enc g) := by
    have := slice_append_mid [] (cR.enc g)
      (cR.enc h ++ beU32 (c0 :: cs).length ++ cR.enc c0 ++ (cs.map cR.enc).flatten)
    simpa [hb, cR.enc_length] using this
  have s1' : slice (PedersenVerifier.toBytes cR ⟨g, h, c0 :: cs⟩) cR.size (cR.size + cR.size) = .ok (cR.enc h) := by
    have := slice_append_mid (cR.enc g) (cR.enc h)
      (beU32 (c0 :: cs).length ++ cR.enc c0 ++ (cs.map cR.enc).flatten)
    rw [cR.enc_length, cR.enc_length] at this
    rw [hb, ← this]; simp only [List.append_assoc]
  have s2 : slice (PedersenVerifier.toBytes cR ⟨g, h, c0 :: cs⟩) (cR.size + cR.size) (cR.size + cR.size + 4)
      = .ok (beU32 (c0 :: cs).length) := by
    have := slice_append_mid (cR.enc g ++ cR.enc h) (beU32 (c0 :: cs).length)
      (cR.enc c0 ++ (cs.map cR.enc).flatten)
    rw [List.length_append, cR.enc_length, cR.enc_length, beU32_length] at this
    rw [hb, ← this]; simp only [List.append_assoc]
  have s3 : slice (PedersenVerifier.toBytes cR ⟨g, h, c0 :: cs⟩) (cR.size + cR.size + 4)
      (cR.size + cR.size + 4 + cR.size) = .ok (cR.enc c0) := by
    have := slice_append_mid (cR.enc g ++ cR.enc h ++ beU32 (c0 :: cs).length) (cR.enc c0)
      (cs.map cR.enc).flatten
    rw [List.length_append, List.length_append, cR.enc_length, cR.enc_length, cR.enc_length, beU32_length] at this
    rw [hb, ← this]
  simp only [s1, s1', s2, Res.ok_bind, cR.dec_enc, Res.ofOption_some, ofBe_beU32_of_lt hlen,
    readCommitments_same cR _ _ _ c0 s3, Res.pure_eq]

/-- **C09 is violated** for Pedersen verifiers with two different commitments. -/
theorem pedersen_verifier_round_trip_fails :
    ∃ v : PedersenVerifier (ZMod 101),
      PedersenVerifier.tryFrom Toy.codec101 (v.toBytes Toy.codec101) ≠ .ok v :=
  ⟨⟨3, 10, [15, 21]⟩, by decide⟩

/-- The minimum-length check of the Pedersen parser is one element short: a truncated input of length
`2*size + 4` that announces a commitment panics. -/
theorem pedersen_verifier_truncated_panics :
    ∃ bs : Bytes, bs.length = Toy.codec101.size * 2 + 4 ∧
      PedersenVerifier.tryFrom Toy.codec101 bs = .panic :=
  ⟨[3, 10, 0, 0, 0, 1], by decide, by decide⟩

/-- The same length check is sufficient for Feldman verifiers: parsing never panics. -/
theorem feldman_verifier_parse_never_panics (cR : Codec R) (bs : Bytes) :
    FeldmanVerifier.tryFrom cR bs ≠ .panic := by
  unfold FeldmanVerifier.tryFrom
  split
  · simp
  rename_i hl
  have hread : ∀ k, readCommitments cR bs (cR.size + 4) (cR.size + 4 + cR.size) k ≠ .panic := by
    intro k
    induction k with
    | zero => simp [readCommitments]
    | succ k ih =>
      unfold readCommitments slice
      rw [if_pos (by omega)]
      simp only [Res.ok_bind]
      cases cR.dec _ with
      | none => simp
      | some c =>
        simp only [Res.ofOption_some, Res.ok_bind]
        revert ih
        cases readCommitments cR bs (cR.size + 4) (cR.size + 4 + cR.size) k <;> simp
  unfold slice
  rw [if_pos (by omega)]
  simp only [Res.ok_bind]
  cases cR.dec _ with
  | none => simp
  | some g =>
    simp only [Res.ofOption_some, Res.ok_bind]
    rw [if_pos (by omega)]
    simp only [Res.ok_bind]
    have := hread (ofBe (List.drop cR.size (List.take (cR.size + 4) bs)))
    revert this
    cases readCommitments cR bs _ _ _ <;> simp

end Verif.Sharing
