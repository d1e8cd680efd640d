import Verif.BBS.Model
import Verif.Props.PoKVC
import Mathlib.Tactic.Linarith
/-!
# Properties of BBS+ signatures (C39–C44, C75–C80)
-/
set_option linter.unusedSectionVars false
set_option linter.unusedSimpArgs false
namespace Verif.BBS
open Verif Verif.PoK

/-! ## Lists -/

theorem mapGet_nil {F : Type} (i : Nat) : mapGet ([] : List (Nat × F)) i = none := rfl

theorem mapGet_cons {F : Type} (k : Nat) (v : F) (l : List (Nat × F)) (i : Nat) :
    mapGet ((k, v) :: l) i = if k = i then some v else mapGet l i := by
  unfold mapGet
  by_cases h : k = i <;> simp [List.find?_cons, h]

theorem mapGet_none_of_lt {F : Type} {l : List (Nat × F)} {i : Nat} (h : ∀ p ∈ l, i < p.1) : mapGet l i = none := by
  induction l with
  | nil => rfl
  | cons p l ih =>
    obtain ⟨k, v⟩ := p
    rw [mapGet_cons, if_neg, ih (fun q hq => h q (List.mem_cons_of_mem _ hq))]
    have := h (k, v) List.mem_cons_self
    simp only at this; omega

theorem contains_keys {F : Type} (l : List (Nat × F)) (i : Nat) : (l.map (·.1)).contains i = (mapGet l i).isSome := by
  induction l with
  | nil => rfl
  | cons p l ih =>
    obtain ⟨k, v⟩ := p
    rw [List.map_cons, List.contains_cons, mapGet_cons, ih]
    by_cases h : k = i
    · subst h; simp
    · rw [if_neg h]
      have : (i == k) = false := by simpa using fun e => h e.symm
      simp [this]

/-- The entries of a `BTreeMap`: keys strictly ascending. -/
def Sorted {F : Type} (m : List (Nat × F)) : Prop := m.Pairwise (fun a b => a.1 < b.1)

theorem mapGet_mem {F : Type} {m : List (Nat × F)} (hs : Sorted m) {i : Nat} {v : F} : mapGet m i = some v ↔ (i, v) ∈ m := by
  induction m with
  | nil => simp [mapGet_nil]
  | cons p m ih =>
    obtain ⟨k, w⟩ := p
    have hs' := List.pairwise_cons.1 hs
    rw [mapGet_cons, List.mem_cons, Prod.mk.injEq]
    by_cases h : k = i
    · subst h
      rw [if_pos rfl, Option.some.injEq]
      constructor
      · exact fun e => Or.inl ⟨rfl, e.symm⟩
      · rintro (⟨-, e⟩ | hm)
        · exact e.symm
        · have := hs'.1 _ hm; simp at this
    · rw [if_neg h, ih hs'.2]
      constructor
      · exact Or.inr
      · rintro (⟨e, -⟩ | hm)
        · exact absurd e.symm h
        · exact hm

theorem hiddenBases_congr {G : Type} {k k' : Nat → Bool} : ∀ (i : Nat) (hs : List G),
    (∀ j, j < hs.length → k (i + j) = k' (i + j)) → hiddenBases k i hs = hiddenBases k' i hs
  | _, [], _ => rfl
  | i, h :: hs, H => by
    have h0 := H 0 (by simp)
    simp only [Nat.add_zero] at h0
    have ih := hiddenBases_congr (k := k) (k' := k') (i + 1) hs (fun j hj => by
      have := H (j + 1) (by simpa using hj)
      rwa [show i + (j + 1) = i + 1 + j by omega] at this)
    simp only [hiddenBases, h0, ih]

theorem hiddenBases_length {A B : Type} (k : Nat → Bool) : ∀ (i : Nat) (as : List A) (bs : List B), as.length = bs.length →
    (hiddenBases k i as).length = (hiddenBases k i bs).length
  | _, [], [], _ => rfl
  | i, a :: as, b :: bs, h => by
    simp only [hiddenBases]
    have := hiddenBases_length k (i + 1) as bs (by simpa using h)
    split <;> simp [this]

/-- the generators picked by a map are the ones not picked by its complement -/
theorem revealedTerms_bases {F G : Type} {get : Nat → Option F} {k : Nat → Bool} : ∀ (i : Nat) (hs : List G),
    (∀ j, j < hs.length → (get (i + j)).isSome = !k (i + j)) →
    (revealedTerms get i hs).map (·.1) = hiddenBases k i hs
  | _, [], _ => rfl
  | i, h :: hs, H => by
    have h0 := H 0 (by simp)
    simp only [Nat.add_zero] at h0
    have ih := revealedTerms_bases (i + 1) hs (fun j hj => by
      have := H (j + 1) (by simpa using hj)
      rwa [show i + (j + 1) = i + 1 + j by omega] at this)
    simp only [revealedTerms, hiddenBases]
    cases hg : get i with
    | none => rw [hg] at h0; simp at h0; simp [h0, ih]
    | some m => rw [hg] at h0; simp at h0; simp [h0, ih]

theorem revealedTerms_values {F G : Type} {get : Nat → Option F} {k : Nat → Bool} : ∀ (i : Nat) (hs : List G) (ms : List F),
    hs.length = ms.length → (∀ j, j < hs.length → (get (i + j)).isSome = !k (i + j)) →
    (∀ j m, get (i + j) = some m → j < ms.length → ms[j]? = some m) →
    (revealedTerms get i hs).map (·.2) = hiddenBases k i ms
  | _, [], [], _, _, _ => rfl
  | i, h :: hs, m :: ms, hl, H, Hm => by
    have h0 := H 0 (by simp)
    have hm0 := Hm 0
    simp only [Nat.add_zero] at h0 hm0
    have ih := revealedTerms_values (i + 1) hs ms (by simpa using hl) (fun j hj => by
      have := H (j + 1) (by simpa using hj)
      rwa [show i + (j + 1) = i + 1 + j by omega] at this) (fun j m' hj hlt => by
        have := Hm (j + 1) m' (by rwa [show i + (j + 1) = i + 1 + j by omega]) (by simpa using hlt)
        simpa using this)
    simp only [revealedTerms, hiddenBases]
    cases hg : get i with
    | none => rw [hg] at h0; simp at h0; simp [h0, ih]
    | some m' =>
      rw [hg] at h0; simp at h0
      have := hm0 m' hg (by simp)
      simp at this
      simp [h0, ih, this]

section
variable {F G1 G2 GT : Type} [Field F] [AddCommGroup G1] [Module F G1] [AddCommGroup G2] [Module F G2]
  [AddCommGroup GT] [Module F GT] [DecidableEq F] [DecidableEq G1] [DecidableEq G2] [DecidableEq GT]

/-- the sum over all generators is the revealed part plus the hidden part -/
theorem msm_split {get : Nat → Option F} : ∀ (i : Nat) (hs : List G1) (ms : List F), hs.length = ms.length →
    (∀ j m, get (i + j) = some m → j < ms.length → ms[j]? = some m) →
    msm hs ms = msm ((revealedTerms get i hs).map (·.1)) ((revealedTerms get i hs).map (·.2)) +
      msm (hiddenBases (fun j => (get j).isSome) i hs) (hiddenBases (fun j => (get j).isSome) i ms)
  | _, [], [], _, _ => by simp [revealedTerms, hiddenBases]
  | i, h :: hs, m :: ms, hl, Hm => by
    have hm0 := Hm 0
    simp only [Nat.add_zero] at hm0
    have ih := msm_split (i + 1) hs ms (by simpa using hl) (fun j m' hj hlt => by
        have := Hm (j + 1) m' (by rwa [show i + (j + 1) = i + 1 + j by omega]) (by simpa using hlt)
        simpa using this)
    cases hg : get i with
    | none =>
      simp only [revealedTerms, hiddenBases, hg, Option.isSome_none, Bool.false_eq_true, if_false, msm_cons, ih]
      abel
    | some m' =>
      have := hm0 m' hg (by simp)
      simp at this
      simp only [revealedTerms, hiddenBases, hg, Option.isSome_some, if_true, List.map_cons, msm_cons, ih, this]
      abel

/-- hidden values in order can be completed to a message vector -/
theorem merge_exists {get : Nat → Option F} : ∀ (i : Nat) (hs : List G1) (ys : List F),
    ys.length = (hiddenBases (fun j => (get j).isSome) i hs).length →
    ∃ ms : List F, ms.length = hs.length ∧ (∀ j m, get (i + j) = some m → j < hs.length → ms[j]? = some m) ∧
      hiddenBases (fun j => (get j).isSome) i ms = ys
  | _, [], ys, h => ⟨[], rfl, by simp, by simpa [hiddenBases, List.length_eq_zero_iff, eq_comm] using h⟩
  | i, h :: hs, ys, hl => by
    have step : ∀ (m0 : F) (ms : List F), (∀ m, get i = some m → m0 = m) → ms.length = hs.length →
        (∀ j m, get (i + 1 + j) = some m → j < hs.length → ms[j]? = some m) →
        ∀ j m, get (i + j) = some m → j < (h :: hs).length → (m0 :: ms)[j]? = some m := by
      intro m0 ms h0 hlen hms j m hj hlt
      cases j with
      | zero => rw [Nat.add_zero] at hj; simp [h0 m hj]
      | succ j =>
        rw [show i + (j + 1) = i + 1 + j by omega] at hj
        simpa using hms j m hj (by simpa using hlt)
    cases hg : get i with
    | some m' =>
      simp only [hiddenBases, hg, Option.isSome_some, if_true] at hl
      obtain ⟨ms, h1, h2, h3⟩ := merge_exists (i + 1) hs ys hl
      refine ⟨m' :: ms, by simp [h1], step m' ms (fun m hm => ?_) h1 h2, ?_⟩
      · rw [hg] at hm; exact Option.some.inj hm
      · simp [hiddenBases, hg, h3]
    | none =>
      simp only [hiddenBases, hg, Option.isSome_none, Bool.false_eq_true, if_false, List.length_cons] at hl
      cases ys with
      | nil => simp at hl
      | cons y ys =>
        obtain ⟨ms, h1, h2, h3⟩ := merge_exists (i + 1) hs ys (by simpa using hl)
        refine ⟨y :: ms, by simp [h1], step y ms (fun m hm => ?_) h1 h2, ?_⟩
        · rw [hg] at hm; cases hm
        · simp [hiddenBases, hg, h3]

/-- the message vector with the known values at their indices and the hidden values `ys`, in order, at the other ones, from index
`i` on -/
def fill (get : Nat → Option F) : Nat → Nat → List F → List F
  | _, 0, _ => []
  | i, n + 1, ys => match get i with
    | some m => m :: fill get (i + 1) n ys
    | none => ys.headD 0 :: fill get (i + 1) n ys.tail

theorem fill_spec {get : Nat → Option F} : ∀ (i n : Nat) (ys ms : List F), ms.length = n →
    (∀ j m, get (i + j) = some m → j < n → ms[j]? = some m) → hiddenBases (fun j => (get j).isSome) i ms = ys → ms = fill get i n ys
  | _, 0, _, [], _, _, _ => rfl
  | i, n + 1, ys, m :: ms, hl, hg, hh => by
    have h0 := hg 0
    simp only [Nat.add_zero] at h0
    have ih := fun ys => fill_spec (get := get) (i + 1) n ys ms (by simpa using hl) (fun j m' hj hlt => by
      have := hg (j + 1) m' (by rwa [show i + (j + 1) = i + 1 + j by omega]) (by omega)
      simpa using this)
    cases hi : get i with
    | some m' =>
      have := h0 m' hi (by omega)
      simp at this
      simp only [hiddenBases, hi, Option.isSome_some, if_true] at hh
      simp only [fill, hi, this]
      rw [← ih ys hh]
    | none =>
      simp only [hiddenBases, hi, Option.isSome_none, Bool.false_eq_true, if_false] at hh
      subst hh
      simp only [fill, hi, List.headD_cons, List.tail_cons]
      rw [← ih _ rfl]

/-- looking up the entries of a map one after the other is walking through the generators -/
theorem lookup_sorted : ∀ (pre hs : List G1) (m : List (Nat × F)), Sorted m → (∀ p ∈ m, pre.length ≤ p.1) →
    (∀ p ∈ m, p.1 < pre.length + hs.length) →
    lookupBases (pre ++ hs) m = .ok ((revealedTerms (mapGet m) pre.length hs).map (·.1)) ∧
    m.map (·.2) = (revealedTerms (mapGet m) pre.length hs).map (·.2) := by
  intro pre hs
  induction hs generalizing pre with
  | nil =>
    intro m _ h1 h2
    cases m with
    | nil => exact ⟨rfl, rfl⟩
    | cons p m =>
      have a := h1 p List.mem_cons_self
      have b := h2 p List.mem_cons_self
      simp at b; omega
  | cons h hs ih =>
    intro m hsort h1 h2
    have e : pre ++ h :: hs = (pre ++ [h]) ++ hs := by simp
    have el : (pre ++ [h]).length = pre.length + 1 := by simp
    cases m with
    | nil =>
      have := ih (pre ++ [h]) [] List.Pairwise.nil (by simp) (by simp)
      rw [el] at this
      rw [e]
      simpa [revealedTerms, mapGet_nil] using this
    | cons p m =>
      obtain ⟨k, v⟩ := p
      have hs' := List.pairwise_cons.1 hsort
      have hk : pre.length ≤ k := h1 (k, v) List.mem_cons_self
      by_cases hkp : k = pre.length
      · have htail : ∀ q ∈ m, pre.length + 1 ≤ q.1 := fun q hq => by
          have := hs'.1 q hq; simp only at this; omega
        have hcong : ∀ (i : Nat) (l : List G1), pre.length < i → revealedTerms (mapGet ((k, v) :: m)) i l =
            revealedTerms (mapGet m) i l := by
          intro i l
          induction l generalizing i with
          | nil => intro _; rfl
          | cons x l ihl =>
            intro hi
            have : mapGet ((k, v) :: m) i = mapGet m i := by rw [mapGet_cons, if_neg (by omega)]
            simp only [revealedTerms, this, ihl (i + 1) (by omega)]
        have := ih (pre ++ [h]) m hs'.2 (fun q hq => by rw [el]; exact htail q hq) (fun q hq => by
          have := h2 q (List.mem_cons_of_mem _ hq)
          simp only [List.length_cons] at this
          rw [el]; omega)
        rw [el] at this
        have hget : mapGet ((k, v) :: m) pre.length = some v := by rw [mapGet_cons, if_pos hkp]
        constructor
        · rw [lookupBases]
          have hi : (pre ++ h :: hs)[k]? = some h := by rw [hkp]; simp
          simp only [hi, Res.unwrap_some, Res.ok_bind]
          rw [e, this.1]
          simp only [Res.ok_bind, revealedTerms, hget, List.map_cons, hcong _ _ (Nat.lt_succ_self _), Res.pure_eq]
        · simp only [revealedTerms, hget, List.map_cons, this.2, hcong _ _ (Nat.lt_succ_self _)]
      · have hlt : pre.length < k := by omega
        have hget : mapGet ((k, v) :: m) pre.length = none := by
          apply mapGet_none_of_lt
          intro q hq
          rcases List.mem_cons.1 hq with rfl | hq
          · exact hlt
          · have := hs'.1 q hq; simp only at this; omega
        have := ih (pre ++ [h]) ((k, v) :: m) hsort (fun q hq => by
          rw [el]
          rcases List.mem_cons.1 hq with rfl | hq
          · exact hlt
          · have := hs'.1 q hq; simp only at this; omega) (fun q hq => by
          have := h2 q hq
          simp only [List.length_cons] at this
          rw [el]; omega)
        rw [el] at this
        rw [e, this.1, this.2]
        simp only [revealedTerms, hget]
        exact ⟨trivial, trivial⟩

theorem ctxBases_eq : ∀ (h : List G1) (m : List (Nat × F)), (∀ p ∈ m, p.1 < h.length) → ctxBases h m = lookupBases h m
  | _, [], _ => rfl
  | h, p :: m, H => by
    have := H p List.mem_cons_self
    rw [ctxBases, lookupBases, if_neg (by omega), ctxBases_eq h m (fun q hq => H q (List.mem_cons_of_mem _ hq))]

/-! ## Specification -/

/-- The BBS+ equation `(x + e) A = g1 + s h0 + Σ m_i h_i` for one message per generator. -/
def Valid (P : Params F G1 G2 GT) (x : F) (pk : PublicKey G1 G2) (A : G1) (e s : F) (msgs : List F) : Prop :=
  msgs.length = pk.h.length ∧ (x + e) • A = P.g1 + s • pk.h0 + ((pk.h.zip msgs).map (fun p => p.2 • p.1)).sum

/-- No generator of the key is the neutral element. -/
def WellFormed (pk : PublicKey G1 G2) : Prop := pk.h0 ≠ 0 ∧ pk.w ≠ 0 ∧ ∀ v ∈ pk.h, v ≠ 0

/-- The pairing with the fixed generator of G2 is injective. -/
def Nondeg (P : Params F G1 G2 GT) : Prop := ∀ a, P.e a P.g2 = 0 → a = 0

theorem msm_zip : ∀ (bs : List G1) (ss : List F), msm bs ss = ((bs.zip ss).map (fun p => p.2 • p.1)).sum
  | [], _ => by simp
  | _ :: _, [] => by simp
  | b :: bs, s :: ss => by simp [msm_zip bs ss]

variable (P : Params F G1 G2 GT)

theorem valid_iff (x : F) (pk : PublicKey G1 G2) (A : G1) (e s : F) (msgs : List F) :
    Valid P x pk A e s msgs ↔ msgs.length = pk.h.length ∧ (x + e) • A = getB P s msgs pk := by
  unfold Valid getB
  rw [← msm_zip]
  simp only [msm_cons, one_smul, add_assoc]

theorem getB_eq (s : F) (msgs : List F) (pk : PublicKey G1 G2) :
    getB P s msgs pk = P.g1 + s • pk.h0 + ((pk.h.zip msgs).map (fun p => p.2 • p.1)).sum := by
  unfold getB
  rw [← msm_zip]
  simp only [msm_cons, one_smul, add_assoc]

theorem computeB_eq (s : F) {msgs : List F} {pk : PublicKey G1 G2} (hl : msgs.length = pk.h.length) :
    computeB P s msgs pk = getB P s msgs pk := by
  unfold computeB getB
  have h1 : Nat.min pk.h.length msgs.length = pk.h.length := by rw [hl]; exact Nat.min_self _
  simp only [h1, List.take_length]
  rw [List.take_of_length_le (by omega)]

theorem validate_ok (pk : PublicKey G1 G2) : pk.validate = .ok () ↔ WellFormed pk := by
  unfold PublicKey.validate WellFormed
  by_cases h : pk.h0 = 0 ∨ pk.w = 0 ∨ pk.h.any (fun v => decide (v = 0)) = true
  · rw [if_pos h]
    simp only [reduceCtorEq, false_iff]
    rintro ⟨h1, h2, h3⟩
    rcases h with h | h | h
    · exact h1 h
    · exact h2 h
    · rw [List.any_eq_true] at h
      obtain ⟨v, hv, he⟩ := h
      exact h3 v hv (by simpa using he)
  · rw [if_neg h]
    simp only [true_iff]
    refine ⟨fun h1 => h (Or.inl h1), fun h2 => h (Or.inr (Or.inl h2)), fun v hv he => h (Or.inr (Or.inr ?_))⟩
    rw [List.any_eq_true]
    exact ⟨v, hv, by simp [he]⟩

theorem validate_cases (pk : PublicKey G1 G2) : pk.validate = .ok () ∨ pk.validate = .err .malformedPublicKey := by
  unfold PublicKey.validate
  split <;> simp

theorem sig_validate_ok (sig : Signature F G1) : sig.validate = .ok () ↔ sig.a ≠ 0 ∧ sig.e ≠ 0 ∧ sig.s ≠ 0 := by
  unfold Signature.validate
  by_cases h : sig.a = 0 ∨ sig.e = 0 ∨ sig.s = 0
  · rw [if_pos h]; simp only [reduceCtorEq, false_iff]; tauto
  · rw [if_neg h]; simp only [true_iff]; tauto

/-- The pairing equation of `verify`, for any `w`. -/
theorem verify_true_pairing (sig : Signature F G1) (msgs : List F) (pk : PublicKey G1 G2) :
    sig.verify P msgs pk = .ok true ↔ msgs.length = pk.h.length ∧ WellFormed pk ∧ (sig.a ≠ 0 ∧ sig.e ≠ 0 ∧ sig.s ≠ 0) ∧
      P.e sig.a (sig.e • P.g2 + pk.w) = P.e (getB P sig.s msgs pk) P.g2 := by
  unfold Signature.verify
  by_cases hl : msgs.length = pk.h.length
  · rw [if_neg (by simpa using hl)]
    rw [← validate_ok pk, ← sig_validate_ok sig]
    cases h1 : pk.validate with
    | ok u =>
      cases h2 : sig.validate with
      | ok u' =>
        simp only [Res.ok_bind, Res.pure_eq, Res.ok.injEq, decide_eq_true_eq, map_neg, LinearMap.neg_apply, hl, true_and]
        rw [← sub_eq_add_neg, sub_eq_zero]
      | err e => simp
      | panic => simp
    | err e => simp
    | panic => simp
  · rw [if_pos hl]
    simp [hl]

/-- **C39** For a key pair with `w = x g2` and a non-degenerate pairing, `verify` answers true exactly for the solutions of the
BBS+ equation (with non-zero `A`, `e`, `s` and no neutral element in the key). -/
theorem bbs_verify_iff (hnd : Nondeg P) (sig : Signature F G1) (msgs : List F) (pk : PublicKey G1 G2) (x : F)
    (hw : pk.w = x • P.g2) :
    sig.verify P msgs pk = .ok true ↔
      WellFormed pk ∧ (sig.a ≠ 0 ∧ sig.e ≠ 0 ∧ sig.s ≠ 0) ∧ Valid P x pk sig.a sig.e sig.s msgs := by
  rw [verify_true_pairing, valid_iff]
  have key : P.e sig.a (sig.e • P.g2 + pk.w) = P.e (getB P sig.s msgs pk) P.g2 ↔
      (x + sig.e) • sig.a = getB P sig.s msgs pk := by
    rw [hw]
    have : P.e sig.a (sig.e • P.g2 + x • P.g2) = P.e ((x + sig.e) • sig.a) P.g2 := by
      simp only [map_add, map_smul, LinearMap.smul_apply]
      module
    rw [this, ← sub_eq_zero, ← LinearMap.sub_apply, ← map_sub]
    exact ⟨fun h => sub_eq_zero.1 (hnd _ h), fun h => by rw [h]; simp⟩
  rw [key]
  tauto

/-- **C39** what `verify` answers in the other cases: an error for a wrong number of messages, a malformed key or a malformed
signature, otherwise false. -/
theorem bbs_verify_errors (sig : Signature F G1) (msgs : List F) (pk : PublicKey G1 G2) :
    (msgs.length ≠ pk.h.length → sig.verify P msgs pk = .err (.countMismatch pk.h.length msgs.length)) ∧
    (msgs.length = pk.h.length → ¬ WellFormed pk → sig.verify P msgs pk = .err .malformedPublicKey) ∧
    (msgs.length = pk.h.length → WellFormed pk → (sig.a = 0 ∨ sig.e = 0 ∨ sig.s = 0) →
      sig.verify P msgs pk = .err .malformedSignature) ∧
    (msgs.length = pk.h.length → WellFormed pk → (sig.a ≠ 0 ∧ sig.e ≠ 0 ∧ sig.s ≠ 0) →
      ∃ b, sig.verify P msgs pk = .ok b) := by
  refine ⟨fun h => by simp [Signature.verify, h], fun h hw => ?_, fun h hw hs => ?_, fun h hw hs => ?_⟩
  · have : pk.validate = .err .malformedPublicKey := by
      rcases validate_cases pk with h1 | h1
      · exact absurd ((validate_ok pk).1 h1) hw
      · exact h1
    simp [Signature.verify, h, this]
  · simp [Signature.verify, h, (validate_ok pk).2 hw, Signature.validate, hs]
  · rw [← sig_validate_ok] at hs
    simp [Signature.verify, h, (validate_ok pk).2 hw, hs]

/-- **C39** A signature made with the secret key for a full list of messages verifies.  (`A ≠ 0` is the condition that the
commitment `g1 + s h0 + Σ m_i h_i` is not the neutral element.) -/
theorem bbs_sign_verify (hnd : Nondeg P) (msgs : List F) (x : F) (pk : PublicKey G1 G2) (e s : F) (hx : x ≠ 0)
    (hpk : WellFormed pk) (hw : pk.w = x • P.g2) (hl : msgs.length = pk.h.length) (he : e ≠ 0) (hs : s ≠ 0) (hxe : x + e ≠ 0)
    (hB : P.g1 + s • pk.h0 + ((pk.h.zip msgs).map (fun p => p.2 • p.1)).sum ≠ 0) :
    ∃ sig, sigNew P msgs x pk e s = .ok sig ∧ sig.verify P msgs pk = .ok true := by
  have hc := computeB_eq P s hl
  have hB' : getB P s msgs pk ≠ 0 := by rwa [getB_eq]
  refine ⟨⟨(x + e)⁻¹ • getB P s msgs pk, e, s⟩, ?_, ?_⟩
  · simp [sigNew, hl, validateSk, hx, (validate_ok pk).2 hpk, hxe, hc]
  · rw [bbs_verify_iff P hnd _ _ _ x hw, valid_iff]
    refine ⟨hpk, ⟨smul_ne_zero (inv_ne_zero hxe) hB', he, hs⟩, hl, ?_⟩
    simp only
    rw [smul_smul, mul_inv_cancel₀ hxe, one_smul]

/-- **C75** (negated) `Signature::new` also signs a shorter list, and the result is a signature on the list padded with zero
messages: the same signature for both, valid for the padded list. -/
theorem bbs_short_list_is_zero_padded (msgs : List F) (x : F) (pk : PublicKey G1 G2) (e s : F)
    (hl : msgs.length ≤ pk.h.length) :
    sigNew P msgs x pk e s = sigNew P (msgs ++ List.replicate (pk.h.length - msgs.length) 0) x pk e s := by
  have zero : ∀ (bs : List G1) (n : Nat), msm bs (List.replicate n (0 : F)) = 0 := by
    intro bs
    induction bs with
    | nil => intro n; simp
    | cons b bs ih => intro n; cases n with
      | zero => simp
      | succ n => simp [List.replicate_succ, ih]
  have hc : computeB P s msgs pk = computeB P s (msgs ++ List.replicate (pk.h.length - msgs.length) 0) pk := by
    unfold computeB
    have h1 : Nat.min pk.h.length msgs.length = msgs.length := Nat.min_eq_right hl
    have h2 : Nat.min pk.h.length (msgs ++ List.replicate (pk.h.length - msgs.length) (0 : F)).length = pk.h.length := by
      rw [List.length_append, List.length_replicate]
      exact Nat.min_eq_left (by omega)
    have h3 : (msgs ++ List.replicate (pk.h.length - msgs.length) (0 : F)).take pk.h.length =
        msgs ++ List.replicate (pk.h.length - msgs.length) 0 := by
      rw [List.take_of_length_le]
      rw [List.length_append, List.length_replicate]; omega
    simp only [h1, h2, h3, List.take_length, msm_cons]
    congr 2
    conv_rhs => rw [← List.take_append_drop msgs.length pk.h]
    rw [msm_append _ _ _ _ (by simp [hl]), zero, add_zero]
  unfold sigNew
  rw [hc]
  have h4 : ¬ (msgs.length > pk.h.length) := by omega
  have h5 : ¬ ((msgs ++ List.replicate (pk.h.length - msgs.length) (0 : F)).length > pk.h.length) := by
    rw [List.length_append, List.length_replicate]; omega
  rw [if_neg h4, if_neg h5]

/-! ## Blind issuance -/

theorem keys_lt_of_get {m : List (Nat × F)} (hs : Sorted m) {n : Nat} (h : ∀ i v, mapGet m i = some v → i < n) :
    ∀ p ∈ m, p.1 < n := fun p hp => h p.1 p.2 ((mapGet_mem hs).2 hp)

/-- the contribution of a map to the commitment -/
theorem map_lookup {h : List G1} {m : List (Nat × F)} (hs : Sorted m) (hk : ∀ p ∈ m, p.1 < h.length) :
    lookupBases h m = .ok ((revealedTerms (mapGet m) 0 h).map (·.1)) ∧
    m.map (·.2) = (revealedTerms (mapGet m) 0 h).map (·.2) := by
  have := lookup_sorted [] h m hs (by simp) (by simpa using hk)
  simpa using this

/-- **C40** For every split of the messages into a hidden and a known part: the holder's context is made and accepted by the
issuer, the unblinded signature passes the holder's check, and it is the signature the issuer would have made directly with
randomness `s + blinding`. -/
theorem bbs_blind_issuance (hnd : Nondeg P) (msgs : List F) (hid known : List (Nat × F)) (x : F) (pk : PublicKey G1 G2)
    (nonce blinding r0 e s : F) (rs : List F)
    (hsh : Sorted hid) (hsk : Sorted known)
    (hsplit : ∀ i m, msgs[i]? = some m ↔ (mapGet hid i = some m ∨ mapGet known i = some m))
    (hdisj : ∀ i, mapGet hid i = none ∨ mapGet known i = none)
    (hrs : rs.length = hid.length)
    (hx : x ≠ 0) (hpk : WellFormed pk) (hw : pk.w = x • P.g2) (hl : msgs.length = pk.h.length)
    (he : e ≠ 0) (hs : s + blinding ≠ 0) (hxe : x + e ≠ 0)
    (hB : P.g1 + (s + blinding) • pk.h0 + ((pk.h.zip msgs).map (fun p => p.2 • p.1)).sum ≠ 0) :
    ∃ ctx bsig sig,
      newBlindCtx P pk hid nonce blinding r0 rs = .ok (ctx, blinding) ∧
      ctx.verify P (known.map (·.1)) pk nonce = .ok true ∧
      blindSign P ctx known x pk nonce e s = .ok bsig ∧
      completeSignature P pk msgs bsig blinding = .ok sig ∧
      sigNew P msgs x pk e (s + blinding) = .ok sig := by
  have hgetlt : ∀ i v, (mapGet hid i = some v ∨ mapGet known i = some v) → i < pk.h.length := by
    intro i v h
    have := (hsplit i v).2 h
    rw [← hl]
    exact (List.getElem?_eq_some_iff.1 this).1
  have hkh := keys_lt_of_get hsh (fun i v h => hgetlt i v (Or.inl h))
  have hkk := keys_lt_of_get hsk (fun i v h => hgetlt i v (Or.inr h))
  obtain ⟨lh, vh⟩ := map_lookup hsh hkh
  obtain ⟨lk, vk⟩ := map_lookup hsk hkk
  -- the hidden generators are the complement of the known ones
  have hcompl : ∀ j, j < pk.h.length → (mapGet hid (0 + j)).isSome = !(mapGet known (0 + j)).isSome := by
    intro j hj
    rw [Nat.zero_add]
    obtain ⟨m, hm⟩ : ∃ m, msgs[j]? = some m := ⟨msgs[j]'(by omega), by simp [hl, hj]⟩
    rcases (hsplit j m).1 hm with h | h <;> rcases hdisj j with h' | h' <;> simp_all
  have hbases : (revealedTerms (mapGet hid) 0 pk.h).map (·.1) =
      hiddenBases (fun i => (mapGet known i).isSome) 0 pk.h := revealedTerms_bases 0 pk.h hcompl
  have hvals : hid.map (·.2) = hiddenBases (fun i => (mapGet known i).isSome) 0 msgs := by
    rw [vh]
    exact revealedTerms_values 0 pk.h msgs hl.symm hcompl (fun j m hj _ => (hsplit j m).2 (Or.inl (by simpa using hj)))
  have hsum := msm_split (get := mapGet known) 0 pk.h msgs hl.symm
    (fun j m hj _ => (hsplit j m).2 (Or.inr (by simpa using hj)))
  set HB := hiddenBases (fun i => (mapGet known i).isSome) 0 pk.h with hHB
  have hlen : HB.length = (hid.map (·.2)).length := by
    rw [hvals]; exact hiddenBases_length _ _ _ _ hl.symm
  -- context
  let C := msm (pk.h0 :: HB) (blinding :: hid.map (·.2))
  let cm : Committed F G1 := (⟨pk.h0 :: HB, r0 :: rs⟩ : Committing F G1).finish
  let c := cm.genChallenge P.encG1.enc P.hashFr (P.encG1.enc C ++ P.encF.enc nonce)
  let pr : Proof F G1 := ⟨cm.commitment, List.zipWith (fun b s => b - c * s) (r0 :: rs) (blinding :: hid.map (·.2))⟩
  have hctx : newBlindCtx P pk hid nonce blinding r0 rs = .ok (⟨C, c, pr⟩, blinding) := by
    unfold newBlindCtx
    rw [ctxBases_eq _ _ hkh, lh, hbases]
    simp only [Res.ok_bind]
    have : (cm.genProof c (blinding :: hid.map (·.2))) = .ok pr := by
      simp only [Committed.genProof]
      rw [if_neg]
      · rfl
      · simp only [cm, Committing.finish, List.length_cons, ne_eq, not_not]
        omega
    have e2 : (unwrapRes (cm.genProof c (blinding :: hid.map (·.2))) : Res Error (Proof F G1)) = .ok pr := by rw [this]; rfl
    show (unwrapRes (cm.genProof c (blinding :: hid.map (fun p => p.2))) >>= fun proof =>
      (pure ((⟨C, c, proof⟩ : BlindCtx F G1), blinding) : Res Error _)) = _
    rw [e2]
    rfl
  have hpl : (pk.h0 :: HB).length = pr.responses.length := by
    simp only [pr, List.length_zipWith, List.length_cons, List.length_map] at hlen ⊢
    omega
  have hpr : msm (pk.h0 :: HB ++ [C]) (pr.responses ++ [c]) = pr.commitment := by
    rw [msm_append _ _ _ _ hpl]
    simp only [pr]
    rw [msm_sub_mul _ _ _ _ (by simp only [List.length_cons, List.length_map]; omega)]
    simp [cm, Committing.finish, C]
  have hcontains : hiddenBases (fun i => (known.map (·.1)).contains i) 0 pk.h = HB := by
    apply hiddenBases_congr
    intro j _
    exact contains_keys known (0 + j)
  have hver : (⟨C, c, pr⟩ : BlindCtx F G1).verify P (known.map (·.1)) pk nonce = .ok true := by
    unfold BlindCtx.verify
    simp only [hcontains]
    have : pr.challengeContribution (pk.h0 :: HB) C c = .ok pr.commitment := by
      unfold Proof.challengeContribution
      rw [if_neg (by simpa using hpl), hpr]
    simp only [this, liftPoK, Res.ok_bind, Res.pure_eq, sub_self, decide_true, Bool.true_and, Res.ok.injEq, decide_eq_true_eq]
    rw [sub_eq_zero]
    simp only [c, Committed.genChallenge, Committed.toBytes, cm, Committing.finish, pr]
    simp
  have hblen : ¬ (known.length > pk.h.length) := by
    have hnd : (known.map (·.1)).Nodup := by
      rw [List.nodup_iff_pairwise_ne, List.pairwise_map]
      exact hsk.imp (fun h => Nat.ne_of_lt h)
    have hsub : (known.map (·.1)) ⊆ List.range pk.h.length := by
      intro i hi
      obtain ⟨p, hp, rfl⟩ := List.mem_map.1 hi
      exact List.mem_range.2 (hkk p hp)
    have := (hnd.subperm hsub).length_le
    simp at this
    omega
  -- the blind signature
  let b := msm (C :: P.g1 :: pk.h0 :: (revealedTerms (mapGet known) 0 pk.h).map (·.1)) (1 :: 1 :: s :: known.map (·.2))
  have hb : b = getB P (s + blinding) msgs pk := by
    simp only [b, C, getB, msm_cons, one_smul, vk, hsum, hvals]
    module
  have hbs : blindSign P ⟨C, c, pr⟩ known x pk nonce e s = .ok ⟨(x + e)⁻¹ • b, e, s⟩ := by
    unfold blindSign
    rw [hver]
    simp only [Res.ok_bind, if_true]
    unfold blindSigNew
    rw [if_neg hblen]
    simp only [validateSk, hx, if_false, Res.ok_bind, (validate_ok pk).2 hpk, lk, hxe]
    rfl
  have hc := computeB_eq P (s + blinding) hl
  have hB' : getB P (s + blinding) msgs pk ≠ 0 := by rwa [getB_eq]
  refine ⟨⟨C, c, pr⟩, ⟨(x + e)⁻¹ • b, e, s⟩, ⟨(x + e)⁻¹ • b, e, s + blinding⟩, hctx, hver, hbs, ?_, ?_⟩
  · have hv : (⟨(x + e)⁻¹ • b, e, s + blinding⟩ : Signature F G1).verify P msgs pk = .ok true := by
      rw [bbs_verify_iff P hnd _ _ _ x hw, valid_iff]
      rw [hb]
      refine ⟨hpk, ⟨smul_ne_zero (inv_ne_zero hxe) hB', he, hs⟩, hl, ?_⟩
      simp only
      rw [smul_smul, mul_inv_cancel₀ hxe, one_smul]
    simp only [completeSignature, Signature.unblind, hv, Res.ok_bind, if_true]
  · simp [sigNew, hl, validateSk, hx, (validate_ok pk).2 hpk, hxe, hc, hb]

end
end Verif.BBS
