import Verif.BP.Ipp
import Verif.Toy
import Mathlib.Tactic.Abel
import Mathlib.Tactic.Module
import Mathlib.Tactic.LinearCombination
import Mathlib.Tactic.FieldSimp
import Mathlib.Tactic.Linarith
import Mathlib.Data.Nat.Log
set_option linter.unusedSectionVars false
set_option linter.unusedSimpArgs false
set_option linter.unusedVariables false
/-!
# Inner product argument: completeness and failure modes (C109, C111)
-/
namespace Verif.BP
variable {F V : Type} [Field F] [AddCommGroup V] [Module F V] [DecidableEq F] [DecidableEq V]

/-! ## Sums of vectors -/

theorem msm_append {a a' : List F} {G G' : List V} (h : a.length = G.length) :
    msm (a ++ a') (G ++ G') = msm a G + msm a' G' := by
  simp only [msm]; rw [List.zipWith_append h, List.sum_append]

@[simp] theorem msm_nil_left (G : List V) : msm ([] : List F) G = 0 := rfl
@[simp] theorem msm_nil_right (a : List F) : msm a ([] : List V) = 0 := by simp [msm]
@[simp] theorem msm_cons (x : F) (a : List F) (g : V) (G : List V) : msm (x :: a) (g :: G) = x • g + msm a G := by simp [msm]
@[simp] theorem inner_nil_left (G : List F) : inner ([] : List F) G = 0 := rfl
@[simp] theorem inner_nil_right (a : List F) : inner a ([] : List F) = 0 := by simp [inner]
@[simp] theorem inner_cons (x : F) (a : List F) (g : F) (G : List F) : inner (x :: a) (g :: G) = x * g + inner a G := by simp [inner]

theorem inner_append {a a' b b' : List F} (h : a.length = b.length) : inner (a ++ a') (b ++ b') = inner a b + inner a' b' := by
  simp only [inner]; rw [List.zipWith_append h, List.sum_append]

theorem msm_single (x : F) (g : V) : msm [x] [g] = x • g := by simp [msm]

theorem msm_map_mul (x : F) (a : List F) (G : List V) : msm (a.map (fun y => x * y)) G = x • msm a G := by
  induction a generalizing G with
  | nil => simp
  | cons y a ih => cases G with
    | nil => simp
    | cons g G => simp [ih, smul_add, mul_smul]

theorem msm_hadamard (a f : List F) (G : List V) : msm (hadamard a f) G = msm a (List.zipWith (· • ·) f G) := by
  induction a generalizing f G with
  | nil => simp [hadamard]
  | cons y a ih =>
    cases f with
    | nil => simp [hadamard]
    | cons z f =>
      cases G with
      | nil => simp
      | cons g G => simp [hadamard, mul_smul]; exact ih f G

/-- a vector polynomial evaluated: `a·x + b·y` -/
theorem msm_lin (x y : F) (a b : List F) (G : List V) (h : a.length = b.length) :
    msm (List.zipWith (fun l r => l * x + y * r) a b) G = x • msm a G + y • msm b G := by
  induction a generalizing b G with
  | nil => cases b <;> simp_all
  | cons u a ih =>
    cases b with
    | nil => simp at h
    | cons v b =>
      cases G with
      | nil => simp
      | cons g G =>
        simp only [List.zipWith_cons_cons, msm_cons, ih b G (by simpa using h)]
        module

theorem inner_lin (x y z w : F) (a b c d : List F) (h : a.length = b.length) (h' : c.length = d.length) (h'' : a.length = c.length) :
    inner (List.zipWith (fun l r => l * x + y * r) a b) (List.zipWith (fun l r => l * z + w * r) c d) =
      x * z * inner a c + x * w * inner a d + y * z * inner b c + y * w * inner b d := by
  induction a generalizing b c d with
  | nil =>
    have hb : b = [] := List.length_eq_zero_iff.1 (by simpa using h.symm)
    have hc : c = [] := List.length_eq_zero_iff.1 (by simpa using h''.symm)
    subst hb hc
    simp
  | cons u a ih =>
    cases b with
    | nil => simp at h
    | cons v b =>
      cases c with
      | nil => simp at h''
      | cons s c =>
        cases d with
        | nil => simp at h'
        | cons t d =>
          simp only [List.zipWith_cons_cons, inner_cons, ih b c d (by simpa using h) (by simpa using h') (by simpa using h'')]
          ring

theorem msm_fold (x y : F) (a : List F) (G H : List V) (h : G.length = H.length) :
    msm a (List.zipWith (fun l r => x • l + y • r) G H) = x • msm a G + y • msm a H := by
  induction a generalizing G H with
  | nil => simp
  | cons u a ih =>
    cases G with
    | nil => cases H <;> simp_all
    | cons v b =>
      cases H with
      | nil => simp at h
      | cons g G =>
        simp only [List.zipWith_cons_cons, msm_cons, ih b G (by simpa using h)]
        module

theorem foldBases_some (x y : F) (fL fR : List F) (GL GR : List V) :
    foldBases (some (fL, fR)) x y GL GR = foldBases none x y (List.zipWith (· • ·) fL GL) (List.zipWith (· • ·) fR GR) := by
  simp only [foldBases]
  induction GL generalizing GR fL fR with
  | nil => simp
  | cons g GL ih =>
    cases GR with
    | nil => simp
    | cons g' GR =>
      cases fL with
      | nil => simp
      | cons f fL =>
        cases fR with
        | nil => simp
        | cons f' fR =>
          have := ih fL fR GR
          simp only [mul_smul] at this
          simp [mul_smul, this]

/-! ## The vector `s` -/

/-- what `s` is: the products of the challenges and their inverses, by the bits of the index -/
def sVec : List F → List F
  | [] => [1]
  | x :: xs => (sVec xs).map (fun y => x⁻¹ * y) ++ (sVec xs).map (fun y => x * y)

@[simp] theorem sVec_length (xs : List F) : (sVec xs).length = 2 ^ xs.length := by
  induction xs with
  | nil => rfl
  | cons x xs ih => simp [sVec, ih, pow_succ]; ring

theorem sVec_zero (xs : List F) : (sVec xs)[0]? = some ((xs.map (·⁻¹)).prod) := by
  induction xs with
  | nil => rfl
  | cons x xs ih =>
    rw [sVec, List.getElem?_append_left (by simp), List.getElem?_map, ih]; simp

theorem sVec_step (xs : List F) (hx : ∀ x ∈ xs, x ≠ 0) (i : Nat) (h0 : 0 < i) (hi : i < 2 ^ xs.length) :
    Nat.log2 i < xs.length ∧ i - 2 ^ Nat.log2 i < i ∧
    ∃ p x, (sVec xs)[i - 2 ^ Nat.log2 i]? = some p ∧ (xs.map fun x => x * x)[(xs.length - 1) - Nat.log2 i]? = some x ∧
      (sVec xs)[i]? = some (p * x) := by
  have hlog : Nat.log2 i < xs.length := (Nat.log2_lt (by omega)).2 hi
  have hle : 2 ^ Nat.log2 i ≤ i := Nat.log2_self_le (by omega)
  have hpos : 0 < 2 ^ Nat.log2 i := by positivity
  refine ⟨hlog, by omega, ?_⟩
  induction xs with
  | nil => simp at hlog
  | cons x xs ih =>
    have hx0 : x ≠ 0 := hx x (by simp)
    by_cases h : i < 2 ^ xs.length
    · have hl' : Nat.log2 i < xs.length := (Nat.log2_lt (by omega)).2 h
      obtain ⟨p, c, e1, e2, e3⟩ := ih (fun y hy => hx y (by simp [hy])) h hl'
      refine ⟨x⁻¹ * p, c, ?_, ?_, ?_⟩
      · rw [sVec, List.getElem?_append_left (by simp; omega), List.getElem?_map, e1]; rfl
      · rw [List.map_cons, List.length_cons]
        have : xs.length + 1 - 1 - Nat.log2 i = (xs.length - 1 - Nat.log2 i) + 1 := by omega
        rw [this, List.getElem?_cons_succ, e2]
      · rw [sVec, List.getElem?_append_left (by simp; omega), List.getElem?_map, e3]; simp [mul_assoc]
    · have hlog' : Nat.log2 i = xs.length := by
        simp only [List.length_cons] at hlog
        have : ¬ Nat.log2 i < xs.length := fun hh => h ((Nat.log2_lt (by omega)).1 hh)
        omega
      simp only [List.length_cons, pow_succ] at hi
      have hlt : i - 2 ^ xs.length < 2 ^ xs.length := by omega
      obtain ⟨p, hp⟩ : ∃ p, (sVec xs)[i - 2 ^ xs.length]? = some p :=
        ⟨_, List.getElem?_eq_getElem (by simpa using hlt)⟩
      refine ⟨x⁻¹ * p, x * x, ?_, ?_, ?_⟩
      · rw [hlog', sVec, List.getElem?_append_left (by simpa using hlt), List.getElem?_map, hp]; rfl
      · simp [hlog']
      · rw [sVec, List.getElem?_append_right (by simp; omega), List.getElem?_map]
        simp only [List.length_map, sVec_length, hp, Option.map_some, Option.some.injEq]
        field_simp

theorem sLoop_eq (xs : List F) (hx : ∀ x ∈ xs, x ≠ 0) (r : Nat) : ∀ s : List F, 0 < s.length → s.length + r = 2 ^ xs.length →
    s = (sVec xs).take s.length → sLoop xs.length (xs.map fun x => x * x) r s = .ok (sVec xs) := by
  induction r with
  | zero =>
    intro s _ hl hs
    rw [sLoop, hs, List.take_of_length_le]
    simp; omega
  | succ r ih =>
    intro s h0 hl hs
    obtain ⟨hlog, hlt, p, x, e1, e2, e3⟩ := sVec_step xs hx s.length h0 (by omega)
    have hp : s[s.length - 2 ^ Nat.log2 s.length]? = some p := by
      rw [hs, List.getElem?_take]
      rw [← hs]
      rw [if_pos hlt, e1]
    rw [sLoop]
    rw [if_neg (by omega), e2]
    simp only [Res.unwrap_some, Res.ok_bind]
    rw [hp]
    simp only [Res.unwrap_some, Res.ok_bind]
    refine ih _ (by simp) (by simp; omega) ?_
    rw [List.length_append, List.length_singleton, List.take_add_one, e3, ← hs]
    rfl

theorem sVec_reverse_cons (x : F) (xs : List F) : (sVec (x :: xs)).reverse =
    (sVec xs).reverse.map (fun y => x * y) ++ (sVec xs).reverse.map (fun y => x⁻¹ * y) := by
  simp [sVec, List.reverse_append]

/-- sum of the squares of the challenges times the points -/
def sqSum (xs : List F) (L : List V) : V := msm (xs.map fun x => x * x) L
/-- sum of the squares of the inverses times the points -/
def invSqSum (xs : List F) (R : List V) : V := msm (xs.map fun x => x⁻¹ * x⁻¹) R

theorem ippChallenges_length (O : Transcript F V → F) (L : List V) : ∀ (R : List V) (tr : Transcript F V), R.length = L.length →
    (ippChallenges O tr L R).1.length = L.length := by
  induction L with
  | nil => intros; simp [ippChallenges]
  | cons l L ih =>
    intro R tr h
    cases R with
    | nil => simp at h
    | cons r R => simp [ippChallenges, ih R _ (by simpa using h)]

theorem verificationScalars_ok (O : Transcript F V → F) (L R : List V) (tr : Transcript F V)
    (h32 : L.length < 32) (hLR : R.length = L.length)
    (hx : ∀ x ∈ (ippChallenges O (ippDomSep (2 ^ L.length) tr) L R).1, x ≠ 0) :
    verificationScalars O L R (2 ^ L.length) tr =
      let c := ippChallenges O (ippDomSep (2 ^ L.length) tr) L R
      .ok ((c.1.map (fun x => x * x), c.1.map (fun x => x⁻¹ * x⁻¹), sVec c.1), c.2) := by
  rw [verificationScalars]
  simp only
  rw [if_neg (by omega), if_neg (by simp)]
  generalize hc : ippChallenges O (ippDomSep (2 ^ L.length) tr) L R = c at *
  have hl : c.1.length = L.length := by rw [← hc]; exact ippChallenges_length O _ _ _ hLR
  rw [if_neg]
  swap
  · rintro ⟨h1, h2⟩; rw [h2] at hl; simp at hl; omega
  have : (if L.length > 0 then (c.1.map (·⁻¹)).prod else 1) = (c.1.map (·⁻¹)).prod := by
    split
    · rfl
    · have : c.1 = [] := List.length_eq_zero_iff.1 (by omega)
      simp [this]
  rw [this, ← hl, sLoop_eq c.1 hx]
  · rfl
  · simp
  · simp; have : 0 < 2 ^ c.1.length := by positivity
    omega
  · have h0 := sVec_zero c.1
    have : (sVec c.1).length > 0 := by simp
    cases hs : sVec c.1 with
    | nil => simp [hs] at this
    | cons y ys => simp [hs] at h0; simp [h0]

/-- the bases multiplied by their factors -/
def scaleBy (f : List F) (G : List V) : List V := List.zipWith (· • ·) f G

theorem scaleBy_length (f : List F) (G : List V) (h : f.length = G.length) : (scaleBy f G).length = G.length := by simp [scaleBy, h]

theorem zipWith_mul_scale (a : F) (s f : List F) (G : List V) (h : f.length = s.length) :
    msm (List.zipWith (fun g s => a * s * g) f s) G = a • msm s (scaleBy f G) := by
  induction f generalizing s G with
  | nil => cases s <;> simp_all
  | cons x f ih =>
    cases s with
    | nil => simp at h
    | cons y s =>
      cases G with
      | nil => simp [scaleBy]
      | cons g G =>
        have := ih s G (by simpa using h)
        simp only [scaleBy] at this ⊢
        simp only [List.zipWith_cons_cons, msm_cons, this]
        module

theorem msm_neg (xs : List F) (f : F → F) (L : List V) : msm ((xs.map f).map (fun x => -x)) L = - msm (xs.map f) L := by
  have := msm_map_mul (-1 : F) (xs.map f) L
  simpa using this

/-- What `verify_ipp` checks, for inputs of the right lengths. -/
theorem verifyIpp_iff (O : Transcript F V → F) (tr : Transcript F V) (gf hf : List F) (P u : V) (G H L R : List V) (a b : F)
    (h32 : L.length < 32) (hR : R.length = L.length) (hG : G.length = 2 ^ L.length) (hH : H.length = 2 ^ L.length)
    (hgf : gf.length = 2 ^ L.length) (hhf : hf.length = 2 ^ L.length) (xs : List F)
    (hxs : (ippChallenges O (ippDomSep (2 ^ L.length) tr) L R).1 = xs) (hx : ∀ x ∈ xs, x ≠ 0) :
    verifyIpp O (2 ^ L.length) tr gf hf P u G H a b L R =
      if P = (a * b) • u + a • msm (sVec xs) (scaleBy gf G) + b • msm (sVec xs).reverse (scaleBy hf H) - sqSum xs L - invSqSum xs R
      then .ok () else .err .ipp := by
  have hxl : xs.length = L.length := by rw [← hxs]; exact ippChallenges_length O _ _ _ hR
  rw [verifyIpp, verificationScalars_ok O L R tr h32 hR (by rw [hxs]; exact hx)]
  simp only [hxs]
  have ht : (List.zipWith (fun g s => a * s * g) gf (sVec xs)).take G.length = List.zipWith (fun g s => a * s * g) gf (sVec xs) := by
    apply List.take_of_length_le; simp [hG, hgf]
  rw [ht, msmUnwrap, if_pos (by simp [hG, hH, hgf, hhf, hR, hxl])]
  simp only [Res.ok_bind]
  rw [msm_append (by simp [hG, hH, hgf, hhf, hR, hxl]), msm_append (by simp [hG, hH, hgf, hhf, hR, hxl]),
    msm_append (by simp [hG, hH, hgf, hhf, hR, hxl]), msm_append (by simp), msm_single, zipWith_mul_scale _ _ _ _ (by simp [hgf, hxl]),
    zipWith_mul_scale _ _ _ _ (by simp [hhf, hxl]), msm_neg, msm_neg]
  simp only [sqSum, invSqSum, sub_eq_add_neg, eq_comm]

theorem split_msm (n : Nat) (a : List F) (G : List V) (h : (a.take n).length = (G.take n).length) :
    msm a G = msm (a.take n) (G.take n) + msm (a.drop n) (G.drop n) := by
  rw [← msm_append h, List.take_append_drop, List.take_append_drop]

theorem split_inner (n : Nat) (a b : List F) (h : (a.take n).length = (b.take n).length) :
    inner a b = inner (a.take n) (b.take n) + inner (a.drop n) (b.drop n) := by
  rw [← inner_append h, List.take_append_drop, List.take_append_drop]

theorem sFold (x y : F) (t : List F) (G : List V) (n : Nat) (h1 : (G.take n).length = n) (h2 : (G.drop n).length = n) (ht : t.length = n) :
    msm (t.map (fun z => x * z) ++ t.map (fun z => y * z)) G = msm t (foldBases none x y (G.take n) (G.drop n)) := by
  conv_lhs => rw [← List.take_append_drop n G]
  rw [msm_append (by simp [ht, h1]), msm_map_mul, msm_map_mul]
  simp only [foldBases]
  rw [msm_fold _ _ _ _ _ (by omega)]

theorem round_eq (u : V) (GL GR HL HR : List V) (aL aR bL bR : List F) (n : Nat) (h1 : GL.length = n) (h2 : GR.length = n) (h3 : HL.length = n)
    (h4 : HR.length = n) (h5 : aL.length = n) (h6 : aR.length = n) (h7 : bL.length = n) (h8 : bR.length = n) (x : F) (hx : x ≠ 0) :
    msm (List.zipWith (fun l r => l * x + x⁻¹ * r) aL aR) (foldBases none x⁻¹ x GL GR) +
      msm (List.zipWith (fun l r => l * x⁻¹ + x * r) bL bR) (foldBases none x x⁻¹ HL HR) +
      inner (List.zipWith (fun l r => l * x + x⁻¹ * r) aL aR) (List.zipWith (fun l r => l * x⁻¹ + x * r) bL bR) • u =
    msm aL GL + msm aR GR + (msm bL HL + msm bR HR) + (inner aL bL + inner aR bR) • u +
      (x * x) • msm (aL ++ bR ++ [inner aL bR]) (GR ++ HL ++ [u]) +
      (x⁻¹ * x⁻¹) • msm (aR ++ bL ++ [inner aR bL]) (GL ++ HR ++ [u]) := by
  simp only [foldBases]
  rw [msm_fold _ _ _ _ _ (by omega), msm_fold _ _ _ _ _ (by omega), msm_lin _ _ _ _ _ (by omega), msm_lin _ _ _ _ _ (by omega),
    msm_lin _ _ _ _ _ (by omega), msm_lin _ _ _ _ _ (by omega), inner_lin _ _ _ _ _ _ _ _ (by omega) (by omega) (by omega),
    msm_append (by simp; omega), msm_append (by omega), msm_append (by simp; omega), msm_append (by omega), msm_single, msm_single]
  have e1 : x * x⁻¹ = 1 := mul_inv_cancel₀ hx
  match_scalars <;> field_simp
  ring

/-- ipp.rs: one run of the loop without factors keeps the relation -/
theorem ippLoop_none (O : Transcript F V → F) (u : V) (k : Nat) : ∀ (tr : Transcript F V) (G H : List V) (a b : List F),
    G.length = 2 ^ k → H.length = 2 ^ k → a.length = 2 ^ k → b.length = 2 ^ k →
    let q := (ippLoop O u k tr none G H a b).1
    q.L.length = k ∧ q.R.length = k ∧ (∀ xs, (ippChallenges O tr q.L q.R).1 = xs → (∀ x ∈ xs, x ≠ 0) →
      msm a G + msm b H + inner a b • u + sqSum xs q.L + invSqSum xs q.R =
        (q.a * q.b) • u + q.a • msm (sVec xs) G + q.b • msm (sVec xs).reverse H) := by
  induction k with
  | zero =>
    intro tr G H a b hG hH ha hb
    simp only [pow_zero] at hG hH ha hb
    obtain ⟨g, rfl⟩ := List.length_eq_one_iff.1 hG
    obtain ⟨h, rfl⟩ := List.length_eq_one_iff.1 hH
    obtain ⟨x, rfl⟩ := List.length_eq_one_iff.1 ha
    obtain ⟨y, rfl⟩ := List.length_eq_one_iff.1 hb
    simp only [ippLoop, List.length_nil, true_and]
    rintro xs rfl -
    simp [ippChallenges, sVec, sqSum, invSqSum, msm]
    abel
  | succ k ih =>
    intro tr G H a b hG hH ha hb
    simp only [ippLoop, Option.map_none, withFactors]
    have l1 : ∀ {α : Type} (l : List α), l.length = 2 ^ (k + 1) → (l.take (2 ^ k)).length = 2 ^ k := by
      intro α l hl; rw [List.length_take, hl, pow_succ]; omega
    have l2 : ∀ {α : Type} (l : List α), l.length = 2 ^ (k + 1) → (l.drop (2 ^ k)).length = 2 ^ k := by
      intro α l hl; rw [List.length_drop, hl, pow_succ]; omega
    generalize hc : challengeScalar O "x" _ = c
    have hround := round_eq u (G.take (2 ^ k)) (G.drop (2 ^ k)) (H.take (2 ^ k)) (H.drop (2 ^ k)) (a.take (2 ^ k)) (a.drop (2 ^ k))
      (b.take (2 ^ k)) (b.drop (2 ^ k)) (2 ^ k) (l1 _ hG) (l2 _ hG) (l1 _ hH) (l2 _ hH) (l1 _ ha) (l2 _ ha) (l1 _ hb) (l2 _ hb) c.1
    have hfG := split_msm (2 ^ k) a G (by rw [l1 _ ha, l1 _ hG])
    have hfH := split_msm (2 ^ k) b H (by rw [l1 _ hb, l1 _ hH])
    have hfi := split_inner (2 ^ k) a b (by rw [l1 _ ha, l1 _ hb])
    have hG' : (foldBases none c.1⁻¹ c.1 (G.take (2 ^ k)) (G.drop (2 ^ k))).length = 2 ^ k := by
      simp only [foldBases, List.length_zipWith, l1 _ hG, l2 _ hG, min_self]
    have hH' : (foldBases none c.1 c.1⁻¹ (H.take (2 ^ k)) (H.drop (2 ^ k))).length = 2 ^ k := by
      simp only [foldBases, List.length_zipWith, l1 _ hH, l2 _ hH, min_self]
    obtain ⟨i1, i2, i3⟩ := ih c.2 _ _ (List.zipWith (fun l r => l * c.1 + c.1⁻¹ * r) (a.take (2 ^ k)) (a.drop (2 ^ k)))
      (List.zipWith (fun l r => l * c.1⁻¹ + c.1 * r) (b.take (2 ^ k)) (b.drop (2 ^ k))) hG' hH'
      (by simp only [List.length_zipWith, l1 _ ha, l2 _ ha, min_self]) (by simp only [List.length_zipWith, l1 _ hb, l2 _ hb, min_self])
    generalize hq : (ippLoop O u k c.2 none _ _ _ _).1 = q at *
    generalize hL : msm (a.take (2 ^ k) ++ b.drop (2 ^ k) ++ [inner (a.take (2 ^ k)) (b.drop (2 ^ k))])
      (G.drop (2 ^ k) ++ H.take (2 ^ k) ++ [u]) = L at *
    generalize hR : msm (a.drop (2 ^ k) ++ b.take (2 ^ k) ++ [inner (a.drop (2 ^ k)) (b.take (2 ^ k))])
      (G.take (2 ^ k) ++ H.drop (2 ^ k) ++ [u]) = R at *
    refine ⟨by simp [i1], by simp [i2], ?_⟩
    intro xs hxs hx
    simp only [ippChallenges, hc] at hxs
    subst hxs
    have hx0 : c.1 ≠ 0 := hx _ (by simp)
    have i4 := i3 _ rfl (fun x hx' => hx x (by simp [hx']))
    have hxl := ippChallenges_length O q.L q.R c.2 (by omega)
    rw [i1] at hxl
    generalize (ippChallenges O c.2 q.L q.R).1 = xs at *
    rw [sVec_reverse_cons, sVec]
    have e1 := sFold c.1⁻¹ c.1 (sVec xs) G (2 ^ k) (l1 _ hG) (l2 _ hG)
    have e2 := sFold c.1 c.1⁻¹ (sVec xs).reverse H (2 ^ k) (l1 _ hH) (l2 _ hH)
    have hsl : (sVec xs).length = 2 ^ k := by
      have : xs.length = k := hxl
      rw [sVec_length, this]
    rw [e1 hsl, e2 (by simp [hsl]), ← i4, hround hx0, hfG, hfH, hfi]
    simp only [sqSum, invSqSum, List.map_cons, msm_cons]
    abel

theorem ippLoop_factors (O : Transcript F V → F) (u : V) (k : Nat) (tr : Transcript F V) (gf hf : List F) (G H : List V) (a b : List F)
    (hG : G.length = 2 ^ k) (hH : H.length = 2 ^ k) (ha : a.length = 2 ^ k) (hb : b.length = 2 ^ k) (hgf : gf.length = 2 ^ k)
    (hhf : hf.length = 2 ^ k) :
    ippLoop O u k tr (some (gf, hf)) G H a b = ippLoop O u k tr none (scaleBy gf G) (scaleBy hf H) a b := by
  cases k with
  | zero => rfl
  | succ k =>
    have l1 : ∀ {α : Type} (l : List α), l.length = 2 ^ (k + 1) → (l.take (2 ^ k)).length = 2 ^ k := by
      intro α l hl; rw [List.length_take, hl, pow_succ]; omega
    have l2 : ∀ {α : Type} (l : List α), l.length = 2 ^ (k + 1) → (l.drop (2 ^ k)).length = 2 ^ k := by
      intro α l hl; rw [List.length_drop, hl, pow_succ]; omega
    have key : ∀ (a b fa fb : List F) (c : F) (A B : List V), a.length = 2 ^ k → b.length = 2 ^ k → fa.length = 2 ^ k → fb.length = 2 ^ k →
        A.length = 2 ^ k → B.length = 2 ^ k →
        msm (hadamard a fa ++ hadamard b fb ++ [c]) (A ++ B ++ [u]) = msm (a ++ b ++ [c]) (scaleBy fa A ++ scaleBy fb B ++ [u]) := by
      intro a b fa fb c A B h1 h2 h3 h4 h5 h6
      rw [msm_append (by simp [hadamard, *]), msm_append (by simp [hadamard, *]), msm_append (by simp [scaleBy, *]),
        msm_append (by simp [scaleBy, *]), msm_hadamard, msm_hadamard]
      rfl
    simp only [ippLoop, Option.map_some, Option.map_none, withFactors]
    rw [key _ _ _ _ _ _ _ (l1 _ ha) (l2 _ hb) (l2 _ hgf) (l1 _ hhf) (l2 _ hG) (l1 _ hH),
      key _ _ _ _ _ _ _ (l2 _ ha) (l1 _ hb) (l1 _ hgf) (l2 _ hhf) (l1 _ hG) (l2 _ hH)]
    simp only [foldBases_some]
    simp only [scaleBy, List.take_zipWith, List.drop_zipWith]

/-- **C109 (completeness of the inner product argument).** For vectors of `2^k` entries (`k < 32`), any factors, bases, transcript and oracle:
`create_ipp` returns a proof with `k` points in each of its vectors, and `verify_ipp`, run on the same transcript with
`P = ⟨a∘G_factors, G⟩ + ⟨b∘H_factors, H⟩ + ⟨a,b⟩·u`, accepts it, provided no challenge is zero. -/
theorem ipp_complete (O : Transcript F V → F) (tr : Transcript F V) (u : V) (gf hf : List F) (G H : List V) (a b : List F) (k : Nat) (hk : k < 32)
    (hG : G.length = 2 ^ k) (hH : H.length = 2 ^ k) (ha : a.length = 2 ^ k) (hb : b.length = 2 ^ k) (hgf : gf.length = 2 ^ k)
    (hhf : hf.length = 2 ^ k) :
    ∃ p tr', createIpp O tr u gf hf G H a b = .ok (p, tr') ∧ p.L.length = k ∧ p.R.length = k ∧
      ((∀ x ∈ (ippChallenges O (ippDomSep (2 ^ k) tr) p.L p.R).1, x ≠ 0) →
        verifyIpp O (2 ^ k) tr gf hf (msm (hadamard a gf) G + msm (hadamard b hf) H + inner a b • u) u G H p.a p.b p.L p.R = .ok ()) := by
  have hlog : Nat.log2 (2 ^ k) = k := Nat.log2_two_pow
  refine ⟨(ippLoop O u k (ippDomSep (2 ^ k) tr) (some (gf, hf)) G H a b).1, (ippLoop O u k (ippDomSep (2 ^ k) tr) (some (gf, hf)) G H a b).2, ?_, ?_⟩
  · rw [createIpp]
    simp only [hG, hH, ha, hb, hgf, hhf, hlog, ne_eq, not_true, if_false]
  rw [ippLoop_factors O u k _ _ _ _ _ _ _ hG hH ha hb hgf hhf]
  obtain ⟨h1, h2, h3⟩ := ippLoop_none O u k (ippDomSep (2 ^ k) tr) (scaleBy gf G) (scaleBy hf H) a b (by rw [scaleBy_length _ _ (by omega), hG])
    (by rw [scaleBy_length _ _ (by omega), hH]) ha hb
  generalize (ippLoop O u k _ none _ _ a b).1 = q at *
  refine ⟨h1, h2, fun hx => ?_⟩
  have h4 := h3 _ rfl hx
  have hv := verifyIpp_iff O tr gf hf (msm (hadamard a gf) G + msm (hadamard b hf) H + inner a b • u) u G H q.L q.R q.a q.b (by omega) (by omega)
    (by rw [h1, hG]) (by rw [h1, hH]) (by rw [h1, hgf]) (by rw [h1, hhf]) _ rfl (by rw [h1]; exact hx)
  rw [h1] at hv
  rw [hv, if_pos]
  rw [← h4, msm_hadamard, msm_hadamard]
  simp only [scaleBy]
  abel

/-! ## Failure modes -/

/-- **C111.** `verify_ipp` panics instead of returning an error when the number of points of the proof is not the logarithm of `n` (or is 32 or more). -/
theorem verifyIpp_bad_length_panics (O : Transcript F V → F) (n : Nat) (tr : Transcript F V) (gf hf : List F) (P u : V) (G H : List V) (a b : F)
    (L R : List V) (h : L.length ≥ 32 ∨ n ≠ 2 ^ L.length) : verifyIpp O n tr gf hf P u G H a b L R = .panic := by
  rw [verifyIpp, verificationScalars]
  simp only
  by_cases h1 : L.length ≥ 32
  · rw [if_pos h1]
  · rw [if_neg h1, if_pos (by tauto)]

theorem ippChallenges_short (O : Transcript F V → F) (L : List V) : ∀ (R : List V) (tr : Transcript F V), R.length ≤ L.length →
    (ippChallenges O tr L R).1.length = R.length := by
  induction L with
  | nil => intro R tr h; cases R with
    | nil => simp [ippChallenges]
    | cons => simp at h
  | cons l L ih =>
    intro R tr h
    cases R with
    | nil => simp [ippChallenges]
    | cons r R => simp [ippChallenges, ih R _ (by simpa using h)]

/-- **C111.** `verification_scalars`, which the verifier of constraint systems calls as well, panics when the second vector of points is shorter than
the first. -/
theorem verificationScalars_short_panics (O : Transcript F V → F) (L R : List V) (tr : Transcript F V) (h32 : L.length < 32)
    (h : R.length < L.length) : verificationScalars O L R (2 ^ L.length) tr = .panic := by
  rw [verificationScalars]
  simp only
  rw [if_neg (by omega), if_neg (by simp)]
  have hl := ippChallenges_short O L R (ippDomSep (2 ^ L.length) tr) (by omega)
  generalize ippChallenges O (ippDomSep (2 ^ L.length) tr) L R = c at *
  by_cases h0 : c.1 = []
  · rw [if_pos ⟨by omega, h0⟩]
  · rw [if_neg (by tauto)]
    have : ∃ r, 2 ^ L.length - 1 = r + 1 := ⟨2 ^ L.length - 2, by
      have : 2 ^ 1 ≤ 2 ^ L.length := Nat.pow_le_pow_right (by omega) (by omega)
      omega⟩
    obtain ⟨r, hr⟩ := this
    rw [hr, sLoop]
    have hlog : Nat.log2 1 = 0 := by decide
    simp only [List.length_singleton, hlog]
    rw [if_neg (by omega)]
    have : (c.1.map fun x => x * x)[L.length - 1 - 0]? = none := by
      rw [List.getElem?_eq_none_iff]; simp; omega
    rw [this]
    rfl

theorem sLoop_length (lgN : Nat) (sq : List F) (r : Nat) : ∀ s s' : List F, sLoop lgN sq r s = .ok s' → s'.length = s.length + r := by
  induction r with
  | zero => intro s s' h; simp only [sLoop, Res.ok.injEq] at h; subst h; rfl
  | succ r ih =>
    intro s s' h
    rw [sLoop] at h
    split at h
    · simp at h
    · obtain ⟨x, -, h⟩ := Res.bind_eq_ok.1 h
      obtain ⟨p, -, h⟩ := Res.bind_eq_ok.1 h
      have := ih _ _ h
      simp at this; omega

theorem ippChallenges_le (O : Transcript F V → F) (L : List V) : ∀ (R : List V) (tr : Transcript F V), (ippChallenges O tr L R).1.length ≤ L.length := by
  induction L with
  | nil => intro R tr; simp [ippChallenges]
  | cons l L ih =>
    intro R tr
    cases R with
    | nil => simp [ippChallenges]
    | cons r R => simp [ippChallenges, ih R _]

/-- **C111.** `verify_ipp` panics when the two vectors of points of the proof have different lengths, all inputs of the verifier having the right
length. -/
theorem verifyIpp_unequal_panics (O : Transcript F V → F) (n : Nat) (tr : Transcript F V) (gf hf : List F) (P u : V) (G H : List V) (a b : F)
    (L R : List V) (hG : G.length = n) (hH : H.length = n) (hgf : gf.length = n) (hhf : hf.length = n) (h : R.length ≠ L.length) :
    verifyIpp O n tr gf hf P u G H a b L R = .panic := by
  by_cases hb : L.length ≥ 32 ∨ n ≠ 2 ^ L.length
  · exact verifyIpp_bad_length_panics O n tr gf hf P u G H a b L R hb
  push Not at hb
  obtain ⟨h32, hn⟩ := hb
  by_cases hlt : R.length < L.length
  · rw [verifyIpp, hn, verificationScalars_short_panics O L R tr h32 hlt]
  · rw [verifyIpp]
    rcases hv : verificationScalars O L R n tr with ⟨⟨sq, inv, s⟩, tr'⟩ | e | _
    · simp only
      have hlen : s.length = n ∧ sq.length ≤ L.length ∧ inv.length ≤ L.length := by
        rw [verificationScalars] at hv
        simp only at hv
        rw [if_neg (by omega), if_neg (by omega)] at hv
        split at hv
        · simp at hv
        · obtain ⟨s', hs, hv⟩ := Res.bind_eq_ok.1 hv
          simp only [Res.pure_eq, Res.ok.injEq, Prod.mk.injEq] at hv
          obtain ⟨⟨rfl, rfl, rfl⟩, -⟩ := hv
          have := sLoop_length _ _ _ _ _ hs
          have hp : 0 < n := by rw [hn]; positivity
          have hc := ippChallenges_le O L R (ippDomSep n tr)
          simp only [List.length_map, List.length_singleton] at this ⊢
          exact ⟨by omega, hc, hc⟩
      obtain ⟨h1, h2, h3⟩ := hlen
      rw [msmUnwrap, if_neg]
      · rfl
      · simp [hG, hH, hgf, hhf, h1]; omega
    · rfl
    · rfl

/-- The hypotheses of `ipp_complete` are met: no challenge is zero, for instance, if the oracle always returns 1. -/
theorem ipp_complete_met (tr : Transcript F V) (u : V) (gf hf : List F) (G H : List V) (a b : List F) (k : Nat) (hk : k < 32)
    (hG : G.length = 2 ^ k) (hH : H.length = 2 ^ k) (ha : a.length = 2 ^ k) (hb : b.length = 2 ^ k) (hgf : gf.length = 2 ^ k)
    (hhf : hf.length = 2 ^ k) : ∃ p tr', createIpp (fun _ => (1 : F)) tr u gf hf G H a b = .ok (p, tr') ∧
        verifyIpp (fun _ => (1 : F)) (2 ^ k) tr gf hf (msm (hadamard a gf) G + msm (hadamard b hf) H + inner a b • u) u G H p.a p.b p.L p.R = .ok () := by
  obtain ⟨p, tr', h1, -, -, h2⟩ := ipp_complete (fun _ => (1 : F)) tr u gf hf G H a b k hk hG hH ha hb hgf hhf
  refine ⟨p, tr', h1, h2 ?_⟩
  have : ∀ (L R : List V) tr, ∀ x ∈ (ippChallenges (fun _ => (1 : F)) tr L R).1, x = 1 := by
    intro L
    induction L with
    | nil => intro R tr; simp [ippChallenges]
    | cons l L ih =>
      intro R tr
      cases R with
      | nil => simp [ippChallenges]
      | cons r R =>
        intro x hx
        simp only [ippChallenges, challengeScalar, List.mem_cons] at hx
        rcases hx with rfl | hx
        · rfl
        · exact ih R _ x hx
  intro x hx
  rw [this _ _ _ x hx]; exact one_ne_zero

end Verif.BP
