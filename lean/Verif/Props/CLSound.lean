import Verif.Props.CLVerifier
import Verif.Props.CLLinking
import Verif.Props.CLNonRevoc
import Mathlib.Tactic.Module
import Mathlib.Tactic.FieldSimp
import Mathlib.Tactic.Positivity
set_option linter.unusedVariables false
set_option linter.unusedSimpArgs false
set_option linter.unusedSectionVars false
/-!
# Special soundness of predicate proofs (C191) and of whole presentations (C192)
-/
namespace Verif.CL
open Verif BN

/-! ## Inversion of the loops -/

theorem foldlM_inv {α β : Type} (f : β → α → Res String β) : ∀ (l : List α) (b r : β), l.foldlM f b = .ok r → ∀ x ∈ l, ∃ y z, f y x = .ok z
  | [], _, _, _, x, hx => by simp at hx
  | a :: l, b, r, h, x, hx => by
    rw [List.foldlM_cons] at h
    obtain ⟨b', hb, h⟩ := Res.bind_eq_ok.1 h
    rcases List.mem_cons.1 hx with rfl | hx
    · exact ⟨b, b', hb⟩
    · exact foldlM_inv f l b' r h x hx

theorem mapM_inv {α β : Type} {f : α → Res String β} {l : List α} {r : List β} (h : l.mapM f = .ok r) : ∀ x ∈ l, ∃ y, f x = .ok y := by
  intro x hx
  have := mapM_ok_inv f l r h
  clear h
  induction this with
  | nil => simp at hx
  | cons h _ ih =>
    rcases List.mem_cons.1 hx with rfl | hx
    · exact ⟨_, h⟩
    · exact ih hx

theorem ofOption_inv {α : Type} {m : String} {o : Option α} {x : α} (h : Res.ofOption m o = .ok x) : o = some x := by
  cases o with
  | none => simp [Res.ofOption] at h
  | some y => rw [Res.ofOption_some, Res.ok.injEq] at h; rw [h]

/-- a successful recomputation of an equality proof looked up every hidden attribute in the key and in the proof -/
theorem verifyEquality_inv {ordV : SetOrder} {pk : PrimaryPubKey} {p : EqProof} {c : Int} {schema nonSchema : Finset String} {req : SubProofRequest} {t : Int}
    (h : verifyEquality ordV pk p c schema nonSchema req = .ok t) :
    (∀ k ∈ unrevealedAttrs schema nonSchema req, pk.r.hasKey k = true ∧ ∃ x, p.m.lookup k = some x) ∧ ∀ e ∈ p.revealed, pk.r.hasKey e.1 = true := by
  unfold verifyEquality at h
  obtain ⟨t1, h1, h⟩ := Res.bind_eq_ok.1 h
  obtain ⟨r0, _, h⟩ := Res.bind_eq_ok.1 h
  obtain ⟨r1, h2, -⟩ := Res.bind_eq_ok.1 h
  constructor
  · intro k hk
    unfold calcTeq at h1
    obtain ⟨_, _, h1⟩ := Res.bind_eq_ok.1 h1
    obtain ⟨_, h1, _⟩ := Res.bind_eq_ok.1 h1
    obtain ⟨y, z, hy⟩ := foldlM_inv _ _ _ _ h1 k ((ordV.mem _ _).2 hk)
    obtain ⟨r, hr, hy⟩ := Res.bind_eq_ok.1 hy
    obtain ⟨m, hm, -⟩ := Res.bind_eq_ok.1 hy
    exact ⟨hasKey_iff.2 ⟨r, ofOption_inv hr⟩, m, ofOption_inv hm⟩
  · intro e he
    obtain ⟨y, z, hy⟩ := foldlM_inv _ _ _ _ h2 e he
    obtain ⟨r, hr, -⟩ := Res.bind_eq_ok.1 hy
    exact hasKey_iff.2 ⟨r, ofOption_inv hr⟩

/-- a successful recomputation of an inequality proof looked up every number of the proof -/
theorem verifyNe_inv {mode : Overflow} {pk : PrimaryPubKey} {p : NeProof} {c : Int} {t : List Int} (h : verifyNePredicate mode pk p c = .ok t) :
    (∀ k ∈ iterKeys, (∃ x, p.u.lookup k = some x) ∧ (∃ x, p.r.lookup k = some x) ∧ ∃ x, p.t.lookup k = some x) ∧ (∃ x, p.r.lookup "DELTA" = some x) ∧
      (∃ x, p.t.lookup "DELTA" = some x) ∧ ∃ d, p.predicate.getDeltaPrime mode = .ok d := by
  unfold verifyNePredicate at h
  obtain ⟨tau, h1, h⟩ := Res.bind_eq_ok.1 h
  obtain ⟨_, _, h⟩ := Res.bind_eq_ok.1 h
  obtain ⟨delta, h3, h⟩ := Res.bind_eq_ok.1 h
  obtain ⟨_, _, h⟩ := Res.bind_eq_ok.1 h
  obtain ⟨d, h4, -⟩ := Res.bind_eq_ok.1 h
  unfold calcTne at h1
  obtain ⟨taus, h5, h1⟩ := Res.bind_eq_ok.1 h1
  obtain ⟨rd, h6, h1⟩ := Res.bind_eq_ok.1 h1
  simp only [] at h1
  obtain ⟨_, _, h1⟩ := Res.bind_eq_ok.1 h1
  obtain ⟨_, h7, _⟩ := Res.bind_eq_ok.1 h1
  refine ⟨fun k hk => ?_, ⟨rd, ofOption_inv h6⟩, ⟨delta, ofOption_inv h3⟩, d, h4⟩
  obtain ⟨y, hy⟩ := mapM_inv h5 k hk
  obtain ⟨u, hu, hy⟩ := Res.bind_eq_ok.1 hy
  obtain ⟨r, hr, -⟩ := Res.bind_eq_ok.1 hy
  obtain ⟨y, z, hz⟩ := foldlM_inv _ _ _ _ h7 k hk
  obtain ⟨ct, hct, -⟩ := Res.bind_eq_ok.1 hz
  exact ⟨⟨u, ofOption_inv hu⟩, ⟨r, ofOption_inv hr⟩, ct, ofOption_inv hct⟩

/-! ## Predicates -/

/-- what a predicate says about a rational number -/
def Predicate.holdsQ (p : Predicate) (m : ℚ) : Prop :=
  match p.pType with
  | .GE => (p.value : ℚ) ≤ m
  | .GT => (p.value : ℚ) < m
  | .LE => m ≤ (p.value : ℚ)
  | .LT => m < (p.value : ℚ)

/-- the entry of a map of integers (0 if there is none) -/
def entry (m : Map Int) (k : String) : Int := (m.lookup k).getD 0

theorem entry_eq {m : Map Int} {k : String} (h : ∃ x, m.lookup k = some x) : m.lookup k = some (entry m k) := by
  obtain ⟨x, hx⟩ := h
  unfold entry
  rw [hx]; rfl

/-- `-1` for `<` and `<=`, `1` for `>` and `>=` -/
def sideOf (p : Predicate) : Int := if p.isLess then -1 else 1

theorem holdsQ_of {p : Predicate} {d' : Int} {q : ℚ} (hq : 0 ≤ q) (h : p.getDeltaPrime .checked = .ok d') : p.holdsQ (d' + sideOf p * q) := by
  obtain ⟨an, pt, v⟩ := p
  cases pt
  · have h : Res.ok v = (Res.ok d' : Res String Int) := h
    rw [Res.ok.injEq] at h; subst h
    show (v : ℚ) ≤ v + ((1 : Int) : ℚ) * q
    push_cast; linarith
  · have h : Res.ok v = (Res.ok d' : Res String Int) := h
    rw [Res.ok.injEq] at h; subst h
    show (v : ℚ) + ((-1 : Int) : ℚ) * q ≤ v
    push_cast; linarith
  · obtain ⟨rfl, -⟩ := i32_checked (show i32 .checked (v + 1) = .ok d' from h)
    show (v : ℚ) < ((v + 1 : Int) : ℚ) + ((1 : Int) : ℚ) * q
    push_cast; linarith
  · obtain ⟨rfl, -⟩ := i32_checked (show i32 .checked (v - 1) = .ok d' from h)
    show ((v - 1 : Int) : ℚ) + ((-1 : Int) : ℚ) * q < v
    push_cast; linarith

/-- the exponent of `Z` in the relation that two answers give: the difference between the value of the attribute and the sum of squares, times the square of the difference of the
challenges -/
def neExponentZ (p1 p2 : NeProof) (c1 c2 d' : Int) : Int :=
  (c1 - c2) ^ 2 * d' + sideOf p1.predicate * (iterKeys.map fun k => (entry p1.u k - entry p2.u k) ^ 2).sum - (c1 - c2) * (p1.mj - p2.mj)

/-- the exponent of `S` -/
def neExponentS (p1 p2 : NeProof) (c1 c2 : Int) : Int :=
  (c1 - c2) * (signedDelta p1.predicate.isLess (entry p1.r "DELTA") - signedDelta p1.predicate.isLess (entry p2.r "DELTA")) -
    sideOf p1.predicate * ((iterKeys.map fun k => (entry p1.r k - entry p2.r k) * (entry p1.u k - entry p2.u k)).sum + (c1 - c2) * (p1.alpha - p2.alpha))

theorem ne_extract_add {M : Type} [AddCommGroup M] (Z S TD T0 T1 T2 T3 : M) (D d' s dm dsd da u0 u1 u2 u3 r0 r1 r2 r3 : Int)
    (h0 : D • T0 = u0 • Z + r0 • S) (h1 : D • T1 = u1 • Z + r1 • S) (h2 : D • T2 = u2 • Z + r2 • S) (h3 : D • T3 = u3 • Z + r3 • S)
    (h4 : D • (d' • Z + s • TD) = dm • Z + dsd • S) (h5 : D • TD = u0 • T0 + (u1 • T1 + (u2 • T2 + u3 • T3)) + da • S) :
    (D ^ 2 * d' + s * (u0 ^ 2 + (u1 ^ 2 + (u2 ^ 2 + u3 ^ 2))) - D * dm) • Z = (D * dsd - s * ((r0 * u0 + (r1 * u1 + (r2 * u2 + r3 * u3))) + D * da)) • S := by
  have a1 : D • (D • TD) = u0 • (D • T0) + (u1 • (D • T1) + (u2 • (D • T2) + u3 • (D • T3))) + (D * da) • S := by rw [h5]; module
  rw [h0, h1, h2, h3] at a1
  have a2 : D • (D • (d' • Z + s • TD)) = (D ^ 2 * d') • Z + s • (D • (D • TD)) := by module
  rw [h4, a1] at a2
  have a3 : (D ^ 2 * d' + s * (u0 ^ 2 + (u1 ^ 2 + (u2 ^ 2 + u3 ^ 2))) - D * dm) • Z - (D * dsd - s * ((r0 * u0 + (r1 * u1 + (r2 * u2 + r3 * u3))) + D * da)) • S =
      ((D ^ 2 * d') • Z + s • (u0 • (u0 • Z + r0 • S) + (u1 • (u1 • Z + r1 • S) + (u2 • (u2 • Z + r2 • S) + u3 • (u3 • Z + r3 • S))) + (D * da) • S)) - D • (dm • Z + dsd • S) := by
    module
  rw [← a2, sub_self] at a3
  exact sub_eq_zero.1 a3

theorem ne_extract {G : Type} [CommGroup G] (Z S TD T0 T1 T2 T3 : G) (D d' s dm dsd da u0 u1 u2 u3 r0 r1 r2 r3 : Int)
    (h0 : T0 ^ D = Z ^ u0 * S ^ r0) (h1 : T1 ^ D = Z ^ u1 * S ^ r1) (h2 : T2 ^ D = Z ^ u2 * S ^ r2) (h3 : T3 ^ D = Z ^ u3 * S ^ r3)
    (h4 : (Z ^ d' * TD ^ s) ^ D = Z ^ dm * S ^ dsd) (h5 : TD ^ D = T0 ^ u0 * (T1 ^ u1 * (T2 ^ u2 * T3 ^ u3)) * S ^ da) :
    Z ^ (D ^ 2 * d' + s * (u0 ^ 2 + (u1 ^ 2 + (u2 ^ 2 + u3 ^ 2))) - D * dm) = S ^ (D * dsd - s * ((r0 * u0 + (r1 * u1 + (r2 * u2 + r3 * u3))) + D * da)) :=
  congrArg Additive.toMul (ne_extract_add (M := Additive G) (.ofMul Z) (.ofMul S) (.ofMul TD) (.ofMul T0) (.ofMul T1) (.ofMul T2) (.ofMul T3) D d' s dm dsd da u0 u1 u2 u3 r0 r1 r2 r3
    (congrArg Additive.ofMul h0) (congrArg Additive.ofMul h1) (congrArg Additive.ofMul h2) (congrArg Additive.ofMul h3) (congrArg Additive.ofMul h4) (congrArg Additive.ofMul h5))

theorem same_commitment {G : Type} [CommGroup G] {T A B : G} {c1 c2 : Int} (h : (T ^ c1)⁻¹ * A = (T ^ c2)⁻¹ * B) : T ^ (c1 - c2) = A / B := by
  have h' : T ^ c1 * ((T ^ c1)⁻¹ * A) = T ^ c1 * ((T ^ c2)⁻¹ * B) := by rw [h]
  rw [mul_inv_cancel_left] at h'
  rw [h', zpow_sub, ← mul_assoc, mul_div_assoc, div_self', mul_one]

theorem zpow_div {G : Type} [CommGroup G] (a : G) (m n : Int) : a ^ m / a ^ n = a ^ (m - n) := by rw [zpow_sub, div_eq_mul_inv]

/-- the numbers of an inequality proof are non-negative and invertible modulo the issuer's `n` -/
def NeUnits (n : Nat) (p : NeProof) : Prop := ∀ k x, p.t.lookup k = some x → ∃ T : (ZMod n)ˣ, Rep x T

/-- **C191.** Two inequality proofs with the same commitments for which the verifier recomputes the same values under two different challenges: the difference quotient of the answers
for the attribute is a rational number that satisfies the predicate, unless the answers give a relation `Z^a = S^b` with `a ≠ 0` between the issuer's generators.  All numbers are
computed from the two proofs. -/
theorem predicate_proof_special_sound {pk : PrimaryPubKey} {n : Nat} {S Z C : (ZMod n)ˣ} {R : String → (ZMod n)ˣ} (hk : KeyUnits pk n S Z C R) (mode : Overflow) (p1 p2 : NeProof)
    (hp : p2.predicate = p1.predicate) (ht : p2.t = p1.t) (hT : NeUnits n p1) (c1 c2 : Int) (hc : c1 ≠ c2) (t : List Int)
    (h1 : verifyNePredicate mode pk p1 c1 = .ok t) (h2 : verifyNePredicate mode pk p2 c2 = .ok t) :
    ∃ d', p1.predicate.getDeltaPrime mode = .ok d' ∧ Z ^ neExponentZ p1 p2 c1 c2 d' = S ^ neExponentS p1 p2 c1 c2 ∧
      (neExponentZ p1 p2 c1 c2 d' = 0 → p1.predicate.getDeltaPrime .checked = .ok d' →
        p1.predicate.holdsQ (((p1.mj - p2.mj : Int) : ℚ) / ((c1 - c2 : Int) : ℚ))) := by
  have hn0 := neZero_of hk.hn
  obtain ⟨a1, a2, a3, d', a4⟩ := verifyNe_inv h1
  obtain ⟨b1, b2, b3, d2, b4⟩ := verifyNe_inv h2
  have tk : ∀ k, (∃ x, p1.t.lookup k = some x) → ∃ T : (ZMod n)ˣ, ∃ x, p1.t.lookup k = some x ∧ Rep x T := by
    rintro k ⟨x, hx⟩
    obtain ⟨T, hT⟩ := hT k x hx
    exact ⟨T, x, hx, hT⟩
  have tk' : ∀ k, ∃ T : (ZMod n)ˣ, (∃ x, p1.t.lookup k = some x) → ∃ x, p1.t.lookup k = some x ∧ Rep x T := by
    intro k
    by_cases h : ∃ x, p1.t.lookup k = some x
    · obtain ⟨T, hT⟩ := tk k h
      exact ⟨T, fun _ => hT⟩
    · exact ⟨1, fun h' => absurd h' h⟩
  choose T hTk using tk'
  have e1 := verifyNe_units hk mode p1 c1 (entry p1.u) (entry p1.r) (entry p1.r "DELTA") T (T "DELTA") d' (fun k hk => entry_eq (a1 k hk).1) (fun k hk => entry_eq (a1 k hk).2.1)
    (entry_eq a2) (fun k hk => hTk k (a1 k hk).2.2) (hTk _ a3) a4
  have e2 := verifyNe_units hk mode p2 c2 (entry p2.u) (entry p2.r) (entry p2.r "DELTA") T (T "DELTA") d' (fun k hk => entry_eq (b1 k hk).1) (fun k hk => entry_eq (b1 k hk).2.1)
    (entry_eq b2) (fun k hk => by rw [ht]; exact hTk k (a1 k hk).2.2) (by rw [ht]; exact hTk _ a3) (by rw [hp]; exact a4)
  rw [h1, Res.ok.injEq] at e1
  rw [h2, Res.ok.injEq, e1, hp] at e2
  simp only [iterKeys, List.map_cons, List.map_nil, List.cons_append, List.nil_append, List.cons.injEq, and_true, List.prod_cons, List.prod_nil, mul_one] at e2
  obtain ⟨q0, q1, q2, q3, q4, q5⟩ := e2
  replace q0 := same_commitment (val_injective q0)
  replace q1 := same_commitment (val_injective q1)
  replace q2 := same_commitment (val_injective q2)
  replace q3 := same_commitment (val_injective q3)
  replace q4 := same_commitment (val_injective q4)
  replace q5 := same_commitment (val_injective q5)
  have hs : (if p1.predicate.isLess then (T "DELTA")⁻¹ else T "DELTA") = T "DELTA" ^ sideOf p1.predicate := by
    unfold sideOf; cases p1.predicate.isLess <;> simp
  refine ⟨d', a4, ?_, ?_⟩
  · unfold neExponentZ neExponentS
    simp only [iterKeys, List.map_cons, List.map_nil, List.sum_cons, List.sum_nil, add_zero]
    refine ne_extract Z S (T "DELTA") (T "0") (T "1") (T "2") (T "3") (c1 - c2) d' (sideOf p1.predicate) (p1.mj - p2.mj) _ (p1.alpha - p2.alpha) _ _ _ _ _ _ _ _ ?_ ?_ ?_ ?_ ?_ ?_
    · rw [q0, mul_div_mul_comm, zpow_div, zpow_div]
    · rw [q1, mul_div_mul_comm, zpow_div, zpow_div]
    · rw [q2, mul_div_mul_comm, zpow_div, zpow_div]
    · rw [q3, mul_div_mul_comm, zpow_div, zpow_div]
    · rw [← hs, q4, mul_div_mul_comm, zpow_div, zpow_div]
    · rw [q5]
      simp only [mul_div_mul_comm, zpow_div]
  · intro h0 a4
    have hD : ((c1 - c2 : Int) : ℚ) ≠ 0 := by exact_mod_cast sub_ne_zero.2 hc
    set D := c1 - c2 with hDdef
    unfold neExponentZ at h0
    simp only [iterKeys, List.map_cons, List.map_nil, List.sum_cons, List.sum_nil, add_zero] at h0
    rw [← hDdef] at h0
    generalize p1.mj - p2.mj = dm at *
    set Q : ℤ := (entry p1.u "0" - entry p2.u "0") ^ 2 + ((entry p1.u "1" - entry p2.u "1") ^ 2 + ((entry p1.u "2" - entry p2.u "2") ^ 2 + (entry p1.u "3" - entry p2.u "3") ^ 2)) with hQ
    have hQ0 : 0 ≤ Q := by positivity
    have hm : (dm : ℚ) / D = d' + sideOf p1.predicate * (Q / (D : ℚ) ^ 2) := by
      have : ((D : ℚ) ^ 2 * d' + sideOf p1.predicate * Q - D * dm) = 0 := by exact_mod_cast h0
      field_simp
      linarith
    have hq : (0 : ℚ) ≤ Q / (D : ℚ) ^ 2 := div_nonneg (by exact_mod_cast hQ0) (by positivity)
    rw [hm]
    generalize (Q : ℚ) / (D : ℚ) ^ 2 = q at *
    exact holdsQ_of hq a4

/-! ## Whole presentations -/

theorem flatten_inj {α : Type} : ∀ {L1 L2 : List (List α)}, List.Forall₂ (fun a b => a.length = b.length) L1 L2 → L1.flatten = L2.flatten → L1 = L2
  | _, _, .nil, _ => rfl
  | a :: L1, b :: L2, .cons h f, e => by
    rw [List.flatten_cons, List.flatten_cons] at e
    obtain ⟨h1, h2⟩ := List.append_inj e h
    rw [h1, flatten_inj f h2]

theorem flatten_length {α : Type} : ∀ {L1 L2 : List (List α)}, List.Forall₂ (fun a b => a.length = b.length) L1 L2 → L1.flatten.length = L2.flatten.length
  | _, _, .nil => rfl
  | a :: L1, b :: L2, .cons h f => by rw [List.flatten_cons, List.flatten_cons, List.length_append, List.length_append, h, flatten_length f]

theorem forall₂_mem_right {α β : Type} {Q : α → β → Prop} : ∀ {l1 : List α} {l2 : List β}, List.Forall₂ Q l1 l2 → ∀ {b}, b ∈ l2 → ∃ a ∈ l1, Q a b
  | _, _, .nil, b, hb => by simp at hb
  | _, _, .cons h f, b, hb => by
    rcases List.mem_cons.1 hb with rfl | hb
    · exact ⟨_, by simp, h⟩
    · obtain ⟨a, ha, h⟩ := forall₂_mem_right f hb
      exact ⟨a, by simp [ha], h⟩

theorem mapM_length {α β : Type} {f : α → Res String β} {l : List α} {r : List β} (h : l.mapM f = .ok r) : r.length = l.length :=
  (mapM_ok_inv f l r h).length_eq.symm

theorem verifyNe_length {mode : Overflow} {pk : PrimaryPubKey} {p : NeProof} {c : Int} {t : List Int} (h : verifyNePredicate mode pk p c = .ok t) : t.length = 6 := by
  unfold verifyNePredicate at h
  obtain ⟨tau, h1, h⟩ := Res.bind_eq_ok.1 h
  obtain ⟨fixed, h2, h⟩ := Res.bind_eq_ok.1 h
  obtain ⟨delta, _, h⟩ := Res.bind_eq_ok.1 h
  obtain ⟨_, _, h⟩ := Res.bind_eq_ok.1 h
  obtain ⟨_, _, h⟩ := Res.bind_eq_ok.1 h
  obtain ⟨_, _, h⟩ := Res.bind_eq_ok.1 h
  obtain ⟨_, _, h⟩ := Res.bind_eq_ok.1 h
  obtain ⟨_, _, h⟩ := Res.bind_eq_ok.1 h
  obtain ⟨_, _, h⟩ := Res.bind_eq_ok.1 h
  obtain ⟨_, _, h⟩ := Res.bind_eq_ok.1 h
  rw [Res.pure_eq, Res.ok.injEq] at h
  unfold calcTne at h1
  obtain ⟨taus, h5, h1⟩ := Res.bind_eq_ok.1 h1
  obtain ⟨rd, _, h1⟩ := Res.bind_eq_ok.1 h1
  simp only [] at h1
  obtain ⟨_, _, h1⟩ := Res.bind_eq_ok.1 h1
  obtain ⟨_, _, h1⟩ := Res.bind_eq_ok.1 h1
  obtain ⟨_, _, h1⟩ := Res.bind_eq_ok.1 h1
  obtain ⟨_, _, h1⟩ := Res.bind_eq_ok.1 h1
  rw [Res.pure_eq, Res.ok.injEq] at h1
  have l1 := mapM_length h5
  have l2 := mapM_length h2
  rw [List.length_zip, ← h1, List.length_append, l1] at l2
  rw [← h, List.length_append, l2]
  simp [iterKeys]

section
variable {F G1 G2 GT : Type} [Field F] [AddCommGroup G1] [Module F G1] [AddCommGroup G2] [Module F G2]
  [AddCommGroup GT] [Module F GT]

/-- two sub proofs that carry the same commitments and reveal the same values; the answers may differ -/
structure SameCommitments (s1 s2 : SubProof F G1 G2) : Prop where
  aPrime : s2.primary.eq.aPrime = s1.primary.eq.aPrime
  revealed : s2.primary.eq.revealed = s1.primary.eq.revealed
  ne : List.Forall₂ (fun p1 p2 => p2.predicate = p1.predicate ∧ p2.t = p1.t) s1.primary.ne s2.primary.ne
  nonRevoc : s2.nonRevoc.map (·.2) = s1.nonRevoc.map (·.2)

/-- the key and the commitments of a sub proof are non-negative and invertible modulo the issuer's `n` -/
structure InGroup (s : SubProof F G1 G2) (cred : VCred G1 G2 GT) : Prop where
  key : ValidKey cred.pk.pKey
  aPrime : 0 ≤ s.primary.eq.aPrime ∧ Int.gcd s.primary.eq.aPrime cred.pk.pKey.n = 1
  ne : ∀ p ∈ s.primary.ne, ∀ k x, p.t.lookup k = some x → 0 ≤ x ∧ Int.gcd x cred.pk.pKey.n = 1

/-- no relation between the generators of the commitments of the non-revocation proof is known -/
def Independent (rk : Rev.PubKey G1 G2) : Prop :=
  (∀ a b : F, a • rk.h + b • rk.htilde = 0 → a = 0 ∧ b = 0) ∧ ∀ a b : F, a • rk.g + b • rk.htilde = 0 → a = 0 ∧ b = 0

/-- What two answers `s1`, `s2` for the challenges `c1`, `c2` prove about the credential, over the issuer's group. -/
structure Known (e : G1 →ₗ[F] G2 →ₗ[F] GT) (cv : Conv F G1 G2 GT) (mode : Overflow) (c1 c2 : Int) (s1 s2 : SubProof F G1 G2) (cred : VCred G1 G2 GT) {n : Nat} (S Z C : (ZMod n)ˣ)
    (R : String → (ZMod n)ˣ) (A' : (ZMod n)ˣ) : Prop where
  /-- the equation of the signature, with the revealed values -/
  equation : Z ^ (c1 - c2) = A' ^ ((s1.primary.eq.e - s2.primary.eq.e) + (c1 - c2) * 2 ^ 596) * S ^ (s1.primary.eq.v - s2.primary.eq.v) * C ^ (s1.primary.eq.m2 - s2.primary.eq.m2) *
    (((unrevealedAttrs cred.schema cred.nonSchema cred.req).prod fun k => R k ^ (entry s1.primary.eq.m k - entry s2.primary.eq.m k)) *
      ((s1.primary.eq.revealed.map fun a => R a.1 ^ a.2).prod) ^ (c1 - c2))
  /-- the predicates -/
  predicates : List.Forall₂ (fun p1 p2 : NeProof => ∃ d', p1.predicate.getDeltaPrime mode = .ok d' ∧ Z ^ neExponentZ p1 p2 c1 c2 d' = S ^ neExponentS p1 p2 c1 c2 ∧
    (neExponentZ p1 p2 c1 c2 d' = 0 → p1.predicate.getDeltaPrime .checked = .ok d' → p1.predicate.holdsQ (((p1.mj - p2.mj : Int) : ℚ) / ((c1 - c2 : Int) : ℚ))))
    s1.primary.ne s2.primary.ne
  /-- non-revocation -/
  nonRevoc : ∀ x1 x2 cl rk acc z, s1.nonRevoc = some (x1, cl) → s2.nonRevoc = some (x2, cl) → cred.pk.rKey = some rk → cred.reg = some acc → cred.revKeyPub = some z →
    Independent (F := F) rk → cv.toF c1 ≠ cv.toF c2 →
    let w := Rev.extract (cv.toF c1) (cv.toF c2) x1 x2
    Rev.Authentic e rk z acc (cl.a - w.rho • rk.htilde) w.c w.s w.m2 (cl.g - w.r • rk.htilde) (cl.s - w.r'' • rk.hCap) (cl.u - w.r''' • rk.hCap) (cl.w - w.r' • rk.hCap)

theorem large_e_start : LARGE_E_START_VALUE = 2 ^ 596 := rfl

theorem toBytes_list {l1 : List Int} : ∀ {l2 : List Int}, (∀ x ∈ l1, 0 ≤ x) → (∀ x ∈ l2, 0 ≤ x) → l1.map toBytes = l2.map toBytes → l1 = l2 := by
  induction l1 with
  | nil => intro l2 _ _ h; cases l2 with | nil => rfl | cons a l => simp at h
  | cons a l1 ih =>
    intro l2 h1 h2 h
    cases l2 with
    | nil => simp at h
    | cons b l2 =>
      rw [List.map_cons, List.map_cons, List.cons.injEq] at h
      rw [toBytes_injective (h1 a (by simp)) (h2 b (by simp)) h.1, ih (fun x hx => h1 x (by simp [hx])) (fun x hx => h2 x (by simp [hx])) h.2]

theorem tauListBytes_injective (cv : Conv F G1 G2 GT) (hg1 : Function.Injective cv.g1) (hgt : Function.Injective cv.gt) {a b : Rev.TauList G1 GT}
    (h : tauListBytes cv a = tauListBytes cv b) : a = b := by
  unfold tauListBytes at h
  simp only [List.cons.injEq, and_true, hg1.eq_iff, hgt.eq_iff] at h
  obtain ⟨h1, h2, h3, h4, h5, h6, h7, h8⟩ := h
  ext <;> assumption

theorem verifyNe_nonneg {pk : PrimaryPubKey} {n : Nat} {S Z C : (ZMod n)ˣ} {R : String → (ZMod n)ˣ} (hk : KeyUnits pk n S Z C R) {mode : Overflow} {p : NeProof} (hT : NeUnits n p)
    {c : Int} {t : List Int} (h : verifyNePredicate mode pk p c = .ok t) : ∀ x ∈ t, 0 ≤ x := by
  obtain ⟨a1, a2, a3, d', a4⟩ := verifyNe_inv h
  have tk' : ∀ k, ∃ T : (ZMod n)ˣ, (∃ x, p.t.lookup k = some x) → ∃ x, p.t.lookup k = some x ∧ Rep x T := by
    intro k
    by_cases h : ∃ x, p.t.lookup k = some x
    · obtain ⟨x, hx⟩ := h
      obtain ⟨T, hT⟩ := hT k x hx
      exact ⟨T, fun _ => ⟨x, hx, hT⟩⟩
    · exact ⟨1, fun h' => absurd h' h⟩
  choose T hTk using tk'
  have e1 := verifyNe_units hk mode p c (entry p.u) (entry p.r) (entry p.r "DELTA") T (T "DELTA") d' (fun k hk => entry_eq (a1 k hk).1) (fun k hk => entry_eq (a1 k hk).2.1)
    (entry_eq a2) (fun k hk => hTk k (a1 k hk).2.2) (hTk _ a3) a4
  rw [h, Res.ok.injEq] at e1
  intro x hx
  rw [e1] at hx
  simp only [iterKeys, List.map_cons, List.map_nil, List.cons_append, List.nil_append, List.mem_cons, List.not_mem_nil, or_false] at hx
  rcases hx with rfl | rfl | rfl | rfl | rfl | rfl <;> exact val_nonneg _

theorem verifyEquality_nonneg {pk : PrimaryPubKey} {n : Nat} {S Z C : (ZMod n)ˣ} {R : String → (ZMod n)ˣ} (hk : KeyUnits pk n S Z C R) {ordV : SetOrder} {p : EqProof} {A' : (ZMod n)ˣ}
    (hA : Rep p.aPrime A') {c : Int} {schema nonSchema : Finset String} {req : SubProofRequest} {t : Int} (h : verifyEquality ordV pk p c schema nonSchema req = .ok t) : 0 ≤ t := by
  obtain ⟨a1, a2⟩ := verifyEquality_inv h
  rw [verifyEquality_units hk ordV p hA c schema nonSchema req (entry p.m) (fun k hk => (a1 k hk).1) (fun k hk => entry_eq (a1 k hk).2) a2, Res.ok.injEq] at h
  rw [← h]
  exact val_nonneg _

theorem forall₂_lengths {mode : Overflow} {pk : PrimaryPubKey} {c1 c2 : Int} {Q : NeProof → NeProof → Prop} : ∀ {l1 l2 : List NeProof} {r1 r2 : List (List Int)}, List.Forall₂ Q l1 l2 →
    List.Forall₂ (fun p t => verifyNePredicate mode pk p c1 = .ok t) l1 r1 → List.Forall₂ (fun p t => verifyNePredicate mode pk p c2 = .ok t) l2 r2 →
    List.Forall₂ (fun a b => a.length = b.length) r1 r2
  | _, _, _, _, .nil, .nil, .nil => .nil
  | _, _, _, _, .cons _ f, .cons h1 g1, .cons h2 g2 => .cons (by rw [verifyNe_length h1, verifyNe_length h2]) (forall₂_lengths f g1 g2)

theorem forall₂_both {α β : Type} {Q : α → α → Prop} {f g : α → β → Prop} {P : α → α → Prop} : ∀ {l1 l2 : List α} {r : List β},
    List.Forall₂ Q l1 l2 → List.Forall₂ f l1 r → List.Forall₂ g l2 r → (∀ a ∈ l1, ∀ b t, Q a b → f a t → g b t → P a b) → List.Forall₂ P l1 l2
  | _, _, _, .nil, .nil, .nil, _ => .nil
  | _, _, _, .cons q f', .cons h1 g1, .cons h2 g2, h => .cons (h _ (by simp) _ _ q h1 h2) (forall₂_both f' g1 g2 fun a ha => h a (by simp [ha]))

theorem neUnits_of {n : Nat} {N : Int} (hN : N = n) {p : NeProof} (h : ∀ k x, p.t.lookup k = some x → 0 ≤ x ∧ Int.gcd x N = 1) : NeUnits n p := by
  intro k x hx
  obtain ⟨h0, h1⟩ := h k x hx
  exact exists_rep h0 (by rw [← hN]; exact h1)

/-- one sub proof -/
theorem known_item (e : G1 →ₗ[F] G2 →ₗ[F] GT) (cv : Conv F G1 G2 GT) (hg1 : Function.Injective cv.g1) (hgt : Function.Injective cv.gt) (mode : Overflow) (ordV : SetOrder)
    (c1 c2 : Int) (hc : c1 ≠ c2) (s1 s2 : SubProof F G1 G2) (cred : VCred G1 G2 GT) (same : SameCommitments s1 s2) (hin : InGroup s1 cred) (t1 t2 : List Int)
    (h1 : verifyPrimaryProof mode ordV cred.pk.pKey c1 s1.primary cred.schema cred.nonSchema cred.req = .ok t1)
    (h2 : verifyPrimaryProof mode ordV cred.pk.pKey c2 s2.primary cred.schema cred.nonSchema cred.req = .ok t2) (r1 r2 : List Bytes)
    (heq : verifyNonRevoc e cv c1 s1 cred ++ t1.map toBytes ++ r1 = verifyNonRevoc e cv c2 s2 cred ++ t2.map toBytes ++ r2) :
    r1 = r2 ∧ ∀ (n : Nat) (S Z C : (ZMod n)ˣ) (R : String → (ZMod n)ˣ) (A' : (ZMod n)ˣ), KeyUnits cred.pk.pKey n S Z C R → Rep s1.primary.eq.aPrime A' →
      Known e cv mode c1 c2 s1 s2 cred S Z C R A' := by
  unfold verifyPrimaryProof at h1 h2
  obtain ⟨q1, hq1, h1⟩ := Res.bind_eq_ok.1 h1
  obtain ⟨n1, hn1, h1⟩ := Res.bind_eq_ok.1 h1
  obtain ⟨q2, hq2, h2⟩ := Res.bind_eq_ok.1 h2
  obtain ⟨n2, hn2, h2⟩ := Res.bind_eq_ok.1 h2
  rw [Res.pure_eq, Res.ok.injEq] at h1 h2
  subst h1 h2
  have f1 := mapM_ok_inv _ _ _ hn1
  have f2 := mapM_ok_inv _ _ _ hn2
  have hl := forall₂_lengths same.ne f1 f2
  have hlen : (verifyNonRevoc e cv c1 s1 cred).length = (verifyNonRevoc e cv c2 s2 cred).length := by
    have := same.nonRevoc
    unfold verifyNonRevoc
    cases a : s1.nonRevoc <;> cases b : s2.nonRevoc <;> rw [a, b] at this <;> simp at this <;>
      cases cred.pk.rKey <;> cases cred.reg <;> cases cred.revKeyPub <;> rfl
  have hfl := flatten_length hl
  rw [List.append_assoc, List.append_assoc] at heq
  obtain ⟨heq1, heq⟩ := List.append_inj heq hlen
  obtain ⟨heq2, heq3⟩ := List.append_inj heq (by rw [List.length_map, List.length_map, List.length_cons, List.length_cons, hfl])
  refine ⟨heq3, ?_⟩
  intro n S Z C R A' hk hA
  have hne1 : ∀ p ∈ s1.primary.ne, NeUnits n p := fun p hp => neUnits_of hk.n_eq (hin.ne p hp)
  have hA2 : Rep s2.primary.eq.aPrime A' := by rw [same.aPrime]; exact hA
  have nn1 : ∀ x ∈ q1 :: n1.flatten, 0 ≤ x := by
    intro x hx
    rcases List.mem_cons.1 hx with rfl | hx
    · exact verifyEquality_nonneg hk hA hq1
    · obtain ⟨t, ht, hx⟩ := List.mem_flatten.1 hx
      obtain ⟨p, hp, hpt⟩ := forall₂_mem_right f1 ht
      exact verifyNe_nonneg hk (hne1 p hp) hpt x hx
  have hne2 : ∀ p ∈ s2.primary.ne, NeUnits n p := by
    intro p hp
    obtain ⟨p1, hp1, h⟩ := forall₂_mem_right same.ne hp
    intro k x hx
    rw [h.2] at hx
    exact hne1 p1 hp1 k x hx
  have nn2 : ∀ x ∈ q2 :: n2.flatten, 0 ≤ x := by
    intro x hx
    rcases List.mem_cons.1 hx with rfl | hx
    · exact verifyEquality_nonneg hk hA2 hq2
    · obtain ⟨t, ht, hx⟩ := List.mem_flatten.1 hx
      obtain ⟨p, hp, hpt⟩ := forall₂_mem_right f2 ht
      exact verifyNe_nonneg hk (hne2 p hp) hpt x hx
  have hall := toBytes_list nn1 nn2 heq2
  rw [List.cons.injEq] at hall
  obtain ⟨rfl, hfe⟩ := hall
  have := flatten_inj hl hfe
  subst this
  obtain ⟨a1, a2⟩ := verifyEquality_inv hq1
  obtain ⟨b1, b2⟩ := verifyEquality_inv hq2
  refine ⟨?_, ?_, ?_⟩
  · have := equality_proof_special_sound hk ordV s1.primary.eq s2.primary.eq hA same.aPrime same.revealed c1 c2 cred.schema cred.nonSchema cred.req (entry s1.primary.eq.m)
      (entry s2.primary.eq.m) (fun k hk => (a1 k hk).1) (fun k hk => entry_eq (a1 k hk).2) (fun k hk => entry_eq (b1 k hk).2) a2 q1 hq1 hq2
    rw [large_e_start] at this
    exact this
  · exact forall₂_both same.ne f1 f2 fun p1 hp1 p2 t hq g1 g2 => predicate_proof_special_sound hk mode p1 p2 hq.1 hq.2 (hne1 p1 hp1) c1 c2 hc t g1 g2
  · intro x1 x2 cl rk acc z e1 e2 e3 e4 e5 hind htf
    unfold verifyNonRevoc at heq1
    rw [e1, e2, e3, e4, e5] at heq1
    have := tauListBytes_injective cv hg1 hgt heq1
    exact (Rev.nonrevoc_proof_sound e rk z acc cl _ _ htf x1 x2 this hind.1 hind.2).1

theorem verifyLoop_cons {e : G1 →ₗ[F] G2 →ₗ[F] GT} {cv : Conv F G1 G2 GT} {mode : Overflow} {ordV : SetOrder} {c : Int} {p : SubProof F G1 G2} {cred : VCred G1 G2 GT}
    {rest : List (SubProof F G1 G2 × VCred G1 G2 GT)} {com com' : Map (Option Int)} {tau : List Bytes} (h : verifyLoop e cv mode ordV c ((p, cred) :: rest) com = (com', .ok tau)) :
    ∃ com1 com2 pt t, verifyPrimaryProof mode ordV cred.pk.pKey c p.primary cred.schema cred.nonSchema cred.req = .ok pt ∧
      verifyLoop e cv mode ordV c rest com1 = (com2, .ok t) ∧ tau = verifyNonRevoc e cv c p cred ++ pt.map toBytes ++ t := by
  unfold verifyLoop at h
  simp only [] at h
  cases hc : checkCommon p.primary.eq.m com with
  | mk com1 r =>
    rw [hc] at h
    cases r with
    | err m => simp at h
    | panic => simp at h
    | ok u =>
      simp only [] at h
      cases hv : verifyPrimaryProof mode ordV cred.pk.pKey c p.primary cred.schema cred.nonSchema cred.req with
      | err m => rw [hv] at h; simp at h
      | panic => rw [hv] at h; simp at h
      | ok pt =>
        rw [hv] at h
        simp only [] at h
        cases hr : verifyLoop e cv mode ordV c rest com1 with
        | mk com2 r2 =>
          rw [hr] at h
          cases r2 with
          | err m => simp at h
          | panic => simp at h
          | ok t2 =>
            simp only [Prod.mk.injEq, Res.ok.injEq] at h
            exact ⟨com1, com2, pt, t2, rfl, hr, h.2.symm⟩

/-- all sub proofs -/
theorem known_items (e : G1 →ₗ[F] G2 →ₗ[F] GT) (cv : Conv F G1 G2 GT) (hg1 : Function.Injective cv.g1) (hgt : Function.Injective cv.gt) (mode : Overflow) (ordV : SetOrder)
    (c1 c2 : Int) (hc : c1 ≠ c2) : ∀ (l1 l2 : List (SubProof F G1 G2)) (creds : List (VCred G1 G2 GT)), List.Forall₂ SameCommitments l1 l2 →
    (∀ x ∈ l1.zip creds, InGroup x.1 x.2) → ∀ (com1 com1' com2 com2' : Map (Option Int)) (tau : List Bytes),
    verifyLoop e cv mode ordV c1 (l1.zip creds) com1 = (com1', .ok tau) → verifyLoop e cv mode ordV c2 (l2.zip creds) com2 = (com2', .ok tau) →
    ∀ (i : Nat) (s1 s2 : SubProof F G1 G2) (cred : VCred G1 G2 GT), l1[i]? = some s1 → l2[i]? = some s2 → creds[i]? = some cred →
      ∀ (n : Nat) (S Z C : (ZMod n)ˣ) (R : String → (ZMod n)ˣ) (A' : (ZMod n)ˣ), KeyUnits cred.pk.pKey n S Z C R → Rep s1.primary.eq.aPrime A' →
        Known e cv mode c1 c2 s1 s2 cred S Z C R A'
  | _, _, _, .nil, _, _, _, _, _, _, _, _, i, _, _, _, h, _, _ => by simp at h
  | s1 :: l1, s2 :: l2, [], .cons _ _, _, _, _, _, _, _, _, _, i, _, _, _, _, _, h => by simp at h
  | s1 :: l1, s2 :: l2, cred :: creds, .cons same f, hin, com1, com1', com2, com2', tau, v1, v2, i, x1, x2, cr, h1, h2, h3 => by
    rw [List.zip_cons_cons] at v1 v2
    obtain ⟨a1, a2, pt1, t1, p1, g1, e1⟩ := verifyLoop_cons v1
    obtain ⟨b1, b2, pt2, t2, p2, g2, e2⟩ := verifyLoop_cons v2
    obtain ⟨rfl, hk⟩ := known_item e cv hg1 hgt mode ordV c1 c2 hc s1 s2 cred same (hin (s1, cred) (by simp)) pt1 pt2 p1 p2 t1 t2 (e1.symm.trans e2)
    cases i with
    | zero =>
      simp only [List.getElem?_cons_zero, Option.some.injEq] at h1 h2 h3
      subst h1 h2 h3
      exact hk
    | succ i =>
      simp only [List.getElem?_cons_succ] at h1 h2 h3
      exact known_items e cv hg1 hgt mode ordV c1 c2 hc l1 l2 creds f (fun x hx => hin x (by rw [List.zip_cons_cons]; simp [hx])) _ _ _ _ _ g1 g2 i x1 x2 cr h1 h2 h3

/-- the byte strings that `verify` recomputes from a proof and hashes before the commitments and the nonce -/
def recomputed (e : G1 →ₗ[F] G2 →ₗ[F] GT) (cv : Conv F G1 G2 GT) (mode : Overflow) (ordV : SetOrder) (v : PVerifier G1 G2 GT) (π : Proof F G1 G2) : Res String (List Bytes) :=
  (verifyLoop e cv mode ordV π.cHash (π.proofs.zip v.creds) v.common).2

/-- what the verdict compares -/
theorem verdict_hash {e : G1 →ₗ[F] G2 →ₗ[F] GT} {cv : Conv F G1 G2 GT} {mode : Overflow} {sha : Bytes → Bytes} {ordV : SetOrder} {v : PVerifier G1 G2 GT} {π : Proof F G1 G2} {nonce : Int}
    (h : (v.verify e cv mode sha ordV π nonce).2 = .ok true) :
    ∃ tau, recomputed e cv mode ordV v π = .ok tau ∧ getHashAsInt sha (tau ++ π.cList ++ [toBytes nonce]) = π.cHash := by
  obtain ⟨-, com, tau, h2, -, h3⟩ := verify_inv h
  refine ⟨tau, by unfold recomputed; rw [h2], ?_⟩
  simpa using h3.symm

/-- **C192.** Two accepted presentations with the same commitments, for which the verifier recomputes the same values under different challenges, prove all that was asked for, for
every credential at once: the equation of the issuer's signature with the revealed values, the predicates, and non-revocation; and every common attribute has one difference of
answers in all credentials. -/
theorem presentation_special_sound (e : G1 →ₗ[F] G2 →ₗ[F] GT) (cv : Conv F G1 G2 GT) (hg1 : Function.Injective cv.g1) (hgt : Function.Injective cv.gt) (mode : Overflow)
    (sha1 sha2 : Bytes → Bytes) (ordV : SetOrder) (v : PVerifier G1 G2 GT) (π1 π2 : Proof F G1 G2) (nonce : Int)
    (a1 : (v.verify e cv mode sha1 ordV π1 nonce).2 = .ok true) (a2 : (v.verify e cv mode sha2 ordV π2 nonce).2 = .ok true)
    (same : List.Forall₂ SameCommitments π1.proofs π2.proofs) (hin : ∀ x ∈ π1.proofs.zip v.creds, InGroup x.1 x.2)
    (htau : recomputed e cv mode ordV v π1 = recomputed e cv mode ordV v π2) (hc : π1.cHash ≠ π2.cHash) :
    (π1.proofs.length = v.creds.length ∧ π2.proofs.length = v.creds.length) ∧
    (∀ (i : Nat) (s1 s2 : SubProof F G1 G2) (cred : VCred G1 G2 GT), π1.proofs[i]? = some s1 → π2.proofs[i]? = some s2 → v.creds[i]? = some cred →
      (s1.primary.eq.revealed.map (·.1)).toFinset = cred.req.revealed ∧ (s1.primary.ne.map (·.predicate)).toFinset = cred.req.predicates.toFinset ∧
      ∀ (n : Nat) (S Z C : (ZMod n)ˣ) (R : String → (ZMod n)ˣ) (A' : (ZMod n)ˣ), KeyUnits cred.pk.pKey n S Z C R → Rep s1.primary.eq.aPrime A' →
        Known e cv mode π1.cHash π2.cHash s1 s2 cred S Z C R A') ∧
    ∀ a ∈ v.common, ∃ x1 x2, ∀ (i : Nat) (s1 s2 : SubProof F G1 G2), π1.proofs[i]? = some s1 → π2.proofs[i]? = some s2 →
      s1.primary.eq.m.lookup a.1 = some x1 ∧ s2.primary.eq.m.lookup a.1 = some x2 := by
  obtain ⟨l1, sh1, co1⟩ := verdict_only_for_matching_shape e cv mode sha1 ordV v π1 nonce true a1
  obtain ⟨l2, sh2, co2⟩ := verdict_only_for_matching_shape e cv mode sha2 ordV v π2 nonce true a2
  obtain ⟨-, com1, tau1, h1, -, -⟩ := verify_inv a1
  obtain ⟨-, com2, tau2, h2, -, -⟩ := verify_inv a2
  unfold recomputed at htau
  rw [h1, h2] at htau
  simp only [Res.ok.injEq] at htau
  subst htau
  refine ⟨⟨l1, l2⟩, ?_, ?_⟩
  · intro i s1 s2 cred g1 g2 g3
    have hm : (s1, cred) ∈ π1.proofs.zip v.creds := by
      rw [List.mem_iff_getElem?]
      exact ⟨i, by rw [List.getElem?_zip_eq_some]; exact ⟨g1, g3⟩⟩
    exact ⟨(sh1 _ hm).1, (sh1 _ hm).2, known_items e cv hg1 hgt mode ordV _ _ hc _ _ _ same hin _ _ _ _ _ h1 h2 i s1 s2 cred g1 g2 g3⟩
  · intro a ha
    obtain ⟨x1, -, hx1⟩ := co1 a ha
    obtain ⟨x2, -, hx2⟩ := co2 a ha
    exact ⟨x1, x2, fun i s1 s2 g1 g2 => ⟨hx1 s1 (List.mem_of_getElem? g1), hx2 s2 (List.mem_of_getElem? g2)⟩⟩


/-! ## The key correctness proof -/

/-- **C17, C55.** Exactly when a key correctness proof is accepted: names as checked, and the challenge is the hash of `Z`, the generators, and the commitments recomputed from the
answers. -/
theorem key_proof_accepted_iff (sha : Bytes → Bytes) (pk : PrimaryPubKey) {n : Nat} {S Z C : (ZMod n)ˣ} {R : String → (ZMod n)ˣ} (hk : KeyUnits pk n S Z C R) (pr : KeyProof) :
    checkKeyProof sha pk pr = .ok () ↔ (∀ k ∈ pk.r.map (·.1), k ≠ "master_secret" → k ∈ pr.xrCap.map (·.1)) ∧ (∀ k ∈ pr.xrCap.map (·.1), k ∈ pk.r.map (·.1)) ∧
      pr.c = getHashAsInt sha [toBytes pk.z ++ (pr.xrCap.map fun x => toBytes (entry pk.r x.1)).flatten ++ toBytes (val (Z⁻¹ ^ pr.c * S ^ pr.xzCap)) ++
        (pr.xrCap.map fun x => toBytes (val ((R x.1)⁻¹ ^ pr.c * S ^ x.2))).flatten] := by
  have hn0 := neZero_of hk.hn
  have names : checkKeyNames pk pr = .ok () ↔ (∀ k ∈ pk.r.map (·.1), k ≠ "master_secret" → k ∈ pr.xrCap.map (·.1)) ∧ (∀ k ∈ pr.xrCap.map (·.1), k ∈ pk.r.map (·.1)) := by
    refine ⟨fun h => checkKeyNames_ok h, fun ⟨h1, h2⟩ => ?_⟩
    unfold checkKeyNames
    rw [if_neg, if_neg]
    · intro h
      rw [List.any_eq_true] at h
      obtain ⟨x, hx, h⟩ := h
      rw [hasKey_iff_mem.2 (h2 x.1 (List.mem_map.2 ⟨x, hx, rfl⟩))] at h
      simp at h
    · intro h
      rw [List.any_eq_true] at h
      obtain ⟨x, hx, h⟩ := h
      rw [Bool.and_eq_true, bne_iff_ne] at h
      obtain ⟨y, hy, hyx⟩ := List.mem_map.1 (h1 x.1 (List.mem_map.2 ⟨x, hx, rfl⟩) h.2)
      have : (pr.xrCap.any fun z => z.1 == x.1) = true := List.any_eq_true.2 ⟨y, hy, by rw [hyx]; simp⟩
      rw [this] at h
      simp at h
  constructor
  · intro h
    unfold checkKeyProof at h
    obtain ⟨_, h1, h⟩ := Res.bind_eq_ok.1 h
    have hn := names.1 h1
    rw [keyProofCaps_units hk pr hn.2, Res.ok_bind] at h
    simp only [] at h
    refine ⟨hn.1, hn.2, ?_⟩
    split_ifs at h with hc
    refine hc.trans ?_
    unfold keyProofBytes
    simp only [List.map_map]
    rfl
  · rintro ⟨h1, h2, hc⟩
    unfold checkKeyProof
    rw [names.2 ⟨h1, h2⟩, Res.ok_bind, keyProofCaps_units hk pr h2, Res.ok_bind]
    simp only []
    rw [if_pos]
    · rfl
    · refine hc.trans ?_
      unfold keyProofBytes
      simp only [List.map_map]
      rfl

/-! ## An honest prover that answers two challenges meets the hypotheses -/

/-- the commitments of one opened sub proof are invertible modulo `n` -/
def InitUnits (N : Int) (i : InitProof F G1 G2 GT) : Prop :=
  (0 ≤ i.primary.eq.aPrime ∧ Int.gcd i.primary.eq.aPrime N = 1) ∧ ∀ p ∈ i.primary.ne, ∀ k x, p.t.lookup k = some x → 0 ≤ x ∧ Int.gcd x N = 1

theorem rep_gcd {n : Nat} {a : Int} {u : (ZMod n)ˣ} (h : Rep a u) : 0 ≤ a ∧ Int.gcd a n = 1 := by
  obtain ⟨h0, h1⟩ := h
  refine ⟨h0, ?_⟩
  obtain ⟨k, rfl⟩ := Int.eq_ofNat_of_zero_le h0
  have hu : IsUnit ((k : Nat) : ZMod n) := ⟨u, by rw [← h1]; push_cast; rfl⟩
  rw [ZMod.isUnit_iff_coprime] at hu
  exact hu

theorem initNe_inGroup {pk : PrimaryPubKey} {n : Nat} {S Z C : (ZMod n)ˣ} {R : String → (ZMod n)ˣ} (hk : KeyUnits pk n S Z C R) {mode : Overflow} {mT : Map Int}
    {vals : Map CredentialValue} {p : Predicate} {rnd : NeRand} {i : NeInit} (h : initNeProof mode pk mT vals p rnd = .ok i) :
    ∀ k x, i.t.lookup k = some x → 0 ≤ x ∧ Int.gcd x pk.n = 1 := by
  have hn := hk.hn
  have hn0 := neZero_of hn
  unfold initNeProof at h
  obtain ⟨cv, _, h⟩ := Res.bind_eq_ok.1 h
  by_cases h1 : ¬ InI32 cv.value
  · rw [if_pos h1] at h; cases h
  rw [if_neg h1] at h
  obtain ⟨d, _, h⟩ := Res.bind_eq_ok.1 h
  by_cases h2 : d < 0
  · rw [if_pos h2] at h; cases h
  rw [if_neg h2] at h
  obtain ⟨q, _, h⟩ := Res.bind_eq_ok.1 h
  simp only [] at h
  obtain ⟨ts, hts, h⟩ := Res.bind_eq_ok.1 h
  obtain ⟨tD, htD, h⟩ := Res.bind_eq_ok.1 h
  obtain ⟨mj, _, h⟩ := Res.bind_eq_ok.1 h
  obtain ⟨tau, _, h⟩ := Res.bind_eq_ok.1 h
  rw [Res.pure_eq, Res.ok.injEq] at h
  subst h
  have hped : ∀ a b r, pedersen pk.z a pk.s b pk.n = .ok r → 0 ≤ r ∧ Int.gcd r pk.n = 1 := by
    intro a b r hr
    rw [hk.n_eq, pedersen_units hn hk.z hk.s, Res.ok.injEq] at hr
    rw [← hr, hk.n_eq]
    exact rep_gcd (rep_val _)
  intro k x hx
  have hm := mem_of_lookup hx
  simp only [List.mem_append, List.mem_singleton, Prod.mk.injEq] at hm
  rcases hm with hm | ⟨_, rfl⟩
  · obtain ⟨a, _, ha⟩ := forall₂_mem_right (mapM_ok_inv _ _ _ hts) hm
    obtain ⟨cu, _, ha⟩ := Res.bind_eq_ok.1 ha
    obtain ⟨t, ht, ha⟩ := Res.bind_eq_ok.1 ha
    rw [Res.pure_eq, Res.ok.injEq, Prod.mk.injEq] at ha
    rw [← ha.2]
    exact hped _ _ _ ht
  · exact hped _ _ _ htD

/-- adding a credential opens one sub proof, with invertible commitments -/
theorem add_inGroup (e : G1 →ₗ[F] G2 →ₗ[F] GT) (cv : Conv F G1 G2 GT) (mode : Overflow) (ord : SetOrder) (b b' : Builder F G1 G2 GT) (it : Item F G1 G2 GT) (h : Honest e it)
    (hb : b.addSubProofRequest e cv mode ord it.req it.schema it.nonSchema it.sig it.vals it.pk it.reg it.witness it.x it.rnd it.nrnd = .ok b') :
    ∃ ini, b'.inits = b.inits ++ [ini] ∧ InitUnits it.pk.pKey.n ini := by
  obtain ⟨n, S, Z, C, R, A, hk, hA, _⟩ := h.signed
  unfold Builder.addSubProofRequest at hb
  obtain ⟨_, _, hb⟩ := Res.bind_eq_ok.1 hb
  simp only [] at hb
  obtain ⟨pi, hpi, hb⟩ := Res.bind_eq_ok.1 hb
  rw [Res.pure_eq, Res.ok.injEq] at hb
  subst hb
  refine ⟨_, rfl, ?_⟩
  unfold initPrimaryProof at hpi
  obtain ⟨eq, heq, hpi⟩ := Res.bind_eq_ok.1 hpi
  obtain ⟨ne, hne, hpi⟩ := Res.bind_eq_ok.1 hpi
  rw [Res.pure_eq, Res.ok.injEq] at hpi
  subst hpi
  refine ⟨?_, ?_⟩
  · rw [initEqProof_units hk _ _ _ hA, Res.ok.injEq] at heq
    · rw [← heq, hk.n_eq]
      exact rep_gcd (@rep_val _ (neZero_of hk.hn) _)
    · intro k hkm
      refine h.covered k ?_
      rw [← List.mem_toFinset, ← h.attrs]
      exact (Finset.mem_sdiff.1 hkm).1
  · intro p hp
    obtain ⟨a, _, ha⟩ := forall₂_mem_right (mapM_ok_inv _ _ _ hne) hp
    exact initNe_inGroup hk ha

theorem adds_inGroup (e : G1 →ₗ[F] G2 →ₗ[F] GT) (cv : Conv F G1 G2 GT) (mode : Overflow) (ord : SetOrder) : ∀ (items : List (Item F G1 G2 GT)) (b b' : Builder F G1 G2 GT),
    (∀ it ∈ items, Honest e it) → items.foldlM (fun b it => b.addSubProofRequest e cv mode ord it.req it.schema it.nonSchema it.sig it.vals it.pk it.reg it.witness it.x it.rnd it.nrnd) b = .ok b' →
    ∃ inis, b'.inits = b.inits ++ inis ∧ List.Forall₂ (fun it ini => InitUnits it.pk.pKey.n ini) items inis
  | [], b, b', _, hb => by
    rw [List.foldlM_nil, Res.pure_eq, Res.ok.injEq] at hb
    subst hb
    exact ⟨[], by simp, .nil⟩
  | it :: items, b, b', h, hb => by
    rw [List.foldlM_cons] at hb
    obtain ⟨b1, h1, hb⟩ := Res.bind_eq_ok.1 hb
    obtain ⟨ini, g1, g2⟩ := add_inGroup e cv mode ord b b1 it (h it (by simp)) h1
    obtain ⟨inis, g3, g4⟩ := adds_inGroup e cv mode ord items b1 b' (fun x hx => h x (by simp [hx])) hb
    exact ⟨ini :: inis, by rw [g3, g1]; simp, .cons g2 g4⟩

/-- finishing one opened sub proof for two challenges keeps its commitments -/
theorem finalize_same (cv : Conv F G1 G2 GT) (ordF : SetOrder) (c1 c2 : Int) (i : InitProof F G1 G2 GT) (s1 s2 : SubProof F G1 G2) (h1 : finalizeSubProof cv ordF c1 i = .ok s1)
    (h2 : finalizeSubProof cv ordF c2 i = .ok s2) : SameCommitments s1 s2 ∧ s1.primary.eq.aPrime = i.primary.eq.aPrime ∧
      ∀ p ∈ s1.primary.ne, ∃ q ∈ i.primary.ne, p.t = q.t := by
  have key : ∀ c s, finalizeSubProof cv ordF c i = .ok s → s.primary.eq.aPrime = i.primary.eq.aPrime ∧
      (ordF.enum i.req.revealed).mapM (fun k => do
        let cv ← Res.ofOption "Encoded value not found" (i.vals.lookup k)
        pure (k, cv.value)) = .ok s.primary.eq.revealed ∧
      List.Forall₂ (fun q (p : NeProof) => p.predicate = q.predicate ∧ p.t = q.t) i.primary.ne s.primary.ne ∧ s.nonRevoc.map (·.2) = i.nonRevoc.map (·.cList) := by
    intro c s h
    unfold finalizeSubProof at h
    obtain ⟨nr, hnr, h⟩ := Res.bind_eq_ok.1 h
    obtain ⟨pp, hpp, h⟩ := Res.bind_eq_ok.1 h
    rw [Res.pure_eq, Res.ok.injEq] at h
    subst h
    unfold finalizePrimaryProof at hpp
    obtain ⟨eq, heq, hpp⟩ := Res.bind_eq_ok.1 hpp
    obtain ⟨ne, hne, hpp⟩ := Res.bind_eq_ok.1 hpp
    rw [Res.pure_eq, Res.ok.injEq] at hpp
    subst hpp
    unfold finalizeEqProof at heq
    obtain ⟨m, _, heq⟩ := Res.bind_eq_ok.1 heq
    obtain ⟨rev, hrev, heq⟩ := Res.bind_eq_ok.1 heq
    rw [Res.pure_eq, Res.ok.injEq] at heq
    subst heq
    refine ⟨rfl, hrev, ?_, ?_⟩
    · refine (mapM_ok_inv _ _ _ hne).imp fun q p hq => ?_
      unfold finalizeNeProof at hq
      obtain ⟨_, _, hq⟩ := Res.bind_eq_ok.1 hq
      obtain ⟨_, _, hq⟩ := Res.bind_eq_ok.1 hq
      obtain ⟨_, _, hq⟩ := Res.bind_eq_ok.1 hq
      simp only [] at hq
      obtain ⟨_, _, hq⟩ := Res.bind_eq_ok.1 hq
      rw [Res.pure_eq, Res.ok.injEq] at hq
      subst hq
      exact ⟨rfl, rfl⟩
    · unfold finalizeNonRevocOpt at hnr
      cases hi : i.nonRevoc with
      | none => rw [hi] at hnr; cases hnr; rfl
      | some x =>
        rw [hi] at hnr
        simp only [] at hnr
        obtain ⟨p, hp, hnr⟩ := Res.bind_eq_ok.1 hnr
        rw [Res.pure_eq, Res.ok.injEq] at hnr
        subst hnr
        unfold Rev.finalizeNonRevocProof at hp
        simp only [] at hp
        obtain ⟨_, _, hp⟩ := Res.bind_eq_ok.1 hp
        rw [Res.pure_eq, Res.ok.injEq] at hp
        subst hp
        rfl
  obtain ⟨a1, a2, a3, a4⟩ := key c1 s1 h1
  obtain ⟨b1, b2, b3, b4⟩ := key c2 s2 h2
  refine ⟨⟨by rw [a1, b1], ?_, ?_, by rw [a4, b4]⟩, a1, ?_⟩
  · rw [a2, Res.ok.injEq] at b2
    exact b2.symm
  · have : ∀ {l : List NeInit} {l1 l2 : List NeProof}, List.Forall₂ (fun q (p : NeProof) => p.predicate = q.predicate ∧ p.t = q.t) l l1 →
        List.Forall₂ (fun q (p : NeProof) => p.predicate = q.predicate ∧ p.t = q.t) l l2 → List.Forall₂ (fun p1 p2 : NeProof => p2.predicate = p1.predicate ∧ p2.t = p1.t) l1 l2 := by
      intro l
      induction l with
      | nil => intro l1 l2 h1 h2; cases h1; cases h2; exact .nil
      | cons q l ih =>
        intro l1 l2 h1 h2
        cases h1 with
        | cons x1 y1 =>
          cases h2 with
          | cons x2 y2 => exact .cons ⟨by rw [x1.1, x2.1], by rw [x1.2, x2.2]⟩ (ih y1 y2)
    exact this a3 b3
  · intro p hp
    obtain ⟨q, hq, h⟩ := forall₂_mem_right a3 hp
    exact ⟨q, hq, h.2⟩

/-- the hypotheses of `presentation_special_sound` are met: an honest prover that answers the challenges of two hash functions with the same random numbers -/
theorem honest_fork (e : G1 →ₗ[F] G2 →ₗ[F] GT) (cv : Conv F G1 G2 GT) (mode : Overflow) (sha1 sha2 : Bytes → Bytes) (ord ordF ordV : SetOrder) (commons : List (String × Int))
    (names : List String) (hnames : ∀ k ∈ names, k ∈ commons.map (·.1)) (items : List (Item F G1 G2 GT)) (cval : String → Int)
    (h : ∀ it ∈ items, Honest e it ∧ ValidKey it.pk.pKey ∧ ∀ k ∈ commons.map (·.1), k ∈ unrevealedAttrs it.schema it.nonSchema it.req ∧ attrValue it.vals k = cval k) (nonce : Int) :
    ∃ π1 π2 v, present e cv mode sha1 ord ordF commons items nonce = .ok π1 ∧ present e cv mode sha2 ord ordF commons items nonce = .ok π2 ∧ expectItems names items = .ok v ∧
      (v.verify e cv mode sha1 ordV π1 nonce).2 = .ok true ∧ (v.verify e cv mode sha2 ordV π2 nonce).2 = .ok true ∧
      List.Forall₂ SameCommitments π1.proofs π2.proofs ∧ (∀ x ∈ π1.proofs.zip v.creds, InGroup x.1 x.2) ∧
      recomputed e cv mode ordV v π1 = recomputed e cv mode ordV v π2 ∧ (∃ l, π1.cHash = getHashAsInt sha1 l ∧ π2.cHash = getHashAsInt sha2 l) := by
  have h' : ∀ it ∈ items, Honest e it ∧ ∀ k ∈ commons.map (·.1), k ∈ unrevealedAttrs it.schema it.nonSchema it.req ∧ attrValue it.vals k = cval k := fun it hit => ⟨(h it hit).1, (h it hit).2.2⟩
  obtain ⟨π1, v1, p1, x1, a1, -⟩ := honest_presentation_responses e cv mode sha1 ord ordF ordV commons names hnames items cval h' nonce
  obtain ⟨π2, v, p2, x2, a2, -⟩ := honest_presentation_responses e cv mode sha2 ord ordF ordV commons names hnames items cval h' nonce
  rw [x1, Res.ok.injEq] at x2
  subst x2
  refine ⟨π1, π2, v1, p1, p2, x1, a1, a2, ?_⟩
  have q1 := p1
  have q2 := p2
  unfold present at p1 p2
  simp only [] at p1 p2
  obtain ⟨b1, b2, b3, b4⟩ := builder_commons commons (Builder.new : Builder F G1 G2 GT)
  set b0 : Builder F G1 G2 GT := commons.foldl (fun b c => b.addCommonAttribute c.1 c.2) Builder.new with hb0
  have hkey : ∀ k, b0.common.hasKey k = true ↔ k ∈ commons.map (·.1) := by
    intro k
    rw [b4 k]
    simp [Builder.new, Map.hasKey]
  obtain ⟨inis, cl, tl, hadd, hfin⟩ := items_complete e cv mode ord ordF ordV cval items b0 (by
    intro it hit
    refine ⟨(h it hit).1, fun k hk => (h it hit).2.2 k ?_⟩
    rw [← hkey, hasKey_iff_mem]
    exact hk)
  obtain ⟨inis', g1, g2⟩ := adds_inGroup e cv mode ord items b0 _ (fun it hit => (h it hit).1) hadd
  simp only [] at g1
  have := List.append_cancel_left g1
  subst this
  rw [hadd, Res.ok_bind, b1, b2, b3] at p1 p2
  unfold Builder.finalize at p1 p2
  simp only [Builder.new, List.nil_append] at p1 p2
  obtain ⟨sp1, m1, p1⟩ := Res.bind_eq_ok.1 p1
  obtain ⟨sp2, m2, p2⟩ := Res.bind_eq_ok.1 p2
  rw [Res.pure_eq, Res.ok.injEq] at p1 p2
  subst p1 p2
  have hv := expectItems_ok names items (fun it hit => ⟨(h it hit).1.revealed, fun p hp => ((h it hit).1.predicates p hp).1⟩)
  rw [x1, Res.ok.injEq] at hv
  have f1 := mapM_ok_inv _ _ _ m1
  have f2 := mapM_ok_inv _ _ _ m2
  refine ⟨?_, ?_, ?_, ⟨_, rfl, rfl⟩⟩
  · have : ∀ {l : List (InitProof F G1 G2 GT)} {l1 l2 : List (SubProof F G1 G2)} {c1 c2 : Int}, List.Forall₂ (fun a b => finalizeSubProof cv ordF c1 a = .ok b) l l1 →
        List.Forall₂ (fun a b => finalizeSubProof cv ordF c2 a = .ok b) l l2 → List.Forall₂ SameCommitments l1 l2 := by
      intro l
      induction l with
      | nil => intro l1 l2 c1 c2 h1 h2; cases h1; cases h2; exact .nil
      | cons q l ih =>
        intro l1 l2 c1 c2 h1 h2
        cases h1 with
        | cons x1 y1 =>
          cases h2 with
          | cons x2 y2 => exact .cons (finalize_same cv ordF _ _ q _ _ x1 x2).1 (ih y1 y2)
    exact this f1 f2
  · rw [hv]
    have : ∀ {l : List (Item F G1 G2 GT)} {li : List (InitProof F G1 G2 GT)} {l1 : List (SubProof F G1 G2)} {c1 : Int}, (∀ it ∈ l, ValidKey it.pk.pKey) →
        List.Forall₂ (fun it ini => InitUnits it.pk.pKey.n ini) l li → List.Forall₂ (fun a b => finalizeSubProof cv ordF c1 a = .ok b) li l1 →
        ∀ x ∈ l1.zip (l.map Item.cred), InGroup x.1 x.2 := by
      intro l
      induction l with
      | nil => intro li l1 c1 _ h1 h2; cases h1; cases h2; simp
      | cons q l ih =>
        intro li l1 c1 hvk h1 h2
        cases h1 with
        | cons x1 y1 =>
          cases h2 with
          | cons x2 y2 =>
            intro x hx
            rw [List.map_cons, List.zip_cons_cons, List.mem_cons] at hx
            rcases hx with rfl | hx
            · obtain ⟨_, s1, s2⟩ := finalize_same cv ordF _ _ _ _ _ x2 x2
              refine ⟨hvk q (by simp), ?_, ?_⟩
              · show 0 ≤ _ ∧ Int.gcd _ q.pk.pKey.n = 1
                simp only []
                rw [s1]
                exact x1.1
              · intro p hp k y hy
                obtain ⟨z, hz, ht⟩ := s2 p hp
                rw [ht] at hy
                exact x1.2 z hz k y hy
            · exact ih (fun it hit => hvk it (by simp [hit])) y1 y2 x hx
    exact this (fun it hit => (h it hit).2.1) g2 f1
  · have hvc := (verifier_commons names (PVerifier.new : PVerifier G1 G2 GT) (by intro a ha; simp [PVerifier.new] at ha)).2
    have main : ∀ c sp, 0 ≤ c → inis.mapM (finalizeSubProof cv ordF c) = .ok sp → recomputed e cv mode ordV v1 ⟨sp, c, cl⟩ = .ok tl := by
      intro c sp hc hm
      obtain ⟨sps, g1, g2, -, g5, g4⟩ := hfin c hc
      rw [hm, Res.ok.injEq] at g1
      subst g1
      obtain ⟨com', hloop⟩ := g4 v1.common (by
        rw [hv]
        intro a ha
        obtain ⟨h1, h2⟩ := hvc a ha
        have hmn : a.1 ∈ names := by
          rcases h2 with h2 | h2
          · exact h2
          · simp [PVerifier.new] at h2
        obtain ⟨mt, hmt⟩ := hasKey_iff.1 ((hkey a.1).2 (hnames _ hmn))
        exact ⟨mt, hmt, .inl h1⟩)
      unfold recomputed
      rw [hv] at hloop ⊢
      simp only [] at hloop ⊢
      rw [hloop]
    rw [main _ _ (getHashAsInt_nonneg _ _) m1, main _ _ (getHashAsInt_nonneg _ _) m2]

end

namespace Toy77
open Rev

/-- like `conv101`, with faithful encodings of the groups -/
def conv101' : Conv (ZMod 101) (ZMod 101 × ZMod 101) (ZMod 101) (ZMod 101 × ZMod 101) :=
  ⟨fun x => [UInt8.ofNat x.1.val, UInt8.ofNat x.2.val], fun x => [UInt8.ofNat x.val], fun x => [UInt8.ofNat x.1.val, UInt8.ofNat x.2.val], fun k => (k : ZMod 101), fun y => (ZMod.val y : Int)⟩

theorem conv_inj : Function.Injective (fun x : ZMod 101 × ZMod 101 => [UInt8.ofNat x.1.val, UInt8.ofNat x.2.val]) := by
  have key : ∀ a b : ZMod 101, UInt8.ofNat a.val = UInt8.ofNat b.val → a = b := by
    intro a b h
    have := congrArg UInt8.toNat h
    have ha := a.val_lt
    have hb := b.val_lt
    simp only [UInt8.toNat_ofNat'] at this
    apply ZMod.val_injective
    omega
  rintro ⟨a, b⟩ ⟨c, d⟩ h
  simp only [List.cons.injEq, and_true] at h
  rw [key _ _ h.1, key _ _ h.2]

theorem validKey : ValidKey pk where
  hn := by decide
  s := by decide
  z := by decide
  c := by decide
  r := by
    intro k x h
    have hm : (k, x) ∈ pk.r := mem_of_lookup h
    simp only [pk, List.mem_cons, Prod.mk.injEq, List.not_mem_nil, or_false] at hm
    rcases hm with ⟨rfl, rfl⟩ | ⟨rfl, rfl⟩ | ⟨rfl, rfl⟩ <;> decide

/-- another hash function -/
def sha9 : Bytes → Bytes := fun _ => [9]

/-- The hypotheses of `presentation_special_sound` are met: two predicates, a revealed value, a non-revocation part and a common attribute, answered for the challenges 7 and 9. -/
example : ∃ π1 π2 v, (v.verify pair2 conv101' .checked sha7 ord π1 1).2 = .ok true ∧ (v.verify pair2 conv101' .checked sha9 ord π2 1).2 = .ok true ∧
    List.Forall₂ SameCommitments π1.proofs π2.proofs ∧ (∀ x ∈ π1.proofs.zip v.creds, InGroup x.1 x.2) ∧
    recomputed pair2 conv101' .checked ord v π1 = recomputed pair2 conv101' .checked ord v π2 ∧ π1.cHash ≠ π2.cHash ∧ π1.proofs.length = 2 ∧ v.common.map (·.1) = ["master_secret"] ∧
    Function.Injective conv101'.g1 ∧ Function.Injective conv101'.gt := by
  have hc : ∀ k ∈ ([("master_secret", 41)] : List (String × Int)).map (·.1),
      k ∈ unrevealedAttrs {"name", "age"} {"master_secret"} ⟨{"name"}, [⟨"age", .GE, 18⟩, ⟨"age", .LT, 65⟩]⟩ ∧ attrValue Toy77.vals k = 6 := by
    intro k hk
    simp only [List.map_cons, List.map_nil, List.mem_singleton] at hk
    subst hk
    exact ⟨by decide, by decide⟩
  obtain ⟨π1, π2, v, p1, p2, hv, a1, a2, s, g, t, l, c1, c2⟩ := honest_fork pair2 conv101' .checked sha7 sha9 ord ord ord [("master_secret", 41)] ["master_secret"] (by simp)
    [item9, item (ZMod 101) (ZMod 101 × ZMod 101) (ZMod 101) (ZMod 101 × ZMod 101)] (fun _ => 6) (by
      intro it hit
      simp only [List.mem_cons, List.not_mem_nil, or_false] at hit
      rcases hit with rfl | rfl
      · exact ⟨honest9, validKey, hc⟩
      · exact ⟨honest pair2, validKey, hc⟩) 1
  refine ⟨π1, π2, v, a1, a2, s, g, t, ?_, ?_, ?_, conv_inj, conv_inj⟩
  · rw [c1, c2, sha7_int, show getHashAsInt sha9 l = 9 from rfl]
    decide
  · have := (presentation_special_sound pair2 conv101' conv_inj conv_inj .checked sha7 sha9 ord v π1 π2 1 a1 a2 s g t (by rw [c1, c2, sha7_int, show getHashAsInt sha9 l = 9 from rfl]; decide)).1.1
    rw [this]
    rw [expectItems_ok] at hv
    · rw [Res.ok.injEq] at hv
      rw [← hv]
      rfl
    · intro it hit
      simp only [List.mem_cons, List.not_mem_nil, or_false] at hit
      rcases hit with rfl | rfl
      · exact ⟨honest9.revealed, fun p hp => (honest9.predicates p hp).1⟩
      · exact ⟨(honest pair2).revealed, fun p hp => ((honest pair2).predicates p hp).1⟩
  · rw [expectItems_ok] at hv
    · rw [Res.ok.injEq] at hv
      rw [← hv]
      rfl
    · intro it hit
      simp only [List.mem_cons, List.not_mem_nil, or_false] at hit
      rcases hit with rfl | rfl
      · exact ⟨honest9.revealed, fun p hp => (honest9.predicates p hp).1⟩
      · exact ⟨(honest pair2).revealed, fun p hp => ((honest pair2).predicates p hp).1⟩

end Toy77
end Verif.CL
