import Verif.Props.ForkedPoK
/-!
# Forgers of signatures `x · H(m)` and the Diffie–Hellman problem: the counting behind C200

`S` is the group of signatures with generator `P`.  A forger asks, one after the other and each question depending on the answers so far, for
hash values and for signatures, and finally outputs something.  The hash function is a uniformly random function to the points other than
the point at infinity: `H d = h d • P` for uniformly random non-zero `h d`.

`simulate` runs the forger without the secret key `x`, from `P`, `X = x • P` and the other point `Q` of the Diffie–Hellman problem only: it guesses which of the questions
the forgery will be about and answers that one, and the questions of the set `key`, with multiples of `Q`.
-/
set_option linter.unusedSectionVars false
set_option linter.unusedVariables false
set_option linter.unusedSimpArgs false
namespace Verif.Forgery
open Verif.Forking

/-- a forger: it outputs something, or asks for a hash value or for a signature, and continues with the answer -/
inductive Forger (D S O : Type) where
  | out (o : O)
  | hash (d : D) (next : S → Forger D S O)
  | sign (d : D) (next : S → Forger D S O)

section
variable {D S O : Type}

/-- what it outputs with the hash function `H` and the signer `G` -/
def Forger.run (H G : D → S) : Forger D S O → O
  | .out o => o
  | .hash d next => (next (H d)).run H G
  | .sign d next => (next (G d)).run H G

/-- what it has had signed -/
def Forger.signed (H G : D → S) : Forger D S O → List D
  | .out _ => []
  | .hash d next => (next (H d)).signed H G
  | .sign d next => d :: (next (G d)).signed H G

/-- whatever the answers, it asks at most `q` questions -/
def Forger.AtMost : Nat → Forger D S O → Prop
  | _, .out _ => True
  | 0, .hash _ _ => False
  | 0, .sign _ _ => False
  | q + 1, .hash _ next => ∀ s, (next s).AtMost q
  | q + 1, .sign _ next => ∀ s, (next s).AtMost q

variable [DecidableEq D]

/-- one more question -/
def add (d : D) (seen : List D) : List D := if d ∈ seen then seen else seen ++ [d]

variable {F : Type} [Field F] [AddCommGroup S] [Module F S]

/-- The forger run without the secret key: question number `j` (and those in `key`) is answered with a multiple of `Q`; gives up if that is to be signed. -/
def simulate (P X Q : S) (key : D → Bool) (f : D → Fˣ) (j : Nat) : List D → Forger D S O → Option O
  | _, .out o => some o
  | seen, .hash d next =>
    if key d then simulate P X Q key f j seen (next ((f d : F) • Q))
    else if (add d seen)[j]? = some d then simulate P X Q key f j (add d seen) (next ((f d : F) • Q))
    else simulate P X Q key f j (add d seen) (next ((f d : F) • P))
  | seen, .sign d next =>
    if key d then none
    else if (add d seen)[j]? = some d then none
    else simulate P X Q key f j (add d seen) (next ((f d : F) • X))

/-- the hash function that the simulation answers with, if the forgery is about `t`, for `Q = a • P` -/
def programmed (key : D → Bool) (a : Fˣ) (t : D) (f : D → Fˣ) : D → Fˣ := fun d => if key d = true ∨ d = t then a * f d else f d

/-- the questions asked so far, after a run -/
def seenAfter (key : D → Bool) (H G : D → S) : List D → Forger D S O → List D
  | seen, .out o => seen
  | seen, .hash d next => seenAfter key H G (if key d then seen else add d seen) (next (H d))
  | seen, .sign d next => seenAfter key H G (add d seen) (next (G d))

theorem add_nodup {d : D} {l : List D} (h : l.Nodup) : (add d l).Nodup := by
  unfold add
  split_ifs with hd
  · exact h
  · exact List.nodup_append.2 ⟨h, by simp, fun a ha b hb => by
      rw [List.mem_singleton] at hb; subst hb; exact fun he => hd (he ▸ ha)⟩

theorem add_prefix (d : D) (l : List D) : l <+: add d l := by
  unfold add
  split_ifs
  · exact List.prefix_refl _
  · exact List.prefix_append _ _

theorem mem_add (d : D) (l : List D) : d ∈ add d l := by
  unfold add
  split_ifs with h
  · exact h
  · simp

theorem add_length (d : D) (l : List D) : (add d l).length ≤ l.length + 1 := by
  unfold add
  split_ifs <;> simp

theorem seenAfter_nodup (key : D → Bool) (H G : D → S) : ∀ (A : Forger D S O) (seen : List D), seen.Nodup → (seenAfter key H G seen A).Nodup
  | .out o, seen, h => h
  | .hash d next, seen, h => by
    unfold seenAfter
    refine seenAfter_nodup key H G _ _ ?_
    split_ifs
    · exact h
    · exact add_nodup h
  | .sign d next, seen, h => seenAfter_nodup key H G (next (G d)) (add d seen) (add_nodup h)

theorem seenAfter_prefix (key : D → Bool) (H G : D → S) : ∀ (A : Forger D S O) (seen : List D), seen <+: seenAfter key H G seen A
  | .out o, seen => List.prefix_refl _
  | .hash d next, seen => by
    unfold seenAfter
    refine List.IsPrefix.trans ?_ (seenAfter_prefix key H G _ _)
    split_ifs
    · exact List.prefix_refl _
    · exact add_prefix _ _
  | .sign d next, seen => List.IsPrefix.trans (add_prefix d seen) (seenAfter_prefix key H G (next (G d)) (add d seen))

theorem seenAfter_length (key : D → Bool) (H G : D → S) : ∀ (q : Nat) (A : Forger D S O) (seen : List D), A.AtMost q →
    (seenAfter key H G seen A).length ≤ seen.length + q
  | q, .out o, seen, h => Nat.le_add_right _ _
  | 0, .hash d next, seen, h => absurd h (by simp [Forger.AtMost])
  | 0, .sign d next, seen, h => absurd h (by simp [Forger.AtMost])
  | q + 1, .hash d next, seen, h => by
    unfold seenAfter
    have ih := seenAfter_length key H G q (next (H d)) (if key d then seen else add d seen) (h _)
    have := add_length d seen
    split_ifs at ih ⊢ <;> omega
  | q + 1, .sign d next, seen, h => by
    unfold seenAfter
    have ih := seenAfter_length key H G q (next (G d)) (add d seen) (h _)
    have := add_length d seen
    omega

theorem index_of_prefix {l L : List D} (hL : L.Nodup) (hp : l <+: L) {j : Nat} {t d : D} (hj : L[j]? = some t) (hd : d ∈ l) :
    l[j]? = some d ↔ d = t := by
  have hpre : ∀ (i : Nat) (x : D), l[i]? = some x → L[i]? = some x := by
    obtain ⟨r, rfl⟩ := hp
    intro i x h
    rw [List.getElem?_append_left (List.getElem?_eq_some_iff.1 h).1]; exact h
  constructor
  · intro h
    have := hpre j d h
    rw [hj] at this
    simpa using this.symm
  · rintro rfl
    obtain ⟨i, hi, he⟩ := List.getElem_of_mem hd
    have h1 : l[i]? = some d := by rw [List.getElem?_eq_getElem hi, he]
    have h2 := hpre i d h1
    obtain ⟨hi', e1⟩ := List.getElem?_eq_some_iff.1 h2
    obtain ⟨hj', e2⟩ := List.getElem?_eq_some_iff.1 hj
    have := (hL.getElem_inj_iff).1 (e1.trans e2.symm)
    rw [← this]; exact h1

/-- The simulation is faithful if the guess is right. -/
theorem simulate_run (P : S) (x : F) (a : Fˣ) (key : D → Bool) (f : D → Fˣ) (j : Nat) (t : D) (L : List D) (hL : L.Nodup) (hj : L[j]? = some t) :
    let H : D → S := fun d => ((programmed key a t f d : Fˣ) : F) • P
    ∀ (A : Forger D S O) (seen : List D), seenAfter key H (fun d => x • H d) seen A <+: L →
      (∀ d ∈ A.signed H (fun d => x • H d), d ≠ t ∧ key d = false) →
      simulate P (x • P) ((a : F) • P) key f j seen A = some (A.run H (fun d => x • H d)) := by
  intro H
  have hin : ∀ d, key d = true ∨ d = t → H d = (f d : F) • (a : F) • P := by
    intro d hd
    simp only [H, programmed, if_pos hd, Units.val_mul, smul_smul, mul_comm]
  have hout : ∀ d, ¬(key d = true ∨ d = t) → H d = (f d : F) • P := by
    intro d hd
    simp only [H, programmed, if_neg hd]
  intro A
  induction A with
  | out o => intro seen _ _; rfl
  | hash d next ih =>
    intro seen hp hs
    unfold simulate Forger.run
    unfold seenAfter at hp
    unfold Forger.signed at hs
    by_cases hk : key d = true
    · rw [if_pos hk] at hp ⊢
      rw [← hin d (Or.inl hk)]
      exact ih _ seen hp hs
    · rw [if_neg hk] at hp ⊢
      have hpre := (seenAfter_prefix key H (fun d => x • H d) (next (H d)) (add d seen)).trans hp
      have hiff := index_of_prefix hL hpre hj (mem_add d seen)
      by_cases ht : d = t
      · rw [if_pos (hiff.2 ht), ← hin d (Or.inr ht)]
        exact ih _ _ hp hs
      · rw [if_neg (fun h => ht (hiff.1 h)), ← hout d (by simp [hk, ht])]
        exact ih _ _ hp hs
  | sign d next ih =>
    intro seen hp hs
    unfold simulate Forger.run
    unfold seenAfter at hp
    unfold Forger.signed at hs
    obtain ⟨hne, hk⟩ := hs d (by simp)
    have hpre := (seenAfter_prefix key H (fun d => x • H d) (next (x • H d)) (add d seen)).trans hp
    have hiff := index_of_prefix hL hpre hj (mem_add d seen)
    rw [if_neg (by simp [hk]), if_neg (fun h => hne (hiff.1 h))]
    have : (f d : F) • x • P = x • H d := by
      rw [hout d (by simp [hk, hne]), smul_comm]
    rw [this]
    exact ih _ _ hp (fun d' hd' => hs d' (by simp [hd']))

/-! ## The reduction -/

variable [Fintype D] [Fintype F] [DecidableEq F]
variable {R : Type} [Fintype R]

/-- the number of the question that the forgery is about -/
def guess (key : D → Bool) (H G : D → S) (t : D) (A : Forger D S O) : Nat := (add t (seenAfter key H G [] A)).idxOf t

open Classical in
/-- If a forger wins with probability `ε` after at most `q` questions, then the output of `simulate` wins, with the hash function that it
answers with, with probability at least `ε / (q + 1)`.  `win` may depend on the coins of the forger. -/
theorem reduction_core (P : S) (x : F) (key : D → Bool) (A : R → Forger D S O) (q : Nat) (hq : ∀ ρ, (A ρ).AtMost q)
    (target : O → D) (win : R → (D → Fˣ) → O → Prop) :
    (pr fun ω : R × (D → Fˣ) =>
      let H : D → S := fun d => (ω.2 d : F) • P
      let o := (A ω.1).run H (fun d => x • H d)
      win ω.1 ω.2 o ∧ ∀ d ∈ (A ω.1).signed H (fun d => x • H d), d ≠ target o ∧ key d = false) / (q + 1) ≤
    pr fun ω : Fin (q + 1) × R × Fˣ × (D → Fˣ) =>
      ∃ o, simulate P (x • P) ((ω.2.2.1 : F) • P) key ω.2.2.2 ω.1 [] (A ω.2.1) = some o ∧
        win ω.2.1 (programmed key ω.2.2.1 (target o) ω.2.2.2) o := by
  -- the winning cases
  let out (ω : R × (D → Fˣ)) : O := (A ω.1).run (fun d => (ω.2 d : F) • P) (fun d => x • (ω.2 d : F) • P)
  let W : R × (D → Fˣ) → Prop := fun ω => win ω.1 ω.2 (out ω) ∧
    ∀ d ∈ (A ω.1).signed (fun d => (ω.2 d : F) • P) (fun d => x • (ω.2 d : F) • P), d ≠ target (out ω) ∧ key d = false
  let V : Fin (q + 1) × R × Fˣ × (D → Fˣ) → Prop := fun ω =>
    ∃ o, simulate P (x • P) ((ω.2.2.1 : F) • P) key ω.2.2.2 ω.1 [] (A ω.2.1) = some o ∧
        win ω.2.1 (programmed key ω.2.2.1 (target o) ω.2.2.2) o
  let g (ω : R × (D → Fˣ)) : Nat := guess key (fun d => (ω.2 d : F) • P) (fun d => x • (ω.2 d : F) • P) (target (out ω)) (A ω.1)
  have hg : ∀ ω, g ω < q + 1 := by
    intro ω
    have h1 : g ω < (add (target (out ω)) (seenAfter key (fun d => (ω.2 d : F) • P) (fun d => x • (ω.2 d : F) • P) [] (A ω.1))).length :=
      List.idxOf_lt_length_iff.2 (mem_add _ _)
    have h2 := add_length (target (out ω)) (seenAfter key (fun d => (ω.2 d : F) • P) (fun d => x • (ω.2 d : F) • P) [] (A ω.1))
    have h3 := seenAfter_length key (fun d => (ω.2 d : F) • P) (fun d => x • (ω.2 d : F) • P) q (A ω.1) [] (hq _)
    simp only [List.length_nil, Nat.zero_add] at h3
    omega
  -- the random values of the reduction that lead to the run
  let undo (a : Fˣ) (ω : R × (D → Fˣ)) : D → Fˣ := programmed key a⁻¹ (target (out ω)) ω.2
  have hundo : ∀ a ω, programmed key a (target (out ω)) (undo a ω) = ω.2 := by
    intro a ω
    funext d
    simp only [undo, programmed]
    split_ifs <;> simp
  have hsim : ∀ (a : Fˣ) ω, W ω → simulate P (x • P) ((a : F) • P) key (undo a ω) (g ω) [] (A ω.1) = some (out ω) := by
    intro a ω hw
    have hN : (add (target (out ω)) (seenAfter key (fun d => (ω.2 d : F) • P) (fun d => x • (ω.2 d : F) • P) [] (A ω.1))).Nodup :=
      add_nodup (seenAfter_nodup _ _ _ _ _ List.nodup_nil)
    have hlt : g ω < (add (target (out ω)) (seenAfter key (fun d => (ω.2 d : F) • P) (fun d => x • (ω.2 d : F) • P) [] (A ω.1))).length :=
      List.idxOf_lt_length_iff.2 (mem_add _ _)
    have := simulate_run P x a key (undo a ω) (g ω) (target (out ω)) _ hN
      (by rw [List.getElem?_eq_getElem hlt]; exact congrArg some (List.getElem_idxOf hlt)) (A ω.1) []
    simp only [hundo] at this
    exact this (add_prefix _ _) hw.2
  let Φ : Fˣ × (R × (D → Fˣ)) → Fin (q + 1) × R × Fˣ × (D → Fˣ) := fun p => (⟨g p.2, hg p.2⟩, p.2.1, p.1, undo p.1 p.2)
  have hcard : Fintype.card Fˣ * (Finset.univ.filter W).card ≤ (Finset.univ.filter V).card := by
    rw [← Finset.card_univ, ← Finset.card_product]
    refine Finset.card_le_card_of_injOn Φ ?_ ?_
    · rintro ⟨a, ω⟩ hp
      have hw : W ω := by simpa using hp
      simp only [Finset.coe_filter, Finset.mem_univ, true_and, Set.mem_ofPred_eq, V, Φ]
      exact ⟨out ω, hsim a ω hw, by rw [hundo]; exact hw.1⟩
    · rintro ⟨a, ω⟩ hp ⟨a', ω'⟩ hp' he
      have hw : W ω := by simpa using hp
      have hw' : W ω' := by simpa using hp'
      simp only [Φ, Prod.mk.injEq, Fin.mk.injEq] at he
      obtain ⟨e1, e2, rfl, e4⟩ := he
      have s1 := hsim a ω hw
      have s2 := hsim a ω' hw'
      rw [e1, e2, e4, s2] at s1
      have ho : out ω' = out ω := by simpa using s1
      have h3 := hundo a ω
      rw [e4, ← ho, hundo] at h3
      exact Prod.ext rfl (Prod.ext e2 h3.symm)
  -- the fractions
  have hnonneg : (0 : ℚ) < (q : ℚ) + 1 := by positivity
  have hpos : (0 : ℚ) < Fintype.card Fˣ := by exact_mod_cast Fintype.card_pos
  have hpr1 : (pr fun ω : R × (D → Fˣ) =>
      let H : D → S := fun d => (ω.2 d : F) • P
      let o := (A ω.1).run H (fun d => x • H d)
      win ω.1 ω.2 o ∧ ∀ d ∈ (A ω.1).signed H (fun d => x • H d), d ≠ target o ∧ key d = false) =
      ((Finset.univ.filter W).card : ℚ) / Fintype.card (R × (D → Fˣ)) := by
    unfold pr; congr
  have hpr2 : (pr fun ω : Fin (q + 1) × R × Fˣ × (D → Fˣ) =>
      ∃ o, simulate P (x • P) ((ω.2.2.1 : F) • P) key ω.2.2.2 ω.1 [] (A ω.2.1) = some o ∧
        win ω.2.1 (programmed key ω.2.2.1 (target o) ω.2.2.2) o) =
      ((Finset.univ.filter V).card : ℚ) / Fintype.card (Fin (q + 1) × R × Fˣ × (D → Fˣ)) := by
    unfold pr; congr
  rw [hpr1, hpr2]
  have hc : (Fintype.card (Fin (q + 1) × R × Fˣ × (D → Fˣ)) : ℚ) = (q + 1) * Fintype.card Fˣ * Fintype.card (R × (D → Fˣ)) := by
    simp only [Fintype.card_prod, Fintype.card_fin]
    push_cast; ring
  rw [hc]
  rcases Nat.eq_zero_or_pos (Fintype.card (R × (D → Fˣ))) with h0 | h0
  · rw [h0]; simp
  have h0' : (0 : ℚ) < Fintype.card (R × (D → Fˣ)) := by exact_mod_cast h0
  rw [div_div, div_le_div_iff₀ (by positivity) (by positivity)]
  have : (Fintype.card Fˣ : ℚ) * (Finset.univ.filter W).card ≤ (Finset.univ.filter V).card := by exact_mod_cast hcard
  calc ((Finset.univ.filter W).card : ℚ) * ((q + 1) * Fintype.card Fˣ * Fintype.card (R × (D → Fˣ)))
      = (Fintype.card Fˣ * (Finset.univ.filter W).card) * ((Fintype.card (R × (D → Fˣ))) * (q + 1)) := by ring
    _ ≤ _ := by gcongr

/-- If a forger wins with probability `ε` after at most `q` questions, then `simulate` with the solution computed by `solve` solves the
Diffie–Hellman problem with probability at least `ε / (q + 1)`. -/
theorem reduction (P : S) (x : F) (key : D → Bool) (A : R → Forger D S O) (q : Nat) (hq : ∀ ρ, (A ρ).AtMost q)
    (target : O → D) (win : (D → Fˣ) → O → Prop) (solve : (D → Fˣ) → O → S)
    (hsolve : ∀ (a : Fˣ) (f : D → Fˣ) (o : O), win (programmed key a (target o) f) o → solve f o = x • (a : F) • P) :
    (pr fun ω : R × (D → Fˣ) =>
      let H : D → S := fun d => (ω.2 d : F) • P
      let o := (A ω.1).run H (fun d => x • H d)
      win ω.2 o ∧ ∀ d ∈ (A ω.1).signed H (fun d => x • H d), d ≠ target o ∧ key d = false) / (q + 1) ≤
    pr fun ω : Fin (q + 1) × R × Fˣ × (D → Fˣ) =>
      (simulate P (x • P) ((ω.2.2.1 : F) • P) key ω.2.2.2 ω.1 [] (A ω.2.1)).map (solve ω.2.2.2) = some (x • (ω.2.2.1 : F) • P) := by
  refine (reduction_core P x key A q hq target (fun _ => win)).trans (pr_mono ?_)
  rintro ω ⟨o, ho, hw⟩
  rw [ho, Option.map_some, hsolve _ _ o hw]
end
end Verif.Forgery
