import Verif.Props.SharingHiding
/-!
# C226: an attacker that picks the holders one after the other
-/
set_option linter.unusedSectionVars false
namespace Verif.Sharing
open Finset Verif.Forking

/-! ## Specification -/

/-- The attacker sees `pub` and then what `k` holders have, one after the other: `next` names each of them, knowing everything seen so far. -/
def corrupted {Pub Piece : Type} (next : Pub → List (Nat × Piece) → Nat) (pub : Pub) (has : Nat → Piece) : Nat → List (Nat × Piece)
  | 0 => []
  | k + 1 =>
    let seen := corrupted next pub has k
    (next pub seen, has (next pub seen)) :: seen

variable {F : Type} [Field F] [DecidableEq F]
variable {R : Type} [AddCommGroup R] [Module F R] [DecidableEq R]

/-- `test` says yes on what the attacker has seen of a Shamir sharing after taking over `k` holders -/
def ShamirSeen (sch : Scheme) (cF : Codec F) (next : Unit → List (Nat × List Share) → Nat) (k : Nat) (test : List (Nat × List Share) → Prop) (secret : F) {m : Nat}
    (c : Fin m → F) : Prop :=
  ∃ shares, splitSecret sch cF (draws c) secret = .ok shares ∧ test (corrupted next () (fun i => held {i} shares) k)

/-- `test` says yes on what the attacker has seen of a Pedersen sharing after taking over `k` holders -/
def PedersenSeen (sch : Scheme) (cF : Codec F) (g h : R) (next : PedersenVerifier R → List (Nat × List Share × List Share) → Nat) (k : Nat)
    (test : PedersenVerifier R → List (Nat × List Share × List Share) → Prop) (secret : F) {m : Nat} (ω : PedersenCoins F m) : Prop :=
  ∃ r, pedersenSplit sch cF (draws ω.1) (draws ω.2.2) ω.2.1 secret g h = .ok r ∧
    test r.verifier (corrupted next r.verifier (fun i => (held {i} r.secretShares, held {i} r.blindingShares)) k)

/-! ## Proof -/

section generic
variable {Pub Piece : Type} (next : Pub → List (Nat × Piece) → Nat) (pub : Pub)

/-- those who were taken over -/
def taken (has : Nat → Piece) (k : Nat) : Finset Nat := ((corrupted next pub has k).map (·.1)).toFinset

theorem corrupted_length (has : Nat → Piece) (k : Nat) : (corrupted next pub has k).length = k := by
  induction k with
  | zero => rfl
  | succ k ih => simp [corrupted, ih]

theorem taken_card (has : Nat → Piece) (k : Nat) : (taken next pub has k).card ≤ k := by
  refine (List.toFinset_card_le _).trans ?_
  rw [List.length_map, corrupted_length]

theorem corrupted_congr (has has' : Nat → Piece) (k : Nat) (h : ∀ i ∈ taken next pub has k, has' i = has i) :
    corrupted next pub has' k = corrupted next pub has k := by
  induction k with
  | zero => rfl
  | succ k ih =>
    have h1 : ∀ i ∈ taken next pub has k, has' i = has i := by
      intro i hi
      refine h i ?_
      unfold taken at hi ⊢
      rw [List.mem_toFinset] at hi ⊢
      exact List.mem_cons_of_mem _ hi
    have h2 : has' (next pub (corrupted next pub has k)) = has (next pub (corrupted next pub has k)) := by
      refine h _ ?_
      unfold taken
      rw [List.mem_toFinset]
      exact List.mem_cons_self
    simp only [corrupted]
    rw [ih h1, h2]

theorem taken_congr (has has' : Nat → Piece) (k : Nat) (h : ∀ i ∈ taken next pub has k, has' i = has i) :
    taken next pub has' k = taken next pub has k := by
  unfold taken
  rw [corrupted_congr next pub has has' k h]
end generic

theorem held_held {ids : Finset Nat} {i : Nat} (hi : i ∈ ids) (l : List Share) : held {i} (held ids l) = held {i} l := by
  unfold held
  rw [List.filter_filter]
  refine List.filter_congr fun s _ => ?_
  simp only [mem_singleton]
  by_cases h : s.identifier = i
  · simp [h, hi]
  · simp [h]

/-- one holder's share is not changed by the shift, if he is among `ids` -/
theorem one_shift {t n : Nat} (ht : 1 ≤ t) (hn : n < 2 ^ 32) (hsep : Separates F n) (cF : Codec F) (ids : Finset Nat) (hcard : ids.card < t)
    (c : Fin (t - 1) → F) (s a : F) {i : Nat} (hi : i ∈ ids) :
    held {i} ((List.range n).map (mkShare cF (polyNew (draws (c + a • maskTail F ids (t - 1))) (s + a) t))) =
      held {i} ((List.range n).map (mkShare cF (polyNew (draws c) s t))) := by
  rw [← held_held hi, held_shift ht hn hsep cF ids hcard c s a, held_held hi]

variable [Fintype F]

/-- A map that undoes another map is a bijection of a finite set. -/
theorem bijective_of_undo {Ω : Type} (f g : Ω → Ω) (h1 : ∀ ω, g (f ω) = ω) (h2 : ∀ ω, f (g ω) = ω) : Function.Bijective f :=
  Function.bijective_iff_has_inverse.2 ⟨g, h1, h2⟩

section shamir
variable {t n : Nat} (cF : Codec F) (next : Unit → List (Nat × List Share) → Nat) (k : Nat)

def shamirHas (n t : Nat) (cF : Codec F) (s : F) (c : Fin (t - 1) → F) (i : Nat) : List Share := held {i} ((List.range n).map (mkShare cF (polyNew (draws c) s t)))

/-- the coins for the secret `s + a` that look the same to the attacker -/
noncomputable def shamirMove (n : Nat) (s a : F) (c : Fin (t - 1) → F) : Fin (t - 1) → F :=
  c + a • maskTail F (taken next () (shamirHas n t cF s c) k) (t - 1)

theorem shamirMove_has (ht : 1 ≤ t) (hn : n < 2 ^ 32) (hsep : Separates F n) (hk : k < t) (s a : F) (c : Fin (t - 1) → F) :
    ∀ i ∈ taken next () (shamirHas n t cF s c) k, shamirHas n t cF (s + a) (shamirMove cF next k n s a c) i = shamirHas n t cF s c i := by
  intro i hi
  exact one_shift ht hn hsep cF _ ((taken_card _ _ _ _).trans_lt hk) c s a hi

theorem shamirMove_undo (ht : 1 ≤ t) (hn : n < 2 ^ 32) (hsep : Separates F n) (hk : k < t) (s a : F) (c : Fin (t - 1) → F) :
    shamirMove cF next k n (s + a) (-a) (shamirMove cF next k n s a c) = c := by
  have h := taken_congr next () _ _ k (shamirMove_has cF next k ht hn hsep hk s a c)
  unfold shamirMove at h ⊢
  rw [h]
  simp

/-- **C226** An attacker that takes over fewer than `threshold` holders one after the other, choosing each when it has seen the shares of those before, learns nothing from
a Shamir sharing: for any two secrets every test on all it has seen says yes with the same probability. -/
theorem shamir_hides_from_adaptive {sch : Scheme} (hnew : Scheme.new t n = .ok sch) (hn : n < 2 ^ 32) (hsep : Separates F n) (hk : k < t)
    (test : List (Nat × List Share) → Prop) (s s' : F) (hs : s ≠ 0) (hs' : s' ≠ 0) :
    pr (fun c : Fin (t - 1) → F => ShamirSeen sch cF next k test s c) = pr (fun c : Fin (t - 1) → F => ShamirSeen sch cF next k test s' c) := by
  obtain ⟨h2, h3, rfl⟩ := scheme_new_ok hnew
  have hsplit : ∀ (s : F) (c : Fin (t - 1) → F), s ≠ 0 → splitSecret ⟨t, n⟩ cF (draws c) s = .ok ((List.range n).map (mkShare cF (polyNew (draws c) s t))) := by
    intro s c hs
    unfold splitSecret getSharesAndPolynomial
    rw [if_neg hs]
    rfl
  have hiff : ∀ (s : F) (c : Fin (t - 1) → F), s ≠ 0 → (ShamirSeen ⟨t, n⟩ cF next k test s c ↔ test (corrupted next () (shamirHas n t cF s c) k)) := by
    intro s c hs
    unfold ShamirSeen
    rw [hsplit s c hs]
    constructor
    · rintro ⟨l, hl, ht⟩
      rw [Res.ok.injEq] at hl
      subst hl
      exact ht
    · exact fun ht => ⟨_, rfl, ht⟩
  have hbij : Function.Bijective (shamirMove (t := t) cF next k n s (s' - s)) := by
    refine bijective_of_undo _ (shamirMove cF next k n s' (s - s')) (fun c => ?_) (fun c => ?_)
    · have := shamirMove_undo cF next k (by omega) hn hsep hk s (s' - s) c
      rwa [add_sub_cancel, neg_sub] at this
    · have := shamirMove_undo cF next k (by omega) hn hsep hk s' (s - s') c
      rwa [add_sub_cancel, neg_sub] at this
  rw [← pr_bijective _ hbij (fun c => ShamirSeen ⟨t, n⟩ cF next k test s' c)]
  congr 1
  funext c
  rw [hiff s c hs, hiff s' _ hs']
  have h := shamirMove_has cF next k (by omega) hn hsep hk s (s' - s) c
  rw [add_sub_cancel] at h
  rw [corrupted_congr next () _ _ k h]
end shamir

section pedersen
variable {t n : Nat} (cF : Codec F) (g h : R) (next : PedersenVerifier R → List (Nat × List Share × List Share) → Nat) (k : Nat)

def pedersenPub (t : Nat) (g h : R) (s : F) (ω : PedersenCoins F (t - 1)) : PedersenVerifier R :=
  ⟨g, h, (s • g + ω.2.1 • h) :: List.ofFn fun k => ω.1 k • g + ω.2.2 k • h⟩

def pedersenHas (n t : Nat) (cF : Codec F) (s : F) (ω : PedersenCoins F (t - 1)) (i : Nat) : List Share × List Share :=
  (held {i} ((List.range n).map (mkShare cF (polyNew (draws ω.1) s t))), held {i} ((List.range n).map (mkShare cF (polyNew (draws ω.2.2) ω.2.1 t))))

noncomputable def pedersenMove (n : Nat) (κ s a : F) (ω : PedersenCoins F (t - 1)) : PedersenCoins F (t - 1) :=
  move κ (taken next (pedersenPub t g h s ω) (pedersenHas n t cF s ω) k) (t - 1) a ω

theorem move_pub {κ : F} (hκ : κ ≠ 0) (hh : h = κ • g) (ids : Finset Nat) (s a : F) (ω : PedersenCoins F (t - 1)) :
    pedersenPub t g h (s + a) (move κ ids (t - 1) a ω) = pedersenPub t g h s ω := by
  have hk : a / κ * κ = a := div_mul_cancel₀ _ hκ
  unfold pedersenPub move
  dsimp only
  have e3 : (s + a) • g + (ω.2.1 + -(a / κ)) • h = s • g + ω.2.1 • h := by
    rw [hh, smul_smul, smul_smul, ← add_smul, ← add_smul]
    congr 1
    linear_combination -hk
  have e4 : (fun k => (ω.1 + a • maskTail F ids (t - 1)) k • g + (ω.2.2 + (-(a / κ)) • maskTail F ids (t - 1)) k • h) =
      fun k => ω.1 k • g + ω.2.2 k • h := by
    funext k
    rw [hh, smul_smul, smul_smul, ← add_smul, ← add_smul]
    congr 1
    simp only [Pi.add_apply, Pi.smul_apply, smul_eq_mul]
    linear_combination -(maskTail F ids (t - 1) k) * hk
  rw [e3, e4]

theorem pedersenMove_has {κ : F} (hκ : κ ≠ 0) (hh : h = κ • g) (ht : 1 ≤ t) (hn : n < 2 ^ 32) (hsep : Separates F n) (hk : k < t) (s a : F) (ω : PedersenCoins F (t - 1)) :
    ∀ i ∈ taken next (pedersenPub t g h s ω) (pedersenHas n t cF s ω) k,
      pedersenHas n t cF (s + a) (pedersenMove cF g h next k n κ s a ω) i = pedersenHas n t cF s ω i := by
  intro i hi
  have hcard := (taken_card next (pedersenPub t g h s ω) (pedersenHas n t cF s ω) k).trans_lt hk
  unfold pedersenMove
  generalize taken next (pedersenPub t g h s ω) (pedersenHas n t cF s ω) k = ids at hi hcard
  unfold pedersenHas move
  dsimp only
  rw [one_shift ht hn hsep cF _ hcard _ _ a hi, one_shift ht hn hsep cF _ hcard _ _ (-(a / κ)) hi]

theorem pedersenMove_undo {κ : F} (hκ : κ ≠ 0) (hh : h = κ • g) (ht : 1 ≤ t) (hn : n < 2 ^ 32) (hsep : Separates F n) (hk : k < t) (s a : F) (ω : PedersenCoins F (t - 1)) :
    pedersenMove cF g h next k n κ (s + a) (-a) (pedersenMove cF g h next k n κ s a ω) = ω := by
  have h1 := taken_congr next (pedersenPub t g h s ω) _ _ k (pedersenMove_has cF g h next k hκ hh ht hn hsep hk s a ω)
  have h2 : pedersenPub t g h (s + a) (pedersenMove cF g h next k n κ s a ω) = pedersenPub t g h s ω := move_pub g h hκ hh _ s a ω
  conv_lhs => unfold pedersenMove
  rw [show taken next (pedersenPub t g h (s + a) (move κ (taken next (pedersenPub t g h s ω) (pedersenHas n t cF s ω) k) (t - 1) a ω))
    (pedersenHas n t cF (s + a) (move κ (taken next (pedersenPub t g h s ω) (pedersenHas n t cF s ω) k) (t - 1) a ω)) k =
    taken next (pedersenPub t g h s ω) (pedersenHas n t cF s ω) k by
      have e : move κ (taken next (pedersenPub t g h s ω) (pedersenHas n t cF s ω) k) (t - 1) a ω = pedersenMove cF g h next k n κ s a ω := rfl
      rw [e, h2, h1]]
  unfold move
  simp [neg_div]

/-- **C226** The same attacker learns next to nothing from a Pedersen sharing, although it sees the commitments from the beginning: the probabilities differ by at most
`1 / |F|`. -/
theorem pedersen_hides_from_adaptive {sch : Scheme} (hnew : Scheme.new t n = .ok sch) (hn : n < 2 ^ 32) (hsep : Separates F n) {κ : F} (hκ : κ ≠ 0) (hh : h = κ • g)
    (hk : k < t) (test : PedersenVerifier R → List (Nat × List Share × List Share) → Prop) (s s' : F) (hs : s ≠ 0) (hs' : s' ≠ 0) :
    |pr (fun ω : PedersenCoins F (t - 1) => PedersenSeen sch cF g h next k test s ω) -
      pr (fun ω : PedersenCoins F (t - 1) => PedersenSeen sch cF g h next k test s' ω)| ≤ 1 / Fintype.card F := by
  have hiff : ∀ (s : F) (ω : PedersenCoins F (t - 1)), s ≠ 0 → (PedersenSeen sch cF g h next k test s ω ↔
      ω.2.1 ≠ 0 ∧ test (pedersenPub t g h s ω) (corrupted next (pedersenPub t g h s ω) (pedersenHas n t cF s ω) k)) := by
    intro s ω hs
    unfold PedersenSeen
    rw [pedersen_split_eq hnew cF g h s ω.2.1 ω.1 ω.2.2 hs]
    constructor
    · rintro ⟨r, hr, ht⟩
      split at hr
      · cases hr
      rename_i hb
      rw [Res.ok.injEq] at hr
      subst hr
      exact ⟨hb, ht⟩
    · rintro ⟨hb, ht⟩
      exact ⟨_, if_neg hb, ht⟩
  have h23 := scheme_new_ok hnew
  have main : ∀ s s' : F, s ≠ 0 → s' ≠ 0 → pr (fun ω : PedersenCoins F (t - 1) => PedersenSeen sch cF g h next k test s ω) ≤
      pr (fun ω : PedersenCoins F (t - 1) => PedersenSeen sch cF g h next k test s' ω) + 1 / Fintype.card F := by
    intro s s' hs hs'
    have hbij : Function.Bijective (pedersenMove (t := t) cF g h next k n κ s (s' - s)) := by
      refine bijective_of_undo _ (pedersenMove cF g h next k n κ s' (s - s')) (fun c => ?_) (fun c => ?_)
      · have := pedersenMove_undo cF g h next k hκ hh (by omega) hn hsep hk s (s' - s) c
        rwa [add_sub_cancel, neg_sub] at this
      · have := pedersenMove_undo cF g h next k hκ hh (by omega) hn hsep hk s' (s - s') c
        rwa [add_sub_cancel, neg_sub] at this
    have hm : pr (fun ω : PedersenCoins F (t - 1) => PedersenSeen sch cF g h next k test s ω) ≤
        pr (fun ω : PedersenCoins F (t - 1) => PedersenSeen sch cF g h next k test s' (pedersenMove cF g h next k n κ s (s' - s) ω) ∨
          (pedersenMove cF g h next k n κ s (s' - s) ω).2.1 = 0) := by
      refine pr_mono ?_
      intro ω hω
      obtain ⟨-, ht⟩ := (hiff s ω hs).1 hω
      by_cases hz : (pedersenMove cF g h next k n κ s (s' - s) ω).2.1 = 0
      · exact Or.inr hz
      refine Or.inl ((hiff s' _ hs').2 ⟨hz, ?_⟩)
      have h1 := pedersenMove_has cF g h next k hκ hh (by omega) hn hsep hk s (s' - s) ω
      have h2 : pedersenPub t g h (s + (s' - s)) (pedersenMove cF g h next k n κ s (s' - s) ω) = pedersenPub t g h s ω := move_pub g h hκ hh _ s (s' - s) ω
      rw [add_sub_cancel] at h1 h2
      rw [h2, corrupted_congr next _ _ _ k h1]
      exact ht
    refine hm.trans ((pr_or _ _).trans ?_)
    have b1 := pr_bijective _ hbij (fun ω : PedersenCoins F (t - 1) => PedersenSeen sch cF g h next k test s' ω)
    have b2 := pr_bijective _ hbij (fun ω : PedersenCoins F (t - 1) => ω.2.1 = 0)
    rw [b1, b2]
    have : pr (fun ω : PedersenCoins F (t - 1) => ω.2.1 = 0) ≤ 1 / Fintype.card F := by
      refine SDH.pr_line _ (fun ω v => (ω.1, v, ω.2.2)) ?_
      rintro ⟨a1, a2, a3⟩ ⟨b1, b2, b3⟩ ha hb v v' hv
      simp only [Prod.mk.injEq] at ha hb hv ⊢
      exact ⟨⟨hv.1, ha.trans hb.symm, hv.2.2⟩, hv.2.1⟩
    linarith
  rw [abs_le]
  constructor
  · linarith [main s' s hs' hs]
  · linarith [main s s' hs hs']
end pedersen

/-! ### Non-vacuity: 3 of 4 over the field with 101 elements -/
section Examples
open Verif.Toy

/-- takes holder 1, and then holder 2 or 3, depending on the share -/
def exNext : Unit → List (Nat × List Share) → Nat
  | _, [] => 1
  | _, (_, l) :: _ => if l = [⟨1, codec101.enc 7⟩] then 2 else 3

/-- the attacker does choose by what it sees -/
example : taken exNext () (shamirHas 4 3 codec101 (5 : ZMod 101) ![2, 0]) 2 = {1, 2} ∧ taken exNext () (shamirHas 4 3 codec101 (5 : ZMod 101) ![3, 0]) 2 = {1, 3} := by
  constructor <;> decide +kernel

theorem ex_sep4 : Separates (ZMod 101) 4 := by
  intro i j hi hj
  interval_cases i <;> interval_cases j <;> decide

example (test : List (Nat × List Share) → Prop) :
    pr (fun c : Fin 2 → ZMod 101 => ShamirSeen ⟨3, 4⟩ codec101 exNext 2 test 5 c) = pr (fun c : Fin 2 → ZMod 101 => ShamirSeen ⟨3, 4⟩ codec101 exNext 2 test 77 c) :=
  shamir_hides_from_adaptive (t := 3) (n := 4) codec101 exNext 2 rfl (by norm_num) ex_sep4 (by norm_num) test 5 77 (by decide +kernel) (by decide +kernel)

/-- sees one commitment that tells where to go, and two holders -/
example (next : PedersenVerifier (ZMod 101) → List (Nat × List Share × List Share) → Nat) (test : PedersenVerifier (ZMod 101) → List (Nat × List Share × List Share) → Prop) :
    |pr (fun ω : PedersenCoins (ZMod 101) 2 => PedersenSeen ⟨3, 4⟩ codec101 (3 : ZMod 101) 10 next 2 test 5 ω) -
      pr (fun ω : PedersenCoins (ZMod 101) 2 => PedersenSeen ⟨3, 4⟩ codec101 (3 : ZMod 101) 10 next 2 test 77 ω)| ≤ 1 / Fintype.card (ZMod 101) :=
  pedersen_hides_from_adaptive (t := 3) (n := 4) codec101 3 10 next 2 rfl (by norm_num) ex_sep4 (κ := 37) (by decide +kernel) (by decide +kernel) (by norm_num) test 5 77
    (by decide +kernel) (by decide +kernel)
end Examples
end Verif.Sharing
