import Verif.Props.Anonymity
/-!
# C235: whatever can be seen of BBS+ and PS presentations the issuer could have made itself

An observer asks again and again for presentations, of signatures and messages of its choice.  In place of each the issuer can present a signature that it makes for the occasion, on
the messages that are shown and on others of its choice.
-/
set_option linter.unusedSectionVars false
set_option linter.unusedVariables false

namespace Verif.Unlinkable

theorem exists_other {F : Type} [Fintype F] (h : 3 ≤ Fintype.card F) (a b : F) : ∃ c, c ≠ a ∧ c ≠ b := by
  classical
  by_contra hc
  push Not at hc
  have : (Finset.univ : Finset F) ⊆ {a, b} := fun c _ => by
    by_cases hca : c = a
    · simp [hca]
    · simp [hc c hca]
  have := (Finset.card_le_card this).trans Finset.card_le_two
  rw [Finset.card_univ] at this
  omega
end Verif.Unlinkable

namespace Verif.BBS
open Verif.PoK Verif.Forking Verif.Unlinkable

variable {F G1 G2 GT : Type} [Field F] [DecidableEq F] [AddCommGroup G1] [Module F G1] [DecidableEq G1] [AddCommGroup G2] [Module F G2] [DecidableEq G2]
  [AddCommGroup GT] [Module F GT] [DecidableEq GT]

/-! ## Specification -/

/-- What is to be presented: a signature with its messages, which of them are shown, claims and a nonce. -/
structure Wanted (F G1 : Type) (n : Nat) where
  sig : Signature F G1
  m : Fin n → F
  shown : Fin n → Bool
  claims : List Bytes
  nonce : F

open Classical in
/-- the presentation, when the signature is valid -/
noncomputable def honestAnswer (P : Params F G1 G2 GT) (pk : PublicKey G1 G2) {n : Nat} (q : Wanted F G1 n) (ω : PresCoins F n) : Option (Res Error (SignatureProof F G1 × F)) :=
  if q.sig.verify P (List.ofFn q.m) pk = .ok true then some (present P pk q.claims q.nonce q.shown q.sig q.m ω) else none

/-- the messages that are shown, zeros for the others -/
def visible {n : Nat} (shown : Fin n → Bool) (m : Fin n → F) : Fin n → F := fun j => if shown j then m j else 0

/-- What the issuer, with its secret `x`, makes of the visible messages `v`: it signs them, with `e` and `s` of its choice, and presents that. -/
def byIssuer (P : Params F G1 G2 GT) (x : F) (pk : PublicKey G1 G2) {n : Nat} (e s : (Fin n → F) → F) (v : Fin n → F) (shown : Fin n → Bool) (claims : List Bytes) (nonce : F)
    (ω : PresCoins F n) : Res Error (SignatureProof F G1 × F) := do
  let sig ← sigNew P (List.ofFn v) x pk (e v) (s v)
  present P pk claims nonce shown sig v ω

open Classical in
/-- the same in the place of `honestAnswer` -/
noncomputable def issuerAnswer (P : Params F G1 G2 GT) (x : F) (pk : PublicKey G1 G2) {n : Nat} (e s : (Fin n → F) → F) (q : Wanted F G1 n) (ω : PresCoins F n) :
    Option (Res Error (SignatureProof F G1 × F)) :=
  if q.sig.verify P (List.ofFn q.m) pk = .ok true then some (byIssuer P x pk e s (visible q.shown q.m) q.shown q.claims q.nonce ω) else none

/-! ## Proof -/

variable [Fintype F]

/-- the issuer can sign what is visible -/
theorem issuer_signs (P : Params F G1 G2 GT) (hcard : 3 ≤ Fintype.card F) (x : F) (pk : PublicKey G1 G2) (hwf : WellFormed pk) (hw : pk.w = x • P.g2) (hgood : Nondeg P) {n : Nat}
    (hn : n = pk.h.length) (v : Fin n → F) : ∃ e s sig, sigNew P (List.ofFn v) x pk e s = .ok sig ∧ sig.verify P (List.ofFn v) pk = .ok true := by
  have hx : x ≠ 0 := by
    rintro rfl
    exact hwf.2.1 (by rw [hw, zero_smul])
  obtain ⟨e, he, hxe⟩ := exists_other hcard 0 (-x)
  obtain ⟨s₁, h₁, -⟩ := exists_other hcard (0 : F) 0
  obtain ⟨s₂, h₂, h₂₁⟩ := exists_other hcard (0 : F) s₁
  have hxe' : x + e ≠ 0 := fun h => hxe (eq_neg_of_add_eq_zero_right h)
  set T := ((pk.h.zip (List.ofFn v)).map (fun p => p.2 • p.1)).sum with hT
  by_cases hB : P.g1 + s₁ • pk.h0 + T = 0
  · have hB2 : P.g1 + s₂ • pk.h0 + T ≠ 0 := by
      intro h
      have : (s₂ - s₁) • pk.h0 = 0 := by
        have h3 := h.trans hB.symm
        rw [sub_smul, sub_eq_zero]
        exact add_left_cancel (add_right_cancel h3)
      rcases smul_eq_zero.1 this with h4 | h4
      · exact h₂₁ (sub_eq_zero.1 h4)
      · exact hwf.1 h4
    obtain ⟨sig, h⟩ := bbs_sign_verify P hgood (List.ofFn v) x pk e s₂ hx hwf hw (by simp [hn]) he h₂ hxe' hB2
    exact ⟨e, s₂, sig, h⟩
  · obtain ⟨sig, h⟩ := bbs_sign_verify P hgood (List.ofFn v) x pk e s₁ hx hwf hw (by simp [hn]) he h₁ hxe' hB
    exact ⟨e, s₁, sig, h⟩

/-- **C235** With the right `e` and `s` the issuer's own presentations of what is visible pass for the holders': any test of what an observer has seen after `N` adaptive questions
says yes in both cases with probabilities that differ by at most `2 N / p`. -/
theorem bbs_presentations_simulated (P : Params F G1 G2 GT) (hcard : 3 ≤ Fintype.card F) (hcyc : ∀ a b : G1, a ≠ 0 → ∃ k : F, b = k • a) (x : F) (pk : PublicKey G1 G2)
    (hwf : WellFormed pk) (hw : pk.w = x • P.g2) (hgood : Nondeg P) (n : Nat) (hn : n = pk.h.length) : ∃ e s : (Fin n → F) → F,
    ∀ (N : Nat) (ask : List (Option (Res Error (SignatureProof F G1 × F))) → Wanted F G1 n) (test : List (Option (Res Error (SignatureProof F G1 × F))) → Bool),
      |pr (fun ω : Fin N → PresCoins F n => test (history ask (honestAnswer P pk) N ω) = true) -
        pr (fun ω : Fin N → PresCoins F n => test (history ask (issuerAnswer P x pk e s) N ω) = true)| ≤ 2 * N / Fintype.card F := by
  classical
  choose e s sig hs hv using issuer_signs P hcard x pk hwf hw hgood hn
  refine ⟨e, s, fun N ask test => ?_⟩
  have hne : Nonempty {r : F // r ≠ 0} := ⟨⟨1, one_ne_zero⟩⟩
  let f (q : Wanted F G1 n) : Question F G1 n := ⟨fun b => if b then q.sig else sig (visible q.shown q.m), fun b => if b then q.m else visible q.shown q.m, q.shown, q.claims, q.nonce⟩
  have hf : ∀ q, (f q).Fair P pk ↔ q.sig.verify P (List.ofFn q.m) pk = .ok true := fun q =>
    ⟨fun h => h.1 true, fun h => ⟨fun b => match b with
      | true => h
      | false => hv _, fun j hj => by
        show visible q.shown q.m j = q.m j
        unfold visible
        rw [if_pos hj]⟩⟩
  have e1 : honestAnswer P pk = fun q : Wanted F G1 n => answer P pk true (f q) := by
    funext q ω
    unfold honestAnswer answer
    simp only [hf]
    rfl
  have e2 : issuerAnswer P x pk e s = fun q : Wanted F G1 n => answer P pk false (f q) := by
    funext q ω
    unfold issuerAnswer answer byIssuer
    simp only [hf, hs, Res.ok_bind]
    rfl
  have h := bbs_anonymous P hcyc x pk hwf hw hgood n N (fun seen => f (ask seen)) test
  rw [guess_bit fun b ω => test (history (fun seen => f (ask seen)) (answer P pk b) N ω)] at h
  rw [e1, e2]
  simp only [history_map]
  rw [abs_le] at h ⊢
  have e3 : (2 * N / Fintype.card F : ℚ) = 2 * (N / Fintype.card F) := by ring
  rw [e3]
  constructor <;> linarith [h.1, h.2]
end Verif.BBS

/-! ## The hypotheses are met: the signature on 4, 6, 8, the first message shown -/

namespace Verif.BBS.Toy
open Verif.Toy Verif.Forking Verif.Unlinkable
local instance : Fact (Nat.Prime 101) := fact101

def wanted : Wanted (ZMod 101) (ZMod 101) 3 := ⟨sig, ![4, 6, 8], ![true, false, false], [], 5⟩

/-- the holder presents it -/
example (ω : PresCoins (ZMod 101) 3) : ∃ sp c, honestAnswer par key wanted ω = some (.ok (sp, c)) := by
  unfold honestAnswer
  rw [if_pos (show wanted.sig.verify par (List.ofFn wanted.m) key = .ok true from sig_ok)]
  exact ⟨_, _, congrArg some (Unlink.ideal_eq par key [] 5 ![true, false, false] sig ![4, 6, 8] sig_ok (ω.1, ω.2.1.1, ω.2.2))⟩

/-- the issuer knows of it only the 4 -/
example : visible wanted.shown wanted.m = ![4, 0, 0] := by decide +kernel

example : ∃ e s : (Fin 3 → ZMod 101) → ZMod 101, ∀ test : List (Option (Res Error (SignatureProof (ZMod 101) (ZMod 101) × ZMod 101))) → Bool,
    |pr (fun ω : Fin 5 → PresCoins (ZMod 101) 3 => test (history (fun _ => wanted) (honestAnswer par key) 5 ω) = true) -
      pr (fun ω : Fin 5 → PresCoins (ZMod 101) 3 => test (history (fun _ => wanted) (issuerAnswer par 7 key e s) 5 ω) = true)| ≤ 2 * (5 : ℕ) / Fintype.card (ZMod 101) := by
  obtain ⟨e, s, h⟩ := bbs_presentations_simulated par (by rw [ZMod.card]; decide) (fun a b ha => ⟨b * a⁻¹, by rw [smul_eq_mul, mul_assoc, inv_mul_cancel₀ ha, mul_one]⟩) 7 key wf
    (by decide +kernel) nondeg 3 rfl
  exact ⟨e, s, h 5 (fun _ => wanted)⟩
end Verif.BBS.Toy

namespace Verif.PS
open Verif.PoK Verif.Forking Verif.Unlinkable

variable {F S O GT : Type} [Field F] [DecidableEq F] [AddCommGroup S] [Module F S] [DecidableEq S] [AddCommGroup O] [Module F O] [DecidableEq O]
  [AddCommGroup GT] [Module F GT] [DecidableEq GT]

/-! ## Specification -/

/-- What is to be presented: a signature with its messages, which of them are shown, and a nonce. -/
structure Wanted (F S : Type) where
  sig : Signature S
  ms : List F
  revealed : List Nat
  nonce : Bytes

/-- the signature is valid, and the indices are right -/
def Wanted.Good (P : Params F S O GT) (vk : Verkey O) (q : Wanted F S) : Prop :=
  q.sig.verify P q.ms vk = .ok true ∧ q.revealed.Nodup ∧ ∀ j ∈ q.revealed, j < vk.Y.length

open Classical in
/-- the presentation, when that is so -/
noncomputable def honestAnswer (P : Params F S O GT) (encS : S → Bytes) (encO : O → Bytes) (hash : Bytes → F) (vk : Verkey O) {n : Nat} (q : Wanted F S) (ω : PresCoins F n) :
    Option (Res Error (SigProof F S O × F)) :=
  if q.Good P vk then some (present P encS encO hash vk q.nonce q.revealed q.sig q.ms (ω.cut (n - q.revealed.length) (Nat.sub_le _ _))) else none

/-- the messages that are shown -/
def visible (revealed : List Nat) (ms : List F) : Nat → Option F := fun j => if j ∈ revealed then ms[j]? else none

/-- What the issuer, with its secret key, makes of the visible messages `v`: it fills in the others as it likes, signs them and presents that. -/
def byIssuer (P : Params F S O GT) (encS : S → Bytes) (encO : O → Bytes) (hash : Bytes → F) (x : F) (ys : List F) (fill : List Nat → (Nat → Option F) → List F) (v : Nat → Option F)
    (revealed : List Nat) (nonce : Bytes) {k : Nat} (ω : PresCoins F k) : Res Error (SigProof F S O × F) := do
  let sig ← sigNew P (fill revealed v) (keygen P x ys).2 1
  present P encS encO hash (keygen P x ys).1 nonce revealed sig (fill revealed v) ω

open Classical in
/-- the same in the place of `honestAnswer` -/
noncomputable def issuerAnswer (P : Params F S O GT) (encS : S → Bytes) (encO : O → Bytes) (hash : Bytes → F) (x : F) (ys : List F) (fill : List Nat → (Nat → Option F) → List F) {n : Nat}
    (q : Wanted F S) (ω : PresCoins F n) : Option (Res Error (SigProof F S O × F)) :=
  if q.Good P (keygen P x ys).1 then
    some (byIssuer P encS encO hash x ys fill (visible q.revealed q.ms) q.revealed q.nonce (ω.cut (n - q.revealed.length) (Nat.sub_le _ _)))
  else none

/-! ## Proof -/

variable [Fintype F]

/-- **C235** With the right filling the issuer's own presentations of what is visible are not to be told from the holders': any test of what an observer has seen after `N` adaptive
questions says yes in both cases with the same probability. -/
theorem ps_presentations_simulated (P : Params F S O GT) (hcyc : ∀ a b : S, a ≠ 0 → ∃ k : F, b = k • a) (hgood : Nondeg P) (hg : P.g ≠ 0) (x : F) (ys : List F) (encS : S → Bytes)
    (encO : O → Bytes) (hash : Bytes → F) : ∃ fill : List Nat → (Nat → Option F) → List F,
    ∀ (N : Nat) (ask : List (Option (Res Error (SigProof F S O × F))) → Wanted F S) (test : List (Option (Res Error (SigProof F S O × F))) → Bool),
      pr (fun ω : Fin N → PresCoins F ys.length => test (history ask (honestAnswer P encS encO hash (keygen P x ys).1) N ω) = true) =
        pr (fun ω : Fin N → PresCoins F ys.length => test (history ask (issuerAnswer P encS encO hash x ys fill) N ω) = true) := by
  classical
  let Ok (revealed : List Nat) (v : Nat → Option F) (ms : List F) : Prop := ms.length = ys.length ∧ x + dot ys ms ≠ 0 ∧ visible revealed ms = v
  let fill : List Nat → (Nat → Option F) → List F := fun r v => if h : ∃ ms, Ok r v ms then h.choose else []
  have hfill : ∀ q : Wanted F S, q.Good P (keygen P x ys).1 → Ok q.revealed (visible q.revealed q.ms) (fill q.revealed (visible q.revealed q.ms)) := by
    intro q hq
    have hex : ∃ ms, Ok q.revealed (visible q.revealed q.ms) ms := by
      obtain ⟨⟨hl, h1, h2⟩, h3⟩ := (ps_verify_iff P hgood x ys q.sig q.ms).1 hq.1
      refine ⟨q.ms, hl, fun h0 => h3 ?_, rfl⟩
      rw [h2, h0, zero_smul]
    show Ok _ _ (if h : ∃ ms, Ok q.revealed (visible q.revealed q.ms) ms then h.choose else [])
    rw [dif_pos hex]
    exact hex.choose_spec
  refine ⟨fill, fun N ask test => ?_⟩
  have hne : Nonempty {r : F // r ≠ 0} := ⟨⟨1, one_ne_zero⟩⟩
  have hsig : ∀ q : Wanted F S, ∃ sig : Signature S, q.Good P (keygen P x ys).1 → sigNew P (fill q.revealed (visible q.revealed q.ms)) (keygen P x ys).2 1 = .ok sig ∧
      sig.verify P (fill q.revealed (visible q.revealed q.ms)) (keygen P x ys).1 = .ok true := by
    intro q
    by_cases hq : q.Good P (keygen P x ys).1
    · obtain ⟨h1, h2, -⟩ := hfill q hq
      obtain ⟨sig, h⟩ := ps_sign_verify P hgood _ x ys 1 h1 hg one_ne_zero h2
      exact ⟨sig, fun _ => h⟩
    · exact ⟨q.sig, fun h => absurd h hq⟩
  choose sig hs using hsig
  let f (q : Wanted F S) : Question F S :=
    ⟨fun b => if b then q.sig else sig q, fun b => if b then q.ms else fill q.revealed (visible q.revealed q.ms), q.revealed, q.nonce⟩
  have hf : ∀ q, (f q).Fair P (keygen P x ys).1 ↔ q.Good P (keygen P x ys).1 := fun q =>
    ⟨fun h => ⟨h.1 true, h.2.1, h.2.2.1⟩, fun h => ⟨fun b => match b with
      | true => h.1
      | false => (hs q h).2, h.2.1, h.2.2, fun j hj => by
        have := congrFun (hfill q h).2.2 j
        unfold visible at this
        rw [if_pos hj, if_pos hj] at this
        exact this⟩⟩
  have e1 : honestAnswer P encS encO hash (keygen P x ys).1 (n := ys.length) = fun q : Wanted F S => answer P encS encO hash (keygen P x ys).1 true (f q) := by
    funext q ω
    unfold honestAnswer answer
    simp only [hf]
    rfl
  have e2 : issuerAnswer P encS encO hash x ys fill (n := ys.length) = fun q : Wanted F S => answer P encS encO hash (keygen P x ys).1 false (f q) := by
    funext q ω
    unfold issuerAnswer answer byIssuer
    simp only [hf]
    by_cases hq : q.Good P (keygen P x ys).1
    · rw [if_pos hq, if_pos hq, (hs q hq).1]
      rfl
    · rw [if_neg hq, if_neg hq]
  have h := ps_anonymous P hcyc hgood x ys encS encO hash N (fun seen => f (ask seen)) test
  rw [guess_bit fun b ω => test (history (fun seen => f (ask seen)) (answer P encS encO hash (keygen P x ys).1 b) N ω)] at h
  rw [e1, e2]
  simp only [history_map]
  linarith
end Verif.PS

namespace Verif.PS.Toy
open Verif.Toy Verif.Forking Verif.Unlinkable

def wanted : Wanted K K := ⟨sig, [4, 6, 8], [0], [9]⟩

theorem wanted_good : wanted.Good par vk := ⟨sig_ok, by simp [wanted], by simp [wanted, vk, keygen, ys]⟩

/-- the holder presents it -/
example (encS encO : K → Bytes) (hash : Bytes → K) (ω : PresCoins K 3) : ∃ pf c, honestAnswer par encS encO hash vk wanted ω = some (.ok (pf, c)) := by
  unfold honestAnswer
  rw [if_pos wanted_good]
  exact ⟨_, _, congrArg some (present_eq par encS encO hash vk [9] [0] sig [4, 6, 8] (by simp) rfl rfl _)⟩

/-- the issuer knows of it only the 4 -/
example : visible wanted.revealed wanted.ms = fun j => if j = 0 then some 4 else none := by
  funext j
  unfold visible wanted
  by_cases h : j = 0 <;> simp [h]

example (encS encO : K → Bytes) (hash : Bytes → K) : ∃ fill : List Nat → (Nat → Option K) → List K, ∀ test : List (Option (Res Error (SigProof K K K × K))) → Bool,
    pr (fun ω : Fin 5 → PresCoins K ys.length => test (history (fun _ => wanted) (honestAnswer par encS encO hash vk) 5 ω) = true) =
      pr (fun ω : Fin 5 → PresCoins K ys.length => test (history (fun _ => wanted) (issuerAnswer par encS encO hash 7 ys fill) 5 ω) = true) := by
  obtain ⟨fill, h⟩ := ps_presentations_simulated par (fun a b ha => ⟨b * a⁻¹, by rw [smul_eq_mul, mul_assoc, inv_mul_cancel₀ ha, mul_one]⟩) nondeg (by decide) 7 ys encS encO hash
  exact ⟨fill, h 5 (fun _ => wanted)⟩
end Verif.PS.Toy
