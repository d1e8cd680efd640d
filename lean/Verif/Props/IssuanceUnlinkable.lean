import Verif.Props.Anonymity
import Verif.Props.BBSBlindHiding
import Verif.Props.PoKHiding
/-!
# C234: an issuer cannot tell which of the credentials it issued blindly is presented

Two holders ask for blind signatures on their messages.  The issuer answers as it likes.  If both accept, one of them, drawn at random, makes presentations for the issuer, which
chooses what is shown.  The issuer guesses which of them it is.
-/
set_option linter.unusedSectionVars false
set_option linter.unusedVariables false

namespace Verif.Unlinkable
open Verif.Forking

/-- whether a call succeeded -/
def succeeded {ε α : Type} : Res ε α → Bool
  | .ok _ => true
  | _ => false

theorem pr_near {A B : Type} [Fintype A] [Fintype B] [Nonempty A] (P : A × B → Prop) (a ε : ℚ) (h0 : 0 ≤ a + ε) (h : ∀ x, |pr (fun y => P (x, y)) - a| ≤ ε) : |pr P - a| ≤ ε := by
  have h1 := pr_fiber P (a + ε) h0 fun x => by linarith [(abs_le.1 (h x)).2]
  have h2 := pr_fiber_ge P (a - ε) fun x => by linarith [(abs_le.1 (h x)).1]
  rw [abs_le]
  constructor <;> linarith
end Verif.Unlinkable

namespace Verif.BBS
open Verif.PoK Verif.Forking Verif.Unlinkable BlindHiding

variable {F G1 G2 GT : Type} [Field F] [DecidableEq F] [AddCommGroup G1] [Module F G1] [DecidableEq G1] [AddCommGroup G2] [Module F G2] [DecidableEq G2]
  [AddCommGroup GT] [Module F GT] [DecidableEq GT]

/-! ## Specification -/

/-- An issuer: its replies to the two requests; what it wants to be shown, with claims and a nonce, after it has seen some presentations; and its guess, from the requests, whether
the holders accepted, and the presentations. -/
structure Issuer (F G1 : Type) (n : Nat) where
  reply : (Bool → BlindCtx F G1) → Bool → Signature F G1
  ask : (Bool → BlindCtx F G1) → List (Option (Res Error (SignatureProof F G1 × F))) → (Fin n → Bool) × List Bytes × F
  guess : (Bool → BlindCtx F G1) → (Bool → Bool) → List (Option (Res Error (SignatureProof F G1 × F))) → Bool

open Classical in
/-- holder number `bit` presents its signature, if the two have the same messages where they are to be shown -/
noncomputable def exhibit (P : Params F G1 G2 GT) (pk : PublicKey G1 G2) {n : Nat} (sig : Bool → Signature F G1) (m : Bool → Fin n → F) (bit : Bool)
    (q : (Fin n → Bool) × List Bytes × F) (ω : PresCoins F n) : Option (Res Error (SignatureProof F G1 × F)) :=
  if ∀ j, q.1 j = true → m false j = m true j then some (present P pk q.2.1 q.2.2 q.1 (sig bit) (m bit) ω) else none

/-- After the replies, with what each holder made of its own: if both accept, `N` presentations by holder number `bit`, for what both can show alike; the issuer's guess. -/
noncomputable def afterwards (P : Params F G1 G2 GT) (pk : PublicKey G1 G2) {n : Nat} (m : Bool → Fin n → F) (I : Issuer F G1 n) (ctx : Bool → BlindCtx F G1)
    (done : Bool → Res Error (Signature F G1)) (N : Nat) (bit : Bool) (ρ : Fin N → PresCoins F n) : Bool :=
  match done false, done true with
  | .ok s₀, .ok s₁ => I.guess ctx (fun b => succeeded (done b)) (history (I.ask ctx) (exhibit P pk (fun b => if b then s₁ else s₀) m bit) N ρ)
  | _, _ => I.guess ctx (fun b => succeeded (done b)) []

/-- The game: two requests, two replies, which the holders complete, and what follows. -/
noncomputable def issueAndPresent (P : Params F G1 G2 GT) (pk : PublicKey G1 G2) {n : Nat} (idx : Bool → List Nat) (nonce : Bool → F) (m : Bool → Fin n → F) (I : Issuer F G1 n) (N : Nat)
    (bit : Bool) (ω : Bool → Coins F n) (ρ : Fin N → PresCoins F n) : Res Error Bool := do
  let r₀ ← request P pk (idx false) (nonce false) (m false) (ω false)
  let r₁ ← request P pk (idx true) (nonce true) (m true) (ω true)
  let ctx (b : Bool) := if b then r₁.1 else r₀.1
  pure (afterwards P pk m I ctx (fun b => completeSignature P pk (List.ofFn (m b)) (I.reply ctx b) (if b then r₁.2 else r₀.2)) N bit ρ)

/-! ## Proof -/

variable [Fintype F]

theorem afterwards_near (P : Params F G1 G2 GT) (hcyc : ∀ a b : G1, a ≠ 0 → ∃ k : F, b = k • a) (x : F) (pk : PublicKey G1 G2) (hwf : WellFormed pk)
    (hw : pk.w = x • P.g2) (hgood : Nondeg P) {n : Nat} (m : Bool → Fin n → F) (I : Issuer F G1 n) (ctx : Bool → BlindCtx F G1) (done : Bool → Res Error (Signature F G1))
    (hd : ∀ b s, done b = .ok s → s.verify P (List.ofFn (m b)) pk = .ok true) (N : Nat) :
    |pr (fun w : Bool × (Fin N → PresCoins F n) => afterwards P pk m I ctx done N w.1 w.2 = w.1) - 1 / 2| ≤ N / Fintype.card F := by
  have hne : Nonempty {r : F // r ≠ 0} := ⟨⟨1, one_ne_zero⟩⟩
  have h0 : (0 : ℚ) ≤ N / Fintype.card F := by positivity
  have hrest : ∀ A : Bool, |pr (fun w : Bool × (Fin N → PresCoins F n) => A = w.1) - 1 / 2| ≤ N / Fintype.card F := by
    intro A
    rw [guess_bit fun (_ : Bool) (_ : Fin N → PresCoins F n) => A]
    simpa using h0
  unfold afterwards
  generalize (fun b => succeeded (done b)) = acc
  have hd0 := hd false
  have hd1 := hd true
  generalize done false = d₀ at hd0 ⊢
  generalize done true = d₁ at hd1 ⊢
  cases d₀ with
  | ok s₀ =>
    cases d₁ with
    | ok s₁ =>
      let f (q : (Fin n → Bool) × List Bytes × F) : Question F G1 n := ⟨fun b => if b then s₁ else s₀, m, q.1, q.2.1, q.2.2⟩
      have e : ∀ bit, exhibit P pk (fun b => if b then s₁ else s₀) m bit = fun q => answer P pk bit (f q) := by
        intro bit
        funext q ω
        unfold exhibit answer
        have : (f q).Fair P pk ↔ ∀ j, q.1 j = true → m false j = m true j :=
          ⟨fun h => h.2, fun h => ⟨fun b => match b with
            | false => hd0 s₀ rfl
            | true => hd1 s₁ rfl, h⟩⟩
        simp only [this]
        rfl
      simp only [e, history_map]
      exact bbs_anonymous P hcyc x pk hwf hw hgood n N (fun seen => f (I.ask ctx seen)) (I.guess ctx acc)
    | err e => exact hrest _
    | panic => exact hrest _
  | err e => exact hrest _
  | panic => exact hrest _

/-- **C234** Whatever the issuer does, it guesses which of the two holders presents with a probability that differs from one half by at most `N / p`. -/
theorem bbs_issuance_unlinkable (P : Params F G1 G2 GT) (hcyc : ∀ a b : G1, a ≠ 0 → ∃ k : F, b = k • a) (x : F) (pk : PublicKey G1 G2) (hwf : WellFormed pk)
    (hw : pk.w = x • P.g2) (hgood : Nondeg P) {n : Nat} (hn : pk.h.length = n) (idx : Bool → List Nat) (hidx : ∀ b, ∀ i ∈ idx b, i < n) (nonce : Bool → F) (m : Bool → Fin n → F)
    (I : Issuer F G1 n) (N : Nat) :
    |pr (fun w : (Bool → Coins F n) × Bool × (Fin N → PresCoins F n) => issueAndPresent P pk idx nonce m I N w.2.1 w.1 w.2.2 = .ok w.2.1) - 1 / 2| ≤ N / Fintype.card F := by
  have hne : Nonempty {r : F // r ≠ 0} := ⟨⟨1, one_ne_zero⟩⟩
  have h0 : (0 : ℚ) ≤ N / Fintype.card F := by positivity
  refine pr_near _ _ _ (by linarith) fun ω => ?_
  unfold issueAndPresent
  simp only [request_eq P pk hn _ (hidx _), Res.ok_bind, Res.pure_eq, Res.ok.injEq]
  exact afterwards_near P hcyc x pk hwf hw hgood m I _ _ (fun b s hs => ((bbs_complete_iff P pk _ _ _ _).1 hs).2) N
end Verif.BBS

namespace Verif.PS
open Verif.PoK Verif.Forking Verif.Unlinkable Verif.PoK.Hiding

variable {F S O GT : Type} [Field F] [DecidableEq F] [AddCommGroup S] [Module F S] [DecidableEq S] [AddCommGroup O] [Module F O] [DecidableEq O]
  [AddCommGroup GT] [Module F GT] [DecidableEq GT]

/-! ## Specification -/

/-- what a holder sends: the commitment and the proof that it is known what is in it, with the challenge -/
abbrev Request (F S : Type) : Type := S × Res PoK.Error (Proof F S × F)

/-- The request for a blind signature on the messages `ms`, of which the first `k` are hidden: the commitment to them and to a blinding, over the bases of the blinding key and `g`,
and a proof of knowledge.  The coins are the blinding and the masks. -/
def request (P : Params F S O GT) (encS : S → Bytes) (hash : Bytes → F) (bk : BlindingKey S) (extra : S → Bytes) (k : Nat) (ms : List F) (ω : F × (Fin (k + 1) → F)) : Request F S :=
  let bases : Fin (k + 1) → S := fun i => (bk.Y.take k ++ [P.g]).getD i 0
  let secrets : Fin (k + 1) → F := fun i => (ms.take k ++ [ω.1]).getD i 0
  let c := msm (bk.Y.take k ++ [P.g]) (ms.take k ++ [ω.1])
  (c, prove encS hash bases (extra c) secrets ω.2)

/-- An issuer: its replies to the two requests; what it wants to be shown, with a nonce, after it has seen some presentations; and its guess. -/
structure Issuer (F S O : Type) where
  reply : (Bool → Request F S) → Bool → Signature S
  ask : (Bool → Request F S) → List (Option (Res Error (SigProof F S O × F))) → List Nat × Bytes
  guess : (Bool → Request F S) → (Bool → Bool) → List (Option (Res Error (SigProof F S O × F))) → Bool

open Classical in
/-- holder number `bit` presents its signature, if the two have the same messages where they are to be shown -/
noncomputable def exhibit (P : Params F S O GT) (encS : S → Bytes) (encO : O → Bytes) (hash : Bytes → F) (vk : Verkey O) (sig : Bool → Signature S) (ms : Bool → List F) {n : Nat} (bit : Bool)
    (q : List Nat × Bytes) (ω : PresCoins F n) : Option (Res Error (SigProof F S O × F)) :=
  if q.1.Nodup ∧ (∀ j ∈ q.1, j < vk.Y.length) ∧ ∀ j ∈ q.1, (ms false)[j]? = (ms true)[j]? then
    some (present P encS encO hash vk q.2 q.1 (sig bit) (ms bit) (ω.cut (n - q.1.length) (Nat.sub_le _ _)))
  else none

open Classical in
/-- The game: two requests, two replies, which the holders unblind and verify; if both accept, `N` presentations by holder number `bit`, for what both can show alike; the issuer's
guess. -/
noncomputable def issueAndPresent (P : Params F S O GT) (encS : S → Bytes) (encO : O → Bytes) (hash : Bytes → F) (vk : Verkey O) (bk : BlindingKey S) (extra : S → Bytes) (k : Bool → Nat)
    (ms : Bool → List F) (I : Issuer F S O) {n : Nat} (N : Nat) (bit : Bool) (ω : (b : Bool) → F × (Fin (k b + 1) → F)) (ρ : Fin N → PresCoins F n) : Bool :=
  let req (b : Bool) := request P encS hash bk extra (k b) (ms b) (ω b)
  let sig (b : Bool) := unblind (I.reply req b) (ω b).1
  let accepts (b : Bool) : Bool := decide ((sig b).verify P (ms b) vk = .ok true)
  if ∀ b, accepts b = true then I.guess req accepts (history (I.ask req) (exhibit P encS encO hash vk sig ms bit) N ρ)
  else I.guess req accepts []

/-! ## Proof -/

variable [Fintype F]

/-- **C234** Whatever the issuer does, it guesses which of the two holders presents with probability one half, exactly. -/
theorem ps_issuance_unlinkable (P : Params F S O GT) (hcyc : ∀ a b : S, a ≠ 0 → ∃ k : F, b = k • a) (hgood : Nondeg P) (x : F) (ys : List F) (encS : S → Bytes) (encO : O → Bytes)
    (hash : Bytes → F) (bk : BlindingKey S) (extra : S → Bytes) (k : Bool → Nat) (ms : Bool → List F) (I : Issuer F S O) (N : Nat) :
    pr (fun w : ((b : Bool) → F × (Fin (k b + 1) → F)) × Bool × (Fin N → PresCoins F ys.length) =>
      issueAndPresent P encS encO hash (keygen P x ys).1 bk extra k ms I N w.2.1 w.1 w.2.2 = w.2.1) = 1 / 2 := by
  have hne : Nonempty {r : F // r ≠ 0} := ⟨⟨1, one_ne_zero⟩⟩
  have key : |pr (fun w : ((b : Bool) → F × (Fin (k b + 1) → F)) × Bool × (Fin N → PresCoins F ys.length) =>
      issueAndPresent P encS encO hash (keygen P x ys).1 bk extra k ms I N w.2.1 w.1 w.2.2 = w.2.1) - 1 / 2| ≤ 0 := by
    refine pr_near _ _ _ (by norm_num) fun ω => ?_
    dsimp only
    unfold issueAndPresent
    dsimp only
    split
    · rename_i hacc
      generalize (fun b => request P encS hash bk extra (k b) (ms b) (ω b)) = req at hacc ⊢
      let f (q : List Nat × Bytes) : Question F S := ⟨fun b => unblind (I.reply req b) (ω b).1, ms, q.1, q.2⟩
      have e : ∀ bit, exhibit P encS encO hash (keygen P x ys).1 (fun b => unblind (I.reply req b) (ω b).1) ms (n := ys.length) bit =
          fun q => answer P encS encO hash (keygen P x ys).1 bit (f q) := by
        intro bit
        funext q ρ
        unfold exhibit answer
        have : (f q).Fair P (keygen P x ys).1 ↔ q.1.Nodup ∧ (∀ j ∈ q.1, j < (keygen P x ys).1.Y.length) ∧ ∀ j ∈ q.1, (ms false)[j]? = (ms true)[j]? :=
          ⟨fun h => h.2, fun h => ⟨fun b => of_decide_eq_true (hacc b), h⟩⟩
        simp only [this]
        rfl
      simp only [e, history_map]
      rw [ps_anonymous P hcyc hgood x ys encS encO hash N]
      simp
    · rw [guess_bit fun (_ : Bool) (_ : Fin N → PresCoins F ys.length) => _]
      simp
  exact sub_eq_zero.1 (abs_nonpos_iff.1 key)
end Verif.PS

namespace Verif.BBS.Toy
open Verif.Toy Verif.PoK Verif.Forking Verif.Unlinkable BlindHiding
local instance : Fact (Nat.Prime 101) := fact101

/-- the messages of the two holders, who have the first in common and hide the second -/
def theirs (b : Bool) : Fin 3 → ZMod 101 := if b then ![4, 50, 60] else ![4, 6, 8]

/-- the signatures of `sig` and `sig2`, blinded for the two requests -/
def honest (ω : Bool → Coins (ZMod 101) 3) (b : Bool) : Signature (ZMod 101) (ZMod 101) :=
  if b then ⟨sig2.a, sig2.e, sig2.s - (ω true).1⟩ else ⟨sig.a, sig.e, sig.s - (ω false).1⟩

/-- both holders accept what is so blinded, and get `sig` and `sig2` -/
example (ω : Bool → Coins (ZMod 101) 3) (b : Bool) :
    completeSignature par key (List.ofFn (theirs b)) (honest ω b) (ω b).1 = .ok (if b then sig2 else sig) :=
  (bbs_complete_iff par key _ _ _ _).2 (match b with
    | false => ⟨by simp [honest], sig_ok⟩
    | true => ⟨by simp [honest], sig2_ok⟩)

/-- an issuer that replies as it can and sees 5 presentations -/
example (I : Issuer (ZMod 101) (ZMod 101) 3) (nonce : Bool → ZMod 101) :
    |pr (fun w : (Bool → Coins (ZMod 101) 3) × Bool × (Fin 5 → PresCoins (ZMod 101) 3) => issueAndPresent par key (fun _ => [1]) nonce theirs I 5 w.2.1 w.1 w.2.2 = .ok w.2.1) - 1 / 2|
      ≤ (5 : ℕ) / Fintype.card (ZMod 101) :=
  bbs_issuance_unlinkable par (fun a b ha => ⟨b * a⁻¹, by rw [smul_eq_mul, mul_assoc, inv_mul_cancel₀ ha, mul_one]⟩) 7 key wf (by decide +kernel) nondeg rfl (fun _ => [1]) (by simp)
    nonce theirs I 5
end Verif.BBS.Toy

namespace Verif.PS.Toy
open Verif.Toy Verif.Forking Verif.Unlinkable

/-- both holders accept the signatures `sig` and `sig2` when they are blinded for them -/
example (a : K) (b : Bool) : (unblind ⟨(if b then sig2 else sig).s1, (if b then sig2 else sig).s2 + a * (if b then sig2 else sig).s1⟩ a).verify par
    (if b then [4, 50, 60] else [4, 6, 8]) vk = .ok true := by
  cases b
  · have : unblind (⟨sig.s1, sig.s2 + a * sig.s1⟩ : Signature K) a = sig := by simp [unblind]
    simpa [this] using sig_ok
  · have : unblind (⟨sig2.s1, sig2.s2 + a * sig2.s1⟩ : Signature K) a = sig2 := by simp [unblind]
    simpa [this] using sig2_ok

/-- an issuer that replies as it can and sees 5 presentations -/
example (encS encO : K → Bytes) (hash : Bytes → K) (bk : BlindingKey K) (extra : K → Bytes) (I : Issuer K K K) :
    pr (fun w : ((b : Bool) → K × (Fin (2 + 1) → K)) × Bool × (Fin 5 → PresCoins K ys.length) =>
      issueAndPresent par encS encO hash vk bk extra (fun _ => 2) (fun b => if b then [4, 50, 60] else [4, 6, 8]) I 5 w.2.1 w.1 w.2.2 = w.2.1) = 1 / 2 :=
  ps_issuance_unlinkable par (fun a b ha => ⟨b * a⁻¹, by rw [smul_eq_mul, mul_assoc, inv_mul_cancel₀ ha, mul_one]⟩) nondeg 7 ys encS encO hash bk extra (fun _ => 2) _ I 5
end Verif.PS.Toy
