import Verif.Props.Unlinkable
/-!
# C231: the anonymity game for presentations

An observer asks for presentations one after the other.  Each time it chooses, from all it has seen, two signatures with their messages, what is to be shown and the nonce, and gets
the presentation of the first or of the second.
-/
set_option linter.unusedSectionVars false
set_option linter.unusedVariables false

namespace Verif.Unlinkable
open Verif.Forking

/-! ## Specification -/

/-- what an observer has seen after `N` questions: `ask` chooses the next question from the answers so far, `answer` needs new coins each time -/
def history {Q Ω A : Type} (ask : List A → Q) (answer : Q → Ω → A) : (N : Nat) → (Fin N → Ω) → List A
  | 0, _ => []
  | N + 1, ω =>
    let seen := history ask answer N fun i => ω i.castSucc
    seen ++ [answer (ask seen) (ω (Fin.last N))]

/-! ## Proof -/

theorem history_bijective {Q Ω A : Type} [Finite Ω] (answer answer' : Q → Ω → A)
    (h : ∀ q, ∃ φ : Ω → Ω, Function.Bijective φ ∧ ∀ ω, answer' q (φ ω) = answer q ω) (ask : List A → Q) : ∀ N,
    ∃ Φ : (Fin N → Ω) → (Fin N → Ω), Function.Bijective Φ ∧ ∀ ω, history ask answer' N (Φ ω) = history ask answer N ω := by
  choose φ hb hφ using h
  intro N
  induction N with
  | zero => exact ⟨id, Function.bijective_id, fun ω => rfl⟩
  | succ N ih =>
    obtain ⟨Φ, hΦ, hH⟩ := ih
    have key : ∀ ω : Fin (N + 1) → Ω, (fun i : Fin N => (Fin.snoc (α := fun _ => Ω) (Φ fun i => ω i.castSucc)
        (φ (ask (history ask answer N fun i => ω i.castSucc)) (ω (Fin.last N))) : Fin (N + 1) → Ω) i.castSucc) = Φ fun i => ω i.castSucc := by
      intro ω
      funext i
      exact Fin.snoc_castSucc (α := fun _ => Ω) _ _ i
    refine ⟨fun ω => Fin.snoc (α := fun _ => Ω) (Φ fun i => ω i.castSucc) (φ (ask (history ask answer N fun i => ω i.castSucc)) (ω (Fin.last N))),
      Finite.injective_iff_bijective.1 ?_, fun ω => ?_⟩
    · intro ω₁ ω₂ he
      dsimp only at he
      have e1 : (fun i : Fin N => ω₁ i.castSucc) = fun i => ω₂ i.castSucc := by
        apply hΦ.1
        rw [← key ω₁, ← key ω₂, he]
      have e2 := congrFun he (Fin.last N)
      rw [Fin.snoc_last, Fin.snoc_last, e1] at e2
      have e3 := (hb _).1 e2
      funext i
      refine Fin.lastCases e3 (fun i => congrFun e1 i) i
    · show (history ask answer' N _ ++ [_]) = _
      rw [key, hH]
      dsimp only
      rw [Fin.snoc_last, hφ]
      rfl

/-- questions can be translated by the one who answers -/
theorem history_map {Q Q' Ω A : Type} (f : Q → Q') (answer : Q' → Ω → A) (ask : List A → Q) : ∀ (N : Nat) (ω : Fin N → Ω),
    history ask (fun q => answer (f q)) N ω = history (fun seen => f (ask seen)) answer N ω := by
  intro N
  induction N with
  | zero => intro ω; rfl
  | succ N ih =>
    intro ω
    show history ask (fun q => answer (f q)) N (fun i => ω i.castSucc) ++ [_] = history (fun seen => f (ask seen)) answer N (fun i => ω i.castSucc) ++ [_]
    rw [ih]

/-- a bit that does not change what is seen is guessed half the time -/
theorem guess_bit {Ω : Type} [Fintype Ω] [Nonempty Ω] (A : Bool → Ω → Bool) :
    pr (fun w : Bool × Ω => A w.1 w.2 = w.1) = 1 / 2 + (pr (fun ω => A true ω = true) - pr (fun ω => A false ω = true)) / 2 := by
  have e : pr (fun ω => A false ω = false) = 1 - pr (fun ω => A false ω = true) := by
    have := Symm.pr_compl (fun ω : Ω => A false ω = true)
    rw [← this]
    congr 1
    funext ω
    simp
  rw [pr_prod, Fintype.sum_bool, Fintype.card_bool]
  dsimp only
  rw [e]
  push_cast
  ring
end Verif.Unlinkable

namespace Verif.PS
open Verif.PoK Verif.Forking Verif.Unlinkable

variable {F S O GT : Type} [Field F] [DecidableEq F] [AddCommGroup S] [Module F S] [DecidableEq S] [AddCommGroup O] [Module F O] [DecidableEq O]
  [AddCommGroup GT] [Module F GT] [DecidableEq GT]

/-! ## Specification -/

/-- A question of the observer: two signatures with their messages (the one numbered `false`, the other `true`), what is to be shown, and a nonce. -/
structure Question (F S : Type) where
  sig : Bool → Signature S
  ms : Bool → List F
  revealed : List Nat
  nonce : Bytes

/-- both signatures are valid, and their messages agree where they are to be shown -/
def Question.Fair (P : Params F S O GT) (vk : Verkey O) (q : Question F S) : Prop :=
  (∀ b, (q.sig b).verify P (q.ms b) vk = .ok true) ∧ q.revealed.Nodup ∧ (∀ j ∈ q.revealed, j < vk.Y.length) ∧ ∀ j ∈ q.revealed, (q.ms false)[j]? = (q.ms true)[j]?

/-- the first `k` of the blindings -/
def PresCoins.cut {n : Nat} (k : Nat) (h : k ≤ n) (ω : PresCoins F n) : PresCoins F k := (ω.1, ω.2.1, ω.2.2.1, fun j => ω.2.2.2 ⟨j, lt_of_lt_of_le j.2 h⟩)

open Classical in
/-- the presentation of signature number `b`, when the question is fair -/
noncomputable def answer (P : Params F S O GT) (encS : S → Bytes) (encO : O → Bytes) (hash : Bytes → F) (vk : Verkey O) {n : Nat} (b : Bool) (q : Question F S) (ω : PresCoins F n) :
    Option (Res Error (SigProof F S O × F)) :=
  if q.Fair P vk then some (present P encS encO hash vk q.nonce q.revealed (q.sig b) (q.ms b) (ω.cut (n - q.revealed.length) (Nat.sub_le _ _))) else none

/-! ## Proof -/

/-- a change of the coins in use leaves the others -/
theorem uncut {n k : Nat} (h : k ≤ n) (φ : PresCoins F k → PresCoins F k) (hb : Function.Injective φ) [Finite F] :
    ∃ φ' : PresCoins F n → PresCoins F n, Function.Bijective φ' ∧ ∀ ω, (φ' ω).cut k h = φ (ω.cut k h) := by
  let φ' : PresCoins F n → PresCoins F n := fun ω =>
    ((φ (ω.cut k h)).1, (φ (ω.cut k h)).2.1, (φ (ω.cut k h)).2.2.1, fun j => if hj : j.1 < k then (φ (ω.cut k h)).2.2.2 ⟨j, hj⟩ else ω.2.2.2 j)
  have hc : ∀ ω, (φ' ω).cut k h = φ (ω.cut k h) := by
    intro ω
    refine Prod.ext rfl (Prod.ext rfl (Prod.ext rfl ?_))
    funext j
    show (if hj : j.1 < k then (φ (ω.cut k h)).2.2.2 ⟨j, hj⟩ else _) = _
    rw [dif_pos j.2]
  refine ⟨φ', Finite.injective_iff_bijective.1 fun ω₁ ω₂ he => ?_, hc⟩
  have e1 : ω₁.cut k h = ω₂.cut k h := hb (by rw [← hc, ← hc, he])
  refine Prod.ext (congrArg (·.1) e1) (Prod.ext (congrArg (·.2.1) e1) (Prod.ext (congrArg (·.2.2.1) e1) ?_))
  funext j
  by_cases hj : j.1 < k
  · exact congrFun (congrArg (·.2.2.2) e1) ⟨j, hj⟩
  · have := congrFun (congrArg (·.2.2.2) he) j
    change (if hj : j.1 < k then _ else ω₁.2.2.2 j) = (if hj : j.1 < k then _ else ω₂.2.2.2 j) at this
    rwa [dif_neg hj, dif_neg hj] at this

variable [Fintype F]

/-- **C231** However an observer chooses its questions, it guesses which of the two signatures are presented with probability one half, exactly. -/
theorem ps_anonymous (P : Params F S O GT) (hcyc : ∀ a b : S, a ≠ 0 → ∃ k : F, b = k • a) (hgood : Nondeg P) (x : F) (ys : List F) (encS : S → Bytes) (encO : O → Bytes)
    (hash : Bytes → F) (N : Nat) (ask : List (Option (Res Error (SigProof F S O × F))) → Question F S) (guess : List (Option (Res Error (SigProof F S O × F))) → Bool) :
    pr (fun w : Bool × (Fin N → PresCoins F ys.length) => guess (history ask (answer P encS encO hash (keygen P x ys).1 w.1) N w.2) = w.1) = 1 / 2 := by
  have hne : Nonempty {r : F // r ≠ 0} := ⟨⟨1, one_ne_zero⟩⟩
  obtain ⟨Φ, hb, hΦ⟩ := history_bijective (answer P encS encO hash (keygen P x ys).1 (n := ys.length) true) (answer P encS encO hash (keygen P x ys).1 false) (fun q => by
    by_cases hq : q.Fair P (keygen P x ys).1
    · obtain ⟨h1, h2, h3, h4⟩ := id hq
      obtain ⟨φ, hφ, he⟩ := moved P hcyc x ys encS encO hash q.nonce q.revealed (q.sig true) (q.sig false) (q.ms true) (q.ms false) (h1 true) (h1 false) hgood h2
        (fun j hj => by simpa [keygen] using h3 j hj) (fun j hj => (h4 j hj).symm)
      obtain ⟨φ', hφ', hc⟩ := uncut (Nat.sub_le ys.length q.revealed.length) φ hφ.1
      refine ⟨φ', hφ', fun ω => ?_⟩
      unfold answer
      rw [if_pos hq, if_pos hq, hc, he]
    · refine ⟨id, Function.bijective_id, fun ω => ?_⟩
      unfold answer
      rw [if_neg hq, if_neg hq]) ask N
  have h := pr_bijective _ hb fun ω => guess (history ask (answer P encS encO hash (keygen P x ys).1 false) N ω) = true
  simp only [hΦ] at h
  rw [guess_bit fun b ω => guess (history ask (answer P encS encO hash (keygen P x ys).1 b) N ω), h]
  ring
end Verif.PS

namespace Verif.BBS
open Verif.PoK Verif.Forking Verif.Unlinkable

variable {F G1 G2 GT : Type} [Field F] [DecidableEq F] [AddCommGroup G1] [Module F G1] [DecidableEq G1] [AddCommGroup G2] [Module F G2] [DecidableEq G2]
  [AddCommGroup GT] [Module F GT] [DecidableEq GT]

/-! ## Specification -/

/-- A question of the observer: two signatures with their messages, what is to be shown, claims and a nonce. -/
structure Question (F G1 : Type) (n : Nat) where
  sig : Bool → Signature F G1
  m : Bool → Fin n → F
  shown : Fin n → Bool
  claims : List Bytes
  nonce : F

/-- both signatures are valid, and their messages agree where they are to be shown -/
def Question.Fair (P : Params F G1 G2 GT) (pk : PublicKey G1 G2) {n : Nat} (q : Question F G1 n) : Prop :=
  (∀ b, (q.sig b).verify P (List.ofFn (q.m b)) pk = .ok true) ∧ ∀ j, q.shown j = true → q.m false j = q.m true j

open Classical in
/-- the presentation of signature number `b`, when the question is fair -/
noncomputable def answer (P : Params F G1 G2 GT) (pk : PublicKey G1 G2) {n : Nat} (b : Bool) (q : Question F G1 n) (ω : PresCoins F n) : Option (Res Error (SignatureProof F G1 × F)) :=
  if q.Fair P pk then some (present P pk q.claims q.nonce q.shown (q.sig b) (q.m b) ω) else none

/-! ## Proof -/

variable [Fintype F]
open Unlink

open Classical in
noncomputable def idealAnswer (P : Params F G1 G2 GT) (pk : PublicKey G1 G2) {n : Nat} (b : Bool) (q : Question F G1 n) (ω : Ideal F n) : Option (Res Error (SignatureProof F G1 × F)) :=
  if q.Fair P pk then some (ideal P pk q.claims q.nonce q.shown (q.sig b) (q.m b) ω) else none

theorem history_ideal (P : Params F G1 G2 GT) (pk : PublicKey G1 G2) {n : Nat} (b : Bool) (ask : List (Option (Res Error (SignatureProof F G1 × F))) → Question F G1 n) : ∀ (N : Nat)
    (ω : Fin N → PresCoins F n), history ask (idealAnswer P pk b) N (fun i => ((ω i).1, (ω i).2.1.1, (ω i).2.2)) = history ask (answer P pk b) N ω := by
  intro N
  induction N with
  | zero => intro ω; rfl
  | succ N ih =>
    intro ω
    show history ask (idealAnswer P pk b) N (fun i => ((ω i.castSucc).1, (ω i.castSucc).2.1.1, (ω i.castSucc).2.2)) ++ [_] = history ask (answer P pk b) N (fun i => ω i.castSucc) ++ [_]
    rw [ih fun i => ω i.castSucc]
    rfl

/-- **C231** However an observer chooses its questions, it guesses which of the two BBS+ signatures are presented with a probability that differs from one half by at most `N / p`. -/
theorem bbs_anonymous (P : Params F G1 G2 GT) (hcyc : ∀ a b : G1, a ≠ 0 → ∃ k : F, b = k • a) (x : F) (pk : PublicKey G1 G2) (hwf : WellFormed pk)
    (hw : pk.w = x • P.g2) (hgood : Nondeg P) (n N : Nat) (ask : List (Option (Res Error (SignatureProof F G1 × F))) → Question F G1 n)
    (guess : List (Option (Res Error (SignatureProof F G1 × F))) → Bool) :
    |pr (fun w : Bool × (Fin N → PresCoins F n) => guess (history ask (answer P pk w.1) N w.2) = w.1) - 1 / 2| ≤ N / Fintype.card F := by
  let e (ω : Fin N → PresCoins F n) : Fin N → Ideal F n := fun i => ((ω i).1, (ω i).2.1.1, (ω i).2.2)
  have he : Function.Injective e := by
    intro ω ω' h
    funext i
    have := congrFun h i
    obtain ⟨h1, h2, h3⟩ := Prod.mk.inj this |>.imp id Prod.mk.inj
    exact Prod.ext h1 (Prod.ext (Subtype.ext h2) h3)
  have hne : Nonempty {r : F // r ≠ 0} := ⟨⟨1, one_ne_zero⟩⟩
  have hbad : pr (fun ω : Fin N → Ideal F n => ∃ i, (ω i).2.1 = 0) ≤ N / Fintype.card F := by
    refine (SDH.pr_exists_fin _ (1 / Fintype.card F) fun i => ?_).trans (by rw [mul_one_div])
    classical
    rw [CS.pr_coord (fun w : Ideal F n => w.2.1 = 0) i, CS.pr_snd (fun w : F × (F × F × F × F) × (Fin n → F) => w.1 = 0), pr_fst (fun r : F => r = 0)]
    exact SDH.pr_one_case _ fun a b ha hb => ha.trans hb.symm
  have hsurj : ∀ ω : Fin N → Ideal F n, ¬ (∃ i, (ω i).2.1 = 0) → ∃ ω', e ω' = ω := fun ω h =>
    ⟨fun i => ((ω i).1, ⟨(ω i).2.1, fun h0 => h ⟨i, h0⟩⟩, (ω i).2.2), rfl⟩
  have c1 := (pr_restrict e he (fun ω => guess (history ask (idealAnswer P pk true) N ω) = true) _ hsurj).trans hbad
  have c2 := (pr_restrict e he (fun ω => guess (history ask (idealAnswer P pk false) N ω) = true) _ hsurj).trans hbad
  obtain ⟨Φ, hb, hΦ⟩ := history_bijective (idealAnswer P pk (n := n) true) (idealAnswer P pk false) (fun q => by
    by_cases hq : q.Fair P pk
    · obtain ⟨φ, hφ, hE⟩ := moved P hcyc x pk hwf hw hgood q.claims q.nonce q.shown (q.sig true) (q.sig false) (q.m true) (q.m false) (hq.1 true) (hq.1 false)
        (fun j hj => (hq.2 j hj).symm)
      refine ⟨φ, hφ, fun ω => ?_⟩
      unfold idealAnswer
      rw [if_pos hq, if_pos hq, hE]
    · refine ⟨id, Function.bijective_id, fun ω => ?_⟩
      unfold idealAnswer
      rw [if_neg hq, if_neg hq]) ask N
  rw [← pr_bijective _ hb fun ω => guess (history ask (idealAnswer P pk false) N ω) = true] at c2
  simp only [hΦ] at c2
  simp only [e, history_ideal] at c1 c2
  rw [guess_bit fun b ω => guess (history ask (answer P pk b) N ω)]
  rw [abs_le] at *
  constructor <;> linarith [c1.1, c1.2, c2.1, c2.2]
end Verif.BBS

/-! ## The hypotheses are met: two signatures that agree on the first message -/

namespace Verif.PS.Toy
open Verif.Toy Verif.Forking Verif.Unlinkable

/-- the two signatures, the first message shown -/
def question : Question K K := ⟨fun b => if b then sig2 else sig, fun b => if b then [4, 50, 60] else [4, 6, 8], [0], [9]⟩

theorem question_fair : question.Fair par vk := ⟨fun b => match b with
  | false => sig_ok
  | true => sig2_ok, by simp [question], by simp [question, vk, keygen, ys], by simp [question]⟩

/-- so the observer gets a presentation -/
example (encS encO : K → Bytes) (hash : Bytes → K) (b : Bool) (ω : PresCoins K 3) : ∃ pf c, answer par encS encO hash vk b question ω = some (.ok (pf, c)) := by
  unfold answer
  rw [if_pos question_fair]
  cases b
  · exact ⟨_, _, congrArg some (present_eq par encS encO hash vk [9] [0] sig [4, 6, 8] (by simp) rfl rfl _)⟩
  · exact ⟨_, _, congrArg some (present_eq par encS encO hash vk [9] [0] sig2 [4, 50, 60] (by simp) rfl rfl _)⟩

/-- one who asks 5 times and then looks at the answers -/
example (encS encO : K → Bytes) (hash : Bytes → K) (guess : List (Option (Res Error (SigProof K K K × K))) → Bool) :
    pr (fun w : Bool × (Fin 5 → PresCoins K ys.length) => guess (history (fun _ => question) (answer par encS encO hash vk w.1) 5 w.2) = w.1) = 1 / 2 :=
  ps_anonymous par (fun a b ha => ⟨b * a⁻¹, by rw [smul_eq_mul, mul_assoc, inv_mul_cancel₀ ha, mul_one]⟩) nondeg 7 ys encS encO hash 5 (fun _ => question) guess
end Verif.PS.Toy

namespace Verif.BBS.Toy
open Verif.Toy Verif.Forking Verif.Unlinkable
local instance : Fact (Nat.Prime 101) := fact101

/-- the two signatures, the first message shown -/
def question : Question (ZMod 101) (ZMod 101) 3 := ⟨fun b => if b then sig2 else sig, fun b => if b then ![4, 50, 60] else ![4, 6, 8], ![true, false, false], [], 5⟩

theorem question_fair : question.Fair par key := ⟨fun b => match b with
  | false => sig_ok
  | true => sig2_ok, fun j hj => by
    match j with
    | 0 => rfl
    | 1 => cases hj
    | 2 => cases hj⟩

example (b : Bool) (ω : PresCoins (ZMod 101) 3) : ∃ sp c, answer par key b question ω = some (.ok (sp, c)) := by
  unfold answer
  rw [if_pos question_fair]
  cases b
  · exact ⟨_, _, congrArg some (Unlink.ideal_eq par key [] 5 ![true, false, false] sig ![4, 6, 8] sig_ok (ω.1, ω.2.1.1, ω.2.2))⟩
  · exact ⟨_, _, congrArg some (Unlink.ideal_eq par key [] 5 ![true, false, false] sig2 ![4, 50, 60] sig2_ok (ω.1, ω.2.1.1, ω.2.2))⟩

example (guess : List (Option (Res Error (SignatureProof (ZMod 101) (ZMod 101) × ZMod 101))) → Bool) :
    |pr (fun w : Bool × (Fin 5 → PresCoins (ZMod 101) 3) => guess (history (fun _ => question) (answer par key w.1) 5 w.2) = w.1) - 1 / 2| ≤ (5 : ℕ) / Fintype.card (ZMod 101) :=
  bbs_anonymous par (fun a b ha => ⟨b * a⁻¹, by rw [smul_eq_mul, mul_assoc, inv_mul_cancel₀ ha, mul_one]⟩) 7 key wf (by decide +kernel) nondeg 3 5 (fun _ => question) guess
end Verif.BBS.Toy
