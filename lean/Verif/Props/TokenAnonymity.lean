import Verif.Props.Anonymity
import Verif.Props.GrothTokenChallenge
/-!
# C232: the anonymity game for attribute tokens
-/
set_option linter.unusedSectionVars false
set_option linter.unusedVariables false

namespace Verif.Groth
open Verif.Forking Verif.Unlinkable

variable {F G1 G2 GT : Type} [Field F] [AddCommGroup G1] [Module F G1] [AddCommGroup G2] [Module F G2]
  [AddCommGroup GT] [Module F GT] [DecidableEq F] [DecidableEq G1] [DecidableEq G2] [DecidableEq GT]

/-! ## Specification -/

/-- The coins of a token for at most `L` levels with at most `n` attributes: for each level a factor (not zero), the blindings of `s` and of the key, those of the `t` and of the
attributes. -/
abbrev TokenCoins (F : Type) [Zero F] (L n : Nat) : Type := Fin L → {r : F // r ≠ 0} × F × F × (Fin n → F) × (Fin n → F)

/-- the random values of level `i`, from 1 on, as `commitment` takes them -/
def TokenCoins.rnd {L n : Nat} (ω : TokenCoins F L n) (i : Nat) : LevelRnd F :=
  if h : 1 ≤ i ∧ i ≤ L then
    let w := ω ⟨i - 1, by omega⟩
    ⟨w.1.1, w.2.1, w.2.2.1, fun j => if h : j < n then w.2.2.2.1 ⟨j, h⟩ else 0, fun j => if h : j < n then w.2.2.2.2 ⟨j, h⟩ else 0⟩
  else ⟨1, 0, 0, fun _ => 0, fun _ => 0⟩

/-- the holder of a credential chain: the chain, its keys, and the secret key of the last level -/
structure Holder (F G1 G2 : Type) where
  chain : Chain G1 G2
  evenVks : List G2
  oddVks : List G1
  sk : F

/-- a token: commit, hash with the root's key and the verifier's nonce, respond -/
def makeToken (e : G1 →ₗ[F] G2 →ₗ[F] GT) (p1 : Setup G1 G2) (p2 : Setup G2 G1) (enc1 : G1 → Bytes) (enc2 : G2 → Bytes) (encT : GT → Bytes) (H : Bytes → F) (ipk : G2)
    (revealed : List (List Nat)) (nonce : Bytes) (a : Holder F G1 G2) (rnd : Nat → LevelRnd F) : Res Error (Comm G1 G2 GT × Resp F G1 G2 × F) := do
  let w ← commitment e a.chain p1 p2 Token.new revealed rnd
  let ch := genChallenge enc1 enc2 encT H w.2 ipk nonce
  let q ← response a.chain p1 p2 w.1 w.2 a.sk ch a.evenVks a.oddVks
  pure (w.2, q, ch)

/-- A question of the observer: two holders of chains from the key `ipk`, what is to be revealed at each level, and a nonce. -/
structure Question (F G1 G2 : Type) where
  holder : Bool → Holder F G1 G2
  ipk : G2
  revealed : List (List Nat)
  nonce : Bytes

/-- a chain of at most `L` levels of at most `n` attributes, whose signatures have no zero in the place of `R` -/
def Holder.Fits (a : Holder F G1 G2) (L n : Nat) : Prop :=
  a.chain.size ≤ L ∧ (∀ l ∈ a.chain.odd, l.attributes.length ≤ n ∧ l.signature.R ≠ 0) ∧ (∀ l ∈ a.chain.even, l.attributes.length ≤ n ∧ l.signature.R ≠ 0)

/-- both chains are valid and honestly held, and they look the same where they are to be revealed -/
def Question.Fair (e : G1 →ₗ[F] G2 →ₗ[F] GT) (p1 : Setup G1 G2) (p2 : Setup G2 G1) (L n : Nat) (q : Question F G1 G2) : Prop :=
  (∀ b, Presentable e (q.holder b).chain q.ipk (q.holder b).evenVks (q.holder b).oddVks (q.holder b).sk p1 p2 q.revealed ∧ (q.holder b).Fits L n) ∧
    SameView (q.holder false).chain (q.holder true).chain q.revealed

open Classical in
/-- the token of holder number `b`, when the question is fair -/
noncomputable def answer (e : G1 →ₗ[F] G2 →ₗ[F] GT) (p1 : Setup G1 G2) (p2 : Setup G2 G1) (enc1 : G1 → Bytes) (enc2 : G2 → Bytes) (encT : GT → Bytes) (H : Bytes → F) {L n : Nat}
    (b : Bool) (q : Question F G1 G2) (ω : TokenCoins F L n) : Option (Res Error (Comm G1 G2 GT × Resp F G1 G2 × F)) :=
  if q.Fair e p1 p2 L n then some (makeToken e p1 p2 enc1 enc2 encT H q.ipk q.revealed q.nonce (q.holder b) ω.rnd) else none

/-! ## Proof -/

theorem rnd_sig {L n : Nat} (ω : TokenCoins F L n) (i : Nat) : (ω.rnd i).sig ≠ 0 := by
  unfold TokenCoins.rnd
  split
  · exact (ω _).1.2
  · exact one_ne_zero

theorem rnd_injective {L n : Nat} : Function.Injective (TokenCoins.rnd : TokenCoins F L n → Nat → LevelRnd F) := by
  intro ω ω' h
  funext i
  have hi := congrFun h (i.1 + 1)
  have hb : 1 ≤ i.1 + 1 ∧ i.1 + 1 ≤ L := ⟨by omega, i.2⟩
  unfold TokenCoins.rnd at hi
  rw [dif_pos hb, dif_pos hb] at hi
  simp only [LevelRnd.mk.injEq, Nat.add_sub_cancel, Fin.eta] at hi
  obtain ⟨h1, h2, h3, h4, h5⟩ := hi
  refine Prod.ext (Subtype.ext h1) (Prod.ext h2 (Prod.ext h3 (Prod.ext ?_ ?_)))
  · funext j
    have := congrFun h4 j.1
    rwa [dif_pos j.2, dif_pos j.2] at this
  · funext j
    have := congrFun h5 j.1
    rwa [dif_pos j.2, dif_pos j.2] at this

/-- the coins that have the random values `r`, if they can -/
theorem exists_coins {L n : Nat} (r : Nat → LevelRnd F) (h1 : ∀ i, (r i).sig ≠ 0) (h2 : ∀ i, ¬ (1 ≤ i ∧ i ≤ L) → r i = ⟨1, 0, 0, fun _ => 0, fun _ => 0⟩)
    (h3 : ∀ i j, n ≤ j → (r i).t j = 0 ∧ (r i).a j = 0) : ∃ ω : TokenCoins F L n, ω.rnd = r := by
  refine ⟨fun i => (⟨(r (i.1 + 1)).sig, h1 _⟩, (r (i.1 + 1)).s, (r (i.1 + 1)).vk, fun j => (r (i.1 + 1)).t j, fun j => (r (i.1 + 1)).a j), ?_⟩
  funext i
  unfold TokenCoins.rnd
  by_cases h : 1 ≤ i ∧ i ≤ L
  · rw [dif_pos h]
    have hi : i - 1 + 1 = i := by omega
    simp only [hi]
    have ht : (fun j => if h : j < n then (r i).t j else 0) = (r i).t := by
      funext j
      split
      · rfl
      · exact (h3 i j (by omega)).1.symm
    have ha : (fun j => if h : j < n then (r i).a j else 0) = (r i).a := by
      funext j
      split
      · rfl
      · exact (h3 i j (by omega)).2.symm
    rw [ht, ha]
  · rw [dif_neg h, h2 i h]

section Level
variable {A B : Type} [AddCommGroup A] [Module F A] [AddCommGroup B] [Module F B]

theorem simLevel_injective (dlA : A → F) (dlB : B → F) (c : F) (l l' : Link A B) (r r' : LevelRnd F) (x : F) (h1 : dlB l.signature.R ≠ 0) (h2 : dlB l'.signature.R ≠ 0)
    (h : simLevel dlA dlB c l l' r (r.vk + x) = simLevel dlA dlB c l l' r' (r'.vk + x)) : r = r' := by
  unfold simLevel at h
  rw [LevelRnd.mk.injEq] at h
  obtain ⟨e1, e2, e3, e4, e5⟩ := h
  have f1 : r.sig = r'.sig := by
    have := (div_left_inj' h2).1 e1
    exact mul_right_cancel₀ h1 this
  rw [f1] at e2 e4
  cases r
  cases r'
  rw [LevelRnd.mk.injEq]
  refine ⟨f1, add_right_cancel e2, add_right_cancel e3, ?_, ?_⟩
  · funext k
    exact add_right_cancel (congrFun e4 k)
  · funext k
    exact add_right_cancel (congrFun e5 k)

theorem simLevel_tail (dlA : A → F) (dlB : B → F) (c : F) (l l' : Link A B) (r : LevelRnd F) (v : F) (n : Nat) (hr : ∀ j, n ≤ j → r.t j = 0 ∧ r.a j = 0)
    (h1 : l.attributes.length ≤ n) (h2 : l'.attributes.length ≤ n) (h3 : l.signature.T.length = l.attributes.length) (h4 : l'.signature.T.length = l'.attributes.length) (j : Nat) (hj : n ≤ j) :
    (simLevel dlA dlB c l l' r v).t j = 0 ∧ (simLevel dlA dlB c l l' r v).a j = 0 := by
  have g : ∀ {X : Type} [Zero X] (xs : List X), xs.length ≤ j → xs.getD j 0 = 0 := by
    intro X _ xs hx
    rw [List.getD_eq_getElem?_getD, List.getElem?_eq_none hx]
    rfl
  unfold simLevel
  dsimp only
  rw [g (randomize l.signature r.sig).T (by simp only [randomize, List.length_map]; omega), g (randomize l'.signature _).T (by simp only [randomize, List.length_map]; omega),
    g l.attributes (by omega), g l'.attributes (by omega), (hr j hj).1, (hr j hj).2]
  simp
end Level

theorem rnd_tail {L n : Nat} (ω : TokenCoins F L n) (i j : Nat) (hj : n ≤ j) : (ω.rnd i).t j = 0 ∧ (ω.rnd i).a j = 0 := by
  unfold TokenCoins.rnd
  split
  · dsimp only
    rw [dif_neg (by omega), dif_neg (by omega)]
    exact ⟨rfl, rfl⟩
  · exact ⟨rfl, rfl⟩

theorem rnd_out {L n : Nat} (ω : TokenCoins F L n) (i : Nat) (h : ¬ (1 ≤ i ∧ i ≤ L)) : ω.rnd i = ⟨1, 0, 0, fun _ => 0, fun _ => 0⟩ := by
  unfold TokenCoins.rnd
  rw [dif_neg h]

section Moved
variable {e : G1 →ₗ[F] G2 →ₗ[F] GT} {ipk : G2} {p1 : Setup G1 G2} {p2 : Setup G2 G1} {revealed : List (List Nat)}

theorem moved [Finite F] (a a' : Holder F G1 G2) (h : Presentable e a.chain ipk a.evenVks a.oddVks a.sk p1 p2 revealed)
    (h' : Presentable e a'.chain ipk a'.evenVks a'.oddVks a'.sk p1 p2 revealed) {L n : Nat} (hf : a.Fits L n) (hf' : a'.Fits L n) (hview : SameView a.chain a'.chain revealed)
    (hg1 : ∀ x : G1, ∃ k : F, x = k • p1.ga) (hg2 : ∀ x : G2, ∃ k : F, x = k • p2.ga) (enc1 : G1 → Bytes) (enc2 : G2 → Bytes) (encT : GT → Bytes) (H : Bytes → F) (nonce : Bytes) :
    ∃ φ : TokenCoins F L n → TokenCoins F L n, Function.Bijective φ ∧
      ∀ ω, makeToken e p1 p2 enc1 enc2 encT H ipk revealed nonce a' (φ ω).rnd = makeToken e p1 p2 enc1 enc2 encT H ipk revealed nonce a ω.rnd := by
  choose dl1 hd1 using hg1
  choose dl2 hd2 using hg2
  have hz1 : ∀ x : G1, x ≠ 0 → dl1 x ≠ 0 := fun x hx h0 => hx (by rw [hd1 x, h0, zero_smul])
  have hz2 : ∀ x : G2, x ≠ 0 → dl2 x ≠ 0 := fun x hx h0 => hx (by rw [hd2 x, h0, zero_smul])
  have hsz := hview.size
  have hO : ∀ i, 1 ≤ i → i ≤ a.chain.size → i % 2 = 1 → oddLink a.chain i ∈ a.chain.odd ∧ oddLink a'.chain i ∈ a'.chain.odd := fun i h1 h2 h3 =>
    ⟨List.mem_of_getElem? (pres_odd h h1 h2 h3).1, List.mem_of_getElem? (pres_odd h' h1 (by omega) h3).1⟩
  have hE : ∀ i, 1 ≤ i → i ≤ a.chain.size → ¬ i % 2 = 1 → evenLink a.chain i ∈ a.chain.even ∧ evenLink a'.chain i ∈ a'.chain.even := fun i h1 h2 h3 =>
    ⟨List.mem_of_getElem? (pres_even h h1 h2 (by omega)).1, List.mem_of_getElem? (pres_even h' h1 (by omega) (by omega)).1⟩
  -- for a given challenge
  let S (ch : F) (rnd : Nat → LevelRnd F) := simRnd dl1 dl2 a.chain a'.chain a.evenVks a'.evenVks a.oddVks a'.oddVks a.sk a'.sk ch rnd
  have hsim := fun (ch : F) (ω : TokenCoins F L n) => token_sim h h' hview dl1 hd1 dl2 hd2 (fun l hl => (hf.2.1 l hl).2) (fun l hl => (hf'.2.1 l hl).2) (fun l hl => (hf.2.2 l hl).2)
    (fun l hl => (hf'.2.2 l hl).2) ω.rnd (rnd_sig ω) ch
  have hex : ∀ (ch : F) (ω : TokenCoins F L n), ∃ ω' : TokenCoins F L n, ω'.rnd = S ch ω.rnd := by
    intro ch ω
    refine exists_coins _ (hsim ch ω).1 (fun i hi => ?_) (fun i j hj => ?_)
    · show simRnd _ _ _ _ _ _ _ _ _ _ _ _ _ = _
      unfold simRnd
      rw [if_neg (fun hb => hi ⟨hb.1, hb.2.trans hf.1⟩), rnd_out ω i hi]
    · show (simRnd _ _ _ _ _ _ _ _ _ _ _ _ _).t j = 0 ∧ (simRnd _ _ _ _ _ _ _ _ _ _ _ _ _).a j = 0
      unfold simRnd
      by_cases hb : 1 ≤ i ∧ i ≤ a.chain.size
      · rw [if_pos hb]
        by_cases ho : i % 2 = 1
        · rw [if_pos ho]
          obtain ⟨m1, m2⟩ := hO i hb.1 hb.2 ho
          exact simLevel_tail _ _ _ _ _ _ _ n (fun j hj => rnd_tail ω i j hj) (hf.2.1 _ m1).1 (hf'.2.1 _ m2).1 (h.oddT _ m1) (h'.oddT _ m2) j hj
        · rw [if_neg ho]
          obtain ⟨m1, m2⟩ := hE i hb.1 hb.2 ho
          exact simLevel_tail _ _ _ _ _ _ _ n (fun j hj => rnd_tail ω i j hj) (hf.2.2 _ m1).1 (hf'.2.2 _ m2).1 (h.evenT _ m1) (h'.evenT _ m2) j hj
      · rw [if_neg hb]
        exact rnd_tail ω i j hj
  choose ψ hψ using hex
  have hinj : ∀ ch, Function.Injective (ψ ch) := by
    intro ch ω₁ ω₂ he
    apply rnd_injective
    have hS : S ch ω₁.rnd = S ch ω₂.rnd := by rw [← hψ, ← hψ, he]
    funext i
    have hi : simRnd _ _ _ _ _ _ _ _ _ _ _ _ _ = simRnd _ _ _ _ _ _ _ _ _ _ _ _ _ := congrFun hS i
    unfold simRnd at hi
    by_cases hb : 1 ≤ i ∧ i ≤ a.chain.size
    · rw [if_pos hb, if_pos hb] at hi
      by_cases ho : i % 2 = 1
      · rw [if_pos ho, if_pos ho] at hi
        obtain ⟨m1, m2⟩ := hO i hb.1 hb.2 ho
        exact simLevel_injective _ _ _ _ _ _ _ _ (hz2 _ (hf.2.1 _ m1).2) (hz2 _ (hf'.2.1 _ m2).2) hi
      · rw [if_neg ho, if_neg ho] at hi
        obtain ⟨m1, m2⟩ := hE i hb.1 hb.2 ho
        exact simLevel_injective _ _ _ _ _ _ _ _ (hz1 _ (hf.2.2 _ m1).2) (hz1 _ (hf'.2.2 _ m2).2) hi
    · rwa [if_neg hb, if_neg hb] at hi
  -- the commitment
  have hcomm : ∀ (ch : F) (ω : TokenCoins F L n), commOf e a'.chain p1 p2 revealed (ψ ch ω).rnd = commOf e a.chain p1 p2 revealed ω.rnd := by
    intro ch ω
    obtain ⟨-, tok, tok', k, q, h1, -, h2, -⟩ := hsim ch ω
    rw [commitment_eq h] at h1
    change commitment e a'.chain p1 p2 Token.new revealed (S ch ω.rnd) = _ at h2
    rw [← hψ, commitment_eq h'] at h2
    exact (Prod.mk.inj (Res.ok.inj h2)).2.trans (Prod.mk.inj (Res.ok.inj h1)).2.symm
  refine ⟨fun ω => ψ (genChallenge enc1 enc2 encT H (commOf e a.chain p1 p2 revealed ω.rnd) ipk nonce) ω, Finite.injective_iff_bijective.1 ?_, fun ω => ?_⟩
  · intro ω₁ ω₂ he
    dsimp only at he
    have e1 := hcomm (genChallenge enc1 enc2 encT H (commOf e a.chain p1 p2 revealed ω₁.rnd) ipk nonce) ω₁
    have e2 := hcomm (genChallenge enc1 enc2 encT H (commOf e a.chain p1 p2 revealed ω₂.rnd) ipk nonce) ω₂
    rw [he, e2] at e1
    rw [e1] at he
    exact hinj _ he
  · dsimp only
    generalize hch : genChallenge enc1 enc2 encT H (commOf e a.chain p1 p2 revealed ω.rnd) ipk nonce = ch
    obtain ⟨-, tok, tok', k, q, h1, h2, h3, h4⟩ := hsim ch ω
    change commitment e a'.chain p1 p2 Token.new revealed (S ch ω.rnd) = _ at h3
    rw [← hψ] at h3
    have hk : commOf e a.chain p1 p2 revealed ω.rnd = k := by
      have := h1
      rw [commitment_eq h] at this
      exact (Prod.mk.inj (Res.ok.inj this)).2
    rw [hk] at hch
    unfold makeToken
    rw [h1, h3, Res.ok_bind, Res.ok_bind]
    dsimp only
    rw [hch, h2, h4]
end Moved

variable [Fintype F]

/-- **C232** However an observer chooses its questions, it guesses which of the two holders make the tokens with probability one half, exactly. -/
theorem token_anonymous (e : G1 →ₗ[F] G2 →ₗ[F] GT) (p1 : Setup G1 G2) (p2 : Setup G2 G1) (hg1 : ∀ x : G1, ∃ k : F, x = k • p1.ga) (hg2 : ∀ x : G2, ∃ k : F, x = k • p2.ga)
    (enc1 : G1 → Bytes) (enc2 : G2 → Bytes) (encT : GT → Bytes) (H : Bytes → F) (L n N : Nat)
    (ask : List (Option (Res Error (Comm G1 G2 GT × Resp F G1 G2 × F))) → Question F G1 G2) (guess : List (Option (Res Error (Comm G1 G2 GT × Resp F G1 G2 × F))) → Bool) :
    pr (fun w : Bool × (Fin N → TokenCoins F L n) => guess (history ask (answer e p1 p2 enc1 enc2 encT H w.1) N w.2) = w.1) = 1 / 2 := by
  have hne : Nonempty {r : F // r ≠ 0} := ⟨⟨1, one_ne_zero⟩⟩
  obtain ⟨Φ, hb, hΦ⟩ := history_bijective (answer e p1 p2 enc1 enc2 encT H (L := L) (n := n) false) (answer e p1 p2 enc1 enc2 encT H true) (fun q => by
    by_cases hq : q.Fair e p1 p2 L n
    · obtain ⟨h1, h2⟩ := id hq
      obtain ⟨φ, hφ, he⟩ := moved (q.holder false) (q.holder true) (h1 false).1 (h1 true).1 (h1 false).2 (h1 true).2 h2 hg1 hg2 enc1 enc2 encT H q.nonce
      refine ⟨φ, hφ, fun ω => ?_⟩
      unfold answer
      rw [if_pos hq, if_pos hq, he]
    · refine ⟨id, Function.bijective_id, fun ω => ?_⟩
      unfold answer
      rw [if_neg hq, if_neg hq]) ask N
  have h := pr_bijective _ hb fun ω => guess (history ask (answer e p1 p2 enc1 enc2 encT H true) N ω) = true
  simp only [hΦ] at h
  rw [guess_bit fun b ω => guess (history ask (answer e p1 p2 enc1 enc2 encT H b) N ω), h]
  ring
end Verif.Groth

/-! ## The hypotheses are met: two holders whose chains agree on the first attribute of level 1 -/

namespace Verif.Groth
open Verif.Toy Verif.Forking Verif.Unlinkable
local instance : Fact (Nat.Prime 101) := fact101

def toyQuestion : Question (ZMod 101) (ZMod 101) (ZMod 101) :=
  ⟨fun b => if b then ⟨honestChain', [22 * 7], [18 * 5], 22⟩ else ⟨honestChain, [19 * 7], [17 * 5], 19⟩, 13 * 7, [[0], []], [9]⟩

theorem toyQuestion_fair : toyQuestion.Fair toyE cs1 cs2 2 3 :=
  ⟨fun b => match b with
    | false => ⟨honest_presentable, by unfold Holder.Fits; decide +kernel⟩
    | true => ⟨honest_presentable', by unfold Holder.Fits; decide +kernel⟩, same_view⟩

/-- so the observer gets a token -/
example (enc1 enc2 encT : ZMod 101 → Bytes) (H : Bytes → ZMod 101) (b : Bool) (ω : TokenCoins (ZMod 101) 2 3) :
    ∃ k q ch, answer toyE cs1 cs2 enc1 enc2 encT H b toyQuestion ω = some (.ok (k, q, ch)) := by
  unfold answer
  rw [if_pos toyQuestion_fair]
  obtain ⟨hp, -⟩ := toyQuestion_fair.1 b
  unfold makeToken
  rw [commitment_eq hp, Res.ok_bind]
  dsimp only
  rw [response_eq hp]
  exact ⟨_, _, _, rfl⟩

example (enc1 enc2 encT : ZMod 101 → Bytes) (H : Bytes → ZMod 101) (guess : List (Option (Res Error (Comm (ZMod 101) (ZMod 101) (ZMod 101) × Resp (ZMod 101) (ZMod 101) (ZMod 101) × ZMod 101))) → Bool) :
    pr (fun w : Bool × (Fin 5 → TokenCoins (ZMod 101) 2 3) => guess (history (fun _ => toyQuestion) (answer toyE cs1 cs2 enc1 enc2 encT H w.1) 5 w.2) = w.1) = 1 / 2 :=
  token_anonymous toyE cs1 cs2 (fun x => ⟨x * 5⁻¹, by revert x; decide +kernel⟩) (fun x => ⟨x * 7⁻¹, by revert x; decide +kernel⟩) enc1 enc2 encT H 2 3 5 (fun _ => toyQuestion) guess
end Verif.Groth
