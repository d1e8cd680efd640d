import Verif.Props.BBSForgery
import Verif.Props.SymmCCA
/-!
# C228: what a BBS+ signer learns from a blind request
-/
set_option linter.unusedSectionVars false
set_option linter.unusedVariables false
namespace Verif.BBS
open Verif.PoK Verif.Forking

variable {F G1 G2 GT : Type} [Field F] [DecidableEq F] [AddCommGroup G1] [Module F G1] [DecidableEq G1] [AddCommGroup G2] [Module F G2] [DecidableEq G2]
  [AddCommGroup GT] [Module F GT] [DecidableEq GT]

namespace BlindHiding

/-! ## Specification -/

/-- the entry of a list of `n` field elements -/
def entry {n : Nat} (v : Fin n → F) (i : Nat) : F := if h : i < n then v ⟨i, h⟩ else 0

/-- the messages with the numbers `idx` -/
def pick {n : Nat} (m : Fin n → F) (idx : List Nat) : List (Nat × F) := idx.map fun i => (i, entry m i)

/-- The coins of a request: the blinding, its mask, and a mask for each message (those for messages that are not hidden are not used). -/
abbrev Coins (F : Type) (n : Nat) : Type := F × F × (Fin n → F)

/-- the holder's request for the messages `m`, of which those with the numbers `idx` are hidden -/
def request (P : Params F G1 G2 GT) (pk : PublicKey G1 G2) {n : Nat} (idx : List Nat) (nonce : F) (m : Fin n → F) (ω : Coins F n) : Res Error (BlindCtx F G1 × F) :=
  newBlindCtx P pk (pick m idx) nonce ω.1 ω.2.1 (idx.map (entry ω.2.2))

/-- `test` says yes on the request -/
def Seen (P : Params F G1 G2 GT) (pk : PublicKey G1 G2) {n : Nat} (idx : List Nat) (nonce : F) (test : BlindCtx F G1 → Prop) (m : Fin n → F) (ω : Coins F n) : Prop :=
  ∃ ctx b, request P pk idx nonce m ω = .ok (ctx, b) ∧ test ctx

/-- `test` says yes on the request and on whether the holder accepts what the signer replies to it -/
def SeenAll (P : Params F G1 G2 GT) (pk : PublicKey G1 G2) {n : Nat} (idx : List Nat) (nonce : F) (reply : BlindCtx F G1 → Signature F G1)
    (test : BlindCtx F G1 → Prop → Prop) (m : Fin n → F) (ω : Coins F n) : Prop :=
  ∃ ctx b, request P pk idx nonce m ω = .ok (ctx, b) ∧ test ctx (∃ sig, completeSignature P pk (List.ofFn m) (reply ctx) b = .ok sig)

/-- the signer has found the blinding, which is a logarithm -/
def Hit (P : Params F G1 G2 GT) (pk : PublicKey G1 G2) {n : Nat} (idx : List Nat) (nonce : F) (reply : BlindCtx F G1 → Signature F G1) (m : Fin n → F) (ω : Coins F n) : Prop :=
  ∃ ctx b, request P pk idx nonce m ω = .ok (ctx, b) ∧ (reply ctx).s = -b

/-! ## Proof -/

/-- the commitment to the vector `v` with the blinding `b` -/
def com (pk : PublicKey G1 G2) {n : Nat} (idx : List Nat) (b : F) (v : Fin n → F) : G1 := b • pk.h0 + (idx.map fun i => entry v i • pk.h.getD i 0).sum

theorem msm_map (idx : List Nat) (B : Nat → G1) (s : Nat → F) : msm (idx.map B) (idx.map s) = (idx.map fun i => s i • B i).sum := by
  induction idx with
  | nil => rfl
  | cons i idx ih => simp [ih]

theorem entry_add {n : Nat} (v w : Fin n → F) (i : Nat) : entry (v + w) i = entry v i + entry w i := by
  unfold entry
  split <;> simp

theorem entry_smul {n : Nat} (a : F) (v : Fin n → F) (i : Nat) : entry (a • v) i = a * entry v i := by
  unfold entry
  split <;> simp

theorem com_add (pk : PublicKey G1 G2) {n : Nat} (idx : List Nat) (b c : F) (v w : Fin n → F) : com pk idx (b + c) (v + w) = com pk idx b v + com pk idx c w := by
  unfold com
  have : (idx.map fun i => entry (v + w) i • pk.h.getD i 0).sum = (idx.map fun i => entry v i • pk.h.getD i 0).sum + (idx.map fun i => entry w i • pk.h.getD i 0).sum := by
    rw [← List.sum_map_add]
    refine congrArg List.sum (List.map_congr_left fun i _ => ?_)
    rw [entry_add, add_smul]
  rw [this, add_smul]
  abel

theorem com_smul (pk : PublicKey G1 G2) {n : Nat} (idx : List Nat) (a b : F) (v : Fin n → F) : com pk idx (a * b) (a • v) = a • com pk idx b v := by
  unfold com
  rw [smul_add, List.smul_sum, mul_smul, List.map_map]
  congr 2
  refine List.map_congr_left fun i _ => ?_
  rw [Function.comp_apply, entry_smul, mul_smul]

theorem ctx_bases (h : List G1) {n : Nat} (hn : h.length = n) (m : Fin n → F) (idx : List Nat) (hidx : ∀ i ∈ idx, i < n) :
    (ctxBases h (pick m idx) : Res Error (List G1)) = .ok (idx.map fun i => h.getD i 0) := by
  induction idx with
  | nil => rfl
  | cons i idx ih =>
    have hi : i < h.length := hn ▸ hidx i List.mem_cons_self
    have := ih fun j hj => hidx j (List.mem_cons_of_mem _ hj)
    unfold pick at this ⊢
    rw [List.map_cons, ctxBases]
    dsimp only
    rw [if_neg (by omega), this, List.getElem?_eq_getElem hi]
    simp [Res.unwrap, hi]

/-- what is sent, in terms of `com` -/
def sent (P : Params F G1 G2 GT) (pk : PublicKey G1 G2) {n : Nat} (idx : List Nat) (nonce : F) (m : Fin n → F) (ω : Coins F n) : BlindCtx F G1 :=
  let c := P.hashFr (((pk.h0 :: idx.map fun i => pk.h.getD i 0).map P.encG1.enc).flatten ++ P.encG1.enc (com pk idx ω.2.1 ω.2.2) ++
    (P.encG1.enc (com pk idx ω.1 m) ++ P.encF.enc nonce))
  ⟨com pk idx ω.1 m, c, ⟨com pk idx ω.2.1 ω.2.2, (ω.2.1 - c * ω.1) :: idx.map fun i => entry ω.2.2 i - c * entry m i⟩⟩

theorem request_eq (P : Params F G1 G2 GT) (pk : PublicKey G1 G2) {n : Nat} (hn : pk.h.length = n) (idx : List Nat) (hidx : ∀ i ∈ idx, i < n) (nonce : F) (m : Fin n → F)
    (ω : Coins F n) : request P pk idx nonce m ω = .ok (sent P pk idx nonce m ω, ω.1) := by
  unfold request newBlindCtx
  rw [ctx_bases pk.h hn m idx hidx, Res.ok_bind]
  have e1 : (pick m idx).map (·.2) = idx.map (entry m) := by
    unfold pick
    rw [List.map_map]
    rfl
  rw [e1]
  dsimp only
  have e2 : ∀ (b : F) (v : Fin n → F), msm (pk.h0 :: idx.map fun i => pk.h.getD i 0) (b :: idx.map (entry v)) = com pk idx b v := by
    intro b v
    have := msm_map idx (fun i => pk.h.getD i 0) (entry v)
    rw [show msm (pk.h0 :: idx.map fun i => pk.h.getD i 0) (b :: idx.map (entry v)) = b • pk.h0 + msm (idx.map fun i => pk.h.getD i 0) (idx.map (entry v)) by simp [msm], this]
    rfl
  unfold Committing.finish Committed.genProof Committed.genChallenge Committed.toBytes
  dsimp only
  rw [e2, e2, if_neg (by simp)]
  show Res.ok _ = _
  unfold sent
  rw [List.zipWith_cons_cons, List.zipWith_map]
  simp only [List.zipWith_self]

/-- the coins that give the same request for other hidden messages -/
def moved (P : Params F G1 G2 GT) (pk : PublicKey G1 G2) {n : Nat} (idx : List Nat) (nonce : F) (β : F) (m m' : Fin n → F) (ω : Coins F n) : Coins F n :=
  let c := (sent P pk idx nonce m ω).challenge
  (ω.1 + β, ω.2.1 + c * β, ω.2.2 + c • (m' - m))

theorem moved_sent (P : Params F G1 G2 GT) (pk : PublicKey G1 G2) {n : Nat} (idx : List Nat) (nonce : F) (β : F) (m m' : Fin n → F)
    (hβ : com pk idx β (m' - m) = 0) (ω : Coins F n) : sent P pk idx nonce m' (moved P pk idx nonce β m m' ω) = sent P pk idx nonce m ω := by
  have e1 : com pk idx (moved P pk idx nonce β m m' ω).1 m' = com pk idx ω.1 m := by
    show com pk idx (ω.1 + β) m' = _
    have := com_add pk idx ω.1 β m (m' - m)
    rw [add_sub_cancel, hβ, add_zero] at this
    exact this
  have e2 : com pk idx (moved P pk idx nonce β m m' ω).2.1 (moved P pk idx nonce β m m' ω).2.2 = com pk idx ω.2.1 ω.2.2 := by
    unfold moved
    dsimp only
    rw [com_add, com_smul, hβ, smul_zero, add_zero]
  have e3 : (sent P pk idx nonce m' (moved P pk idx nonce β m m' ω)).challenge = (sent P pk idx nonce m ω).challenge := by
    unfold sent
    dsimp only
    rw [e1, e2]
  have key : ∀ (m : Fin n → F) (ω : Coins F n), sent P pk idx nonce m ω = ⟨com pk idx ω.1 m, (sent P pk idx nonce m ω).challenge, ⟨com pk idx ω.2.1 ω.2.2,
      (ω.2.1 - (sent P pk idx nonce m ω).challenge * ω.1) :: idx.map fun i => entry ω.2.2 i - (sent P pk idx nonce m ω).challenge * entry m i⟩⟩ := fun _ _ => rfl
  rw [key m' (moved P pk idx nonce β m m' ω), key m ω, e1, e2, e3]
  congr 2
  generalize hc : (sent P pk idx nonce m ω).challenge = c
  unfold moved
  rw [hc]
  dsimp only
  congr 1
  · ring
  · refine List.map_congr_left fun i _ => ?_
    rw [entry_add, entry_smul]
    have : entry m' i = entry (m' - m) i + entry m i := by rw [← entry_add, sub_add_cancel]
    rw [this]
    ring

theorem moved_back (P : Params F G1 G2 GT) (pk : PublicKey G1 G2) {n : Nat} (idx : List Nat) (nonce : F) (β : F) (m m' : Fin n → F)
    (hβ : com pk idx β (m' - m) = 0) (ω : Coins F n) : moved P pk idx nonce (-β) m' m (moved P pk idx nonce β m m' ω) = ω := by
  have h := moved_sent P pk idx nonce β m m' hβ ω
  conv_lhs => unfold moved
  dsimp only
  have hc : (sent P pk idx nonce m' (ω.1 + β, ω.2.1 + (sent P pk idx nonce m ω).challenge * β, ω.2.2 + (sent P pk idx nonce m ω).challenge • (m' - m))).challenge =
      (sent P pk idx nonce m ω).challenge := congrArg BlindCtx.challenge h
  rw [hc]
  refine Prod.ext ?_ (Prod.ext ?_ ?_)
  · simp
  · simp
  · show ω.2.2 + _ • (m' - m) + _ • (m - m') = ω.2.2
    rw [add_assoc, ← smul_add]
    simp

theorem balances (pk : PublicKey G1 G2) (hspan : ∀ p : G1, ∃ κ : F, p = κ • pk.h0) {n : Nat} (idx : List Nat) (δ : Fin n → F) : ∃ β : F, com pk idx β δ = 0 := by
  obtain ⟨κ, hκ⟩ := hspan (idx.map fun i => entry δ i • pk.h.getD i 0).sum
  refine ⟨-κ, ?_⟩
  unfold com
  rw [hκ, neg_smul, neg_add_cancel]

theorem com_neg (pk : PublicKey G1 G2) {n : Nat} (idx : List Nat) (β : F) (δ : Fin n → F) (h : com pk idx β δ = 0) : com pk idx (-β) (-δ) = 0 := by
  have := com_smul pk idx (-1) β δ
  rw [h, smul_zero, neg_one_mul, neg_one_smul] at this
  exact this

theorem moved_bijective (P : Params F G1 G2 GT) (pk : PublicKey G1 G2) {n : Nat} (idx : List Nat) (nonce : F) (β : F) (m m' : Fin n → F)
    (hβ : com pk idx β (m' - m) = 0) : Function.Bijective (moved P pk idx nonce β m m') := by
  refine Function.bijective_iff_has_inverse.2 ⟨moved P pk idx nonce (-β) m' m, fun ω => moved_back P pk idx nonce β m m' hβ ω, fun ω => ?_⟩
  have h := com_neg pk idx β _ hβ
  rw [neg_sub] at h
  have := moved_back P pk idx nonce (-β) m' m h ω
  rwa [neg_neg] at this

variable [Fintype F]

/-- **C228** For any two lists of messages every test on the request says yes with the same probability: the signer learns nothing about the hidden messages, whatever its
means and whatever the hash function and the rest of the key are. -/
theorem blind_request_hides (P : Params F G1 G2 GT) (pk : PublicKey G1 G2) (hspan : ∀ p : G1, ∃ κ : F, p = κ • pk.h0) {n : Nat} (hn : pk.h.length = n) (idx : List Nat)
    (hidx : ∀ i ∈ idx, i < n) (nonce : F) (test : BlindCtx F G1 → Prop) (m m' : Fin n → F) :
    pr (fun ω : Coins F n => Seen P pk idx nonce test m ω) = pr (fun ω : Coins F n => Seen P pk idx nonce test m' ω) := by
  obtain ⟨β, hβ⟩ := balances pk hspan idx (m' - m)
  rw [← pr_bijective _ (moved_bijective P pk idx nonce β m m' hβ) (fun ω => Seen P pk idx nonce test m' ω)]
  congr 1
  funext ω
  unfold Seen
  rw [request_eq P pk hn idx hidx, request_eq P pk hn idx hidx, moved_sent P pk idx nonce β m m' hβ]
  refine propext ⟨?_, ?_⟩
  · rintro ⟨ctx, b, h, ht⟩
    rw [Res.ok.injEq, Prod.mk.injEq] at h
    exact ⟨_, _, rfl, h.1 ▸ ht⟩
  · rintro ⟨ctx, b, h, ht⟩
    rw [Res.ok.injEq, Prod.mk.injEq] at h
    exact ⟨_, _, rfl, h.1 ▸ ht⟩

/-! ### The holder's reaction -/

theorem accepts_iff (P : Params F G1 G2 GT) (pk : PublicKey G1 G2) (M : List F) (hM : M.length = pk.h.length) (r : Signature F G1) (b : F) :
    (∃ sig, completeSignature P pk M r b = .ok sig) ↔ pk.validate = .ok () ∧ r.a ≠ 0 ∧ r.e ≠ 0 ∧ r.s + b ≠ 0 ∧
      P.e r.a (r.e • P.g2 + pk.w) + P.e (-(getB P (r.s + b) M pk)) P.g2 = 0 := by
  unfold completeSignature Signature.verify
  rw [if_neg (by omega)]
  unfold Signature.validate Signature.unblind
  dsimp only
  by_cases h1 : pk.validate = .ok ()
  · rw [h1]
    by_cases h2 : r.a = 0 ∨ r.e = 0 ∨ r.s + b = 0
    · rw [if_pos h2]
      constructor
      · rintro ⟨sig, h⟩; cases h
      · rintro ⟨-, ha, he, hs, -⟩
        rcases h2 with h | h | h
        · exact absurd h ha
        · exact absurd h he
        · exact absurd h hs
    · rw [if_neg h2]
      simp only [Res.ok_bind, Res.pure_eq]
      rw [not_or, not_or] at h2
      by_cases h3 : P.e r.a (r.e • P.g2 + pk.w) + P.e (-(getB P (r.s + b) M pk)) P.g2 = 0
      · rw [if_pos (decide_eq_true h3)]
        exact ⟨fun _ => ⟨trivial, h2.1, h2.2.1, h2.2.2, h3⟩, fun _ => ⟨_, rfl⟩⟩
      · rw [if_neg (by rw [decide_eq_true_eq]; exact h3)]
        constructor
        · rintro ⟨sig, h⟩; cases h
        · rintro ⟨-, -, -, -, h⟩; exact absurd h h3
  · constructor
    · rintro ⟨sig, h⟩
      exfalso
      apply h1
      cases hv : pk.validate with
      | ok u => rfl
      | err t => rw [hv] at h; cases h
      | panic => rw [hv] at h; cases h
    · rintro ⟨h, -⟩; exact absurd h h1

theorem getB_eq (P : Params F G1 G2 GT) (pk : PublicKey G1 G2) {n : Nat} (hn : pk.h.length = n) (s : F) (m : Fin n → F) :
    getB P s (List.ofFn m) pk = P.g1 + (s • pk.h0 + ∑ j : Fin n, m j • pk.h.getD j 0) := by
  subst hn
  unfold getB
  have h1 : pk.h = List.ofFn fun j : Fin pk.h.length => pk.h.getD j 0 := by
    refine List.ext_getElem (by simp) fun j h1 h2 => ?_
    simp
  have h2 := Forgery.msm_ofFn pk.h.length (fun j => pk.h.getD j 0) (List.ofFn m)
  rw [← h1] at h2
  have h3 : msm (P.g1 :: pk.h0 :: pk.h) (1 :: s :: List.ofFn m) = P.g1 + (s • pk.h0 + msm pk.h (List.ofFn m)) := by simp [msm]
  rw [h3, h2]
  congr 2
  refine Finset.sum_congr rfl fun j _ => ?_
  simp

/-- what is committed to is what is signed, but for the messages that are not hidden -/
theorem sum_hidden (pk : PublicKey G1 G2) {n : Nat} (idx : List Nat) (hidx : ∀ i ∈ idx, i < n) (hnd : idx.Nodup) (δ : Fin n → F) (hδ : ∀ j : Fin n, (j : Nat) ∉ idx → δ j = 0) :
    ∑ j : Fin n, δ j • pk.h.getD j 0 = (idx.map fun i => entry δ i • pk.h.getD i 0).sum := by
  have h1 : ∑ j : Fin n, δ j • pk.h.getD j 0 = ∑ i ∈ Finset.range n, entry δ i • pk.h.getD i 0 := by
    rw [Finset.sum_range]
    refine Finset.sum_congr rfl fun j _ => ?_
    unfold entry
    rw [dif_pos j.2]
  have h2 : ∑ i ∈ idx.toFinset, entry δ i • pk.h.getD i 0 = ∑ i ∈ Finset.range n, entry δ i • pk.h.getD i 0 := by
    refine Finset.sum_subset (fun i hi => Finset.mem_range.2 (hidx i (List.mem_toFinset.1 hi))) fun i hi hni => ?_
    have hin := Finset.mem_range.1 hi
    have : entry δ i = 0 := by
      unfold entry
      rw [dif_pos hin]
      exact hδ ⟨i, hin⟩ fun h => hni (List.mem_toFinset.2 h)
    rw [this, zero_smul]
  rw [h1, ← h2, List.sum_toFinset _ hnd]

/-- **C228** The signer may also see whether the holder accepts the reply, which may be anything: for two lists of messages that agree on what the signer knows, the
probabilities differ by no more than those of hitting upon the holder's blinding, which is the logarithm of a point. -/
theorem blind_issuance_hides (P : Params F G1 G2 GT) (pk : PublicKey G1 G2) (hspan : ∀ p : G1, ∃ κ : F, p = κ • pk.h0) {n : Nat} (hn : pk.h.length = n) (idx : List Nat)
    (hidx : ∀ i ∈ idx, i < n) (hnd : idx.Nodup) (nonce : F) (reply : BlindCtx F G1 → Signature F G1) (test : BlindCtx F G1 → Prop → Prop) (m m' : Fin n → F)
    (hknown : ∀ j : Fin n, (j : Nat) ∉ idx → m j = m' j) :
    |pr (fun ω : Coins F n => SeenAll P pk idx nonce reply test m ω) - pr (fun ω : Coins F n => SeenAll P pk idx nonce reply test m' ω)| ≤
      pr (fun ω : Coins F n => Hit P pk idx nonce reply m ω) + pr (fun ω : Coins F n => Hit P pk idx nonce reply m' ω) := by
  obtain ⟨β, hβ⟩ := balances pk hspan idx (m' - m)
  have hbij := moved_bijective P pk idx nonce β m m' hβ
  have hall : ∀ (m : Fin n → F) (ω : Coins F n), SeenAll P pk idx nonce reply test m ω ↔ test (sent P pk idx nonce m ω)
      (∃ sig, completeSignature P pk (List.ofFn m) (reply (sent P pk idx nonce m ω)) ω.1 = .ok sig) := by
    intro m ω
    unfold SeenAll
    rw [request_eq P pk hn idx hidx]
    constructor
    · rintro ⟨ctx, b, h, ht⟩
      rw [Res.ok.injEq, Prod.mk.injEq] at h
      obtain ⟨rfl, rfl⟩ := h
      exact ht
    · exact fun ht => ⟨_, _, rfl, ht⟩
  have hhit : ∀ (m : Fin n → F) (ω : Coins F n), Hit P pk idx nonce reply m ω ↔ (reply (sent P pk idx nonce m ω)).s = -ω.1 := by
    intro m ω
    unfold Hit
    rw [request_eq P pk hn idx hidx]
    constructor
    · rintro ⟨ctx, b, h, ht⟩
      rw [Res.ok.injEq, Prod.mk.injEq] at h
      obtain ⟨rfl, rfl⟩ := h
      exact ht
    · exact fun ht => ⟨_, _, rfl, ht⟩
  rw [← pr_bijective _ hbij (fun ω => SeenAll P pk idx nonce reply test m' ω), ← pr_bijective _ hbij (fun ω => Hit P pk idx nonce reply m' ω)]
  refine le_trans (Symm.pr_close _ _ (fun ω => Hit P pk idx nonce reply m ω ∨ Hit P pk idx nonce reply m' (moved P pk idx nonce β m m' ω)) ?_) (pr_or _ _)
  intro ω hω
  rw [not_or, hhit, hhit, moved_sent P pk idx nonce β m m' hβ] at hω
  rw [hall, hall, moved_sent P pk idx nonce β m m' hβ]
  have hs : (reply (sent P pk idx nonce m ω)).s + ω.1 ≠ 0 := fun h => hω.1 (eq_neg_of_add_eq_zero_left h)
  have hs' : (reply (sent P pk idx nonce m ω)).s + (moved P pk idx nonce β m m' ω).1 ≠ 0 := fun h => hω.2 (eq_neg_of_add_eq_zero_left h)
  have hB : getB P ((reply (sent P pk idx nonce m ω)).s + (moved P pk idx nonce β m m' ω).1) (List.ofFn m') pk =
      getB P ((reply (sent P pk idx nonce m ω)).s + ω.1) (List.ofFn m) pk := by
    rw [getB_eq P pk hn, getB_eq P pk hn]
    congr 1
    have h1 := sum_hidden pk idx hidx hnd (m' - m) fun j hj => by rw [Pi.sub_apply, hknown j hj, sub_self]
    have h2 : ∑ j : Fin n, m' j • pk.h.getD j 0 = ∑ j : Fin n, (m' - m) j • pk.h.getD j 0 + ∑ j : Fin n, m j • pk.h.getD j 0 := by
      rw [← Finset.sum_add_distrib]
      refine Finset.sum_congr rfl fun j _ => ?_
      rw [← add_smul, Pi.sub_apply, sub_add_cancel]
    have h3 : β • pk.h0 + (idx.map fun i => entry (m' - m) i • pk.h.getD i 0).sum = 0 := hβ
    show ((reply (sent P pk idx nonce m ω)).s + (ω.1 + β)) • pk.h0 + _ = _
    rw [h2, h1, ← add_assoc, add_smul, add_smul, eq_neg_of_add_eq_zero_right h3, add_smul]
    abel
  have hiff : (∃ sig, completeSignature P pk (List.ofFn m') (reply (sent P pk idx nonce m ω)) (moved P pk idx nonce β m m' ω).1 = .ok sig) ↔
      ∃ sig, completeSignature P pk (List.ofFn m) (reply (sent P pk idx nonce m ω)) ω.1 = .ok sig := by
    rw [accepts_iff P pk _ (by simp [hn]), accepts_iff P pk _ (by simp [hn]), hB]
    simp only [hs, hs', ne_eq, not_false_eq_true]
  rw [propext hiff]

omit [Fintype F] in
/-- The holder does not look at the key: with `h0 = 0`, which `PublicKey::validate` refuses, the commitment is not blinded, and tells the hidden message. -/
theorem bad_key_reveals (P : Params F G1 G2 GT) (pk : PublicKey G1 G2) (h0 : pk.h0 = 0) {n : Nat} (hn : pk.h.length = n) (i : Fin n) (hi : ∀ a : F, a • pk.h.getD i 0 = 0 → a = 0)
    (nonce : F) (m m' : Fin n → F) (ω ω' : Coins F n) (ctx ctx' : BlindCtx F G1) (b b' : F) (h : request P pk [(i : Nat)] nonce m ω = .ok (ctx, b))
    (h' : request P pk [(i : Nat)] nonce m' ω' = .ok (ctx', b')) : ctx.commitment = ctx'.commitment ↔ m i = m' i := by
  have hidx : ∀ j ∈ [(i : Nat)], j < n := by simp
  rw [request_eq P pk hn _ hidx, Res.ok.injEq, Prod.mk.injEq] at h h'
  rw [← h.1, ← h'.1]
  show com pk [(i : Nat)] ω.1 m = com pk [(i : Nat)] ω'.1 m' ↔ _
  unfold com entry
  simp only [h0, smul_zero, zero_add, List.map_cons, List.map_nil, List.sum_cons, List.sum_nil, add_zero, i.2, dif_pos]
  constructor
  · intro h
    have := hi (m i - m' i) (by rw [sub_smul, sub_eq_zero]; exact h)
    exact sub_eq_zero.1 this
  · intro h
    show m i • _ = m' i • _
    rw [h]

/-! ## The hypotheses are met -/

namespace Met
open Verif.Toy Verif.BBS.Toy
local instance : Fact (Nat.Prime 101) := fact101

/-- a key for two messages -/
def key2 : PublicKey (ZMod 101) (ZMod 101) := ⟨2, [3, 5], 7⟩

theorem spans (p : ZMod 101) : ∃ κ : ZMod 101, p = κ • key2.h0 := ⟨p / 2, by
  show p = p / 2 * 2
  rw [div_mul_cancel₀]
  decide⟩

/-- the first message hidden: is it 4 or 6? -/
example (nonce : ZMod 101) (test : BlindCtx (ZMod 101) (ZMod 101) → Prop) :
    pr (fun ω : Coins (ZMod 101) 2 => Seen par key2 [0] nonce test ![4, 8] ω) = pr (fun ω : Coins (ZMod 101) 2 => Seen par key2 [0] nonce test ![6, 8] ω) :=
  blind_request_hides par key2 spans rfl [0] (by decide) nonce test _ _

example (nonce : ZMod 101) (reply : BlindCtx (ZMod 101) (ZMod 101) → Signature (ZMod 101) (ZMod 101)) (test : BlindCtx (ZMod 101) (ZMod 101) → Prop → Prop) :
    |pr (fun ω : Coins (ZMod 101) 2 => SeenAll par key2 [0] nonce reply test ![4, 8] ω) - pr (fun ω : Coins (ZMod 101) 2 => SeenAll par key2 [0] nonce reply test ![6, 8] ω)| ≤
      pr (fun ω : Coins (ZMod 101) 2 => Hit par key2 [0] nonce reply ![4, 8] ω) + pr (fun ω : Coins (ZMod 101) 2 => Hit par key2 [0] nonce reply ![6, 8] ω) :=
  blind_issuance_hides par key2 spans (n := 2) rfl [0] (by decide) (by decide) nonce reply test _ _ (by decide)

/-- a request is made -/
example : ∃ ctx b, request par key2 [0] 9 ![4, 8] (11, 6, ![8, 0]) = .ok (ctx, b) ∧ ctx.commitment = 11 * 2 + 4 * 3 :=
  ⟨_, _, rfl, by decide +kernel⟩

/-- with `h0 = 0` the commitment tells the messages apart -/
example : ∃ ctx ctx' b b', request par ⟨0, [3, 5], 7⟩ [((0 : Fin 2) : Nat)] 9 ![4, 8] (11, 6, ![8, 0]) = .ok (ctx, b) ∧
    request par ⟨0, [3, 5], 7⟩ [((0 : Fin 2) : Nat)] 9 ![6, 8] (20, 7, ![9, 0]) = .ok (ctx', b') ∧ ctx.commitment ≠ ctx'.commitment :=
  ⟨_, _, _, _, rfl, rfl, fun h => absurd ((bad_key_reveals par ⟨0, [3, 5], 7⟩ rfl (n := 2) rfl 0 (fun a ha => (mul_eq_zero.1 (ha : a * 3 = 0)).resolve_right (by decide +kernel))
    9 ![4, 8] ![6, 8] (11, 6, ![8, 0]) (20, 7, ![9, 0]) _ _ _ _ rfl rfl).1 h) (by decide +kernel)⟩
end Met
end BlindHiding
end Verif.BBS
