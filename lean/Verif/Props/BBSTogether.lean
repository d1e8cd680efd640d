import Verif.Props.BBSSimulate
/-!
# C236: BBS+ credentials shown together, under one challenge

A presentation of several credentials, of several issuers, hashes all commitments at once.  What it shows does not depend on which credentials are behind it, as long as the shown
messages are the same.
-/
set_option linter.unusedSectionVars false
set_option linter.unusedVariables false

namespace Verif.BBS
open Verif.PoK Verif.Forking Verif.Unlinkable

variable {F G1 G2 GT : Type} [Field F] [DecidableEq F] [AddCommGroup G1] [Module F G1] [DecidableEq G1] [AddCommGroup G2] [Module F G2] [DecidableEq G2]
  [AddCommGroup GT] [Module F GT] [DecidableEq GT]

/-! ## Specification -/

/-- The holder's side: the number of credentials, and for each the issuer's key, the number of messages, which are shown, the signature and the messages. -/
structure Wallet (F G1 G2 : Type) (K : Nat) (n : Fin K → Nat) where
  pk : Fin K → PublicKey G1 G2
  shown : (i : Fin K) → Fin (n i) → Bool
  sig : Fin K → Signature F G1
  m : (i : Fin K) → Fin (n i) → F

/-- the presentation of all of them: commit to each, hash everything with the claims and the verifier's nonce, answer for each -/
def Wallet.present (P : Params F G1 G2 GT) {K : Nat} {n : Fin K → Nat} (a : Wallet F G1 G2 K n) (claims : List Bytes) (nonce : F) (r : Fin K → Rand F) :
    Res Error (List (SignatureProof F G1) × F) := do
  let poks ← (List.finRange K).mapM fun i => init P (a.sig i) (a.pk i) (marked (a.shown i) (a.m i)) (r i)
  let c := proverChallenge P poks claims nonce
  let sps ← poks.mapM fun pok => generateSignaturePok pok c
  pure (sps, c)

/-- the signatures are valid, under keys that are well-formed -/
def Wallet.Valid (P : Params F G1 G2 GT) {K : Nat} {n : Fin K → Nat} (a : Wallet F G1 G2 K n) : Prop :=
  ∀ i, (a.sig i).verify P (List.ofFn (a.m i)) (a.pk i) = .ok true ∧ WellFormed (a.pk i) ∧ ∃ x : F, (a.pk i).w = x • P.g2

/-- the same keys, and the same messages where they are shown -/
def Wallet.LooksLike {K : Nat} {n : Fin K → Nat} (a b : Wallet F G1 G2 K n) : Prop :=
  a.pk = b.pk ∧ a.shown = b.shown ∧ ∀ i j, a.shown i j = true → a.m i j = b.m i j

/-! ## Proof -/

namespace Together
open Unlink

theorem mapM_map_map {α β γ ε : Type} (f : β → Res ε γ) (g : α → β) (h : α → γ) : ∀ l : List α, (∀ x ∈ l, f (g x) = .ok (h x)) → (l.map g).mapM f = .ok (l.map h)
  | [], _ => rfl
  | x :: l, hx => by
    rw [List.map_cons, List.mapM_cons, hx x List.mem_cons_self, Res.ok_bind, mapM_map_map f g h l fun y hy => hx y (List.mem_cons_of_mem _ hy)]
    rfl

theorem mapM_map {α β ε : Type} (f : α → Res ε β) (g : α → β) : ∀ l : List α, (∀ x ∈ l, f x = .ok (g x)) → l.mapM f = .ok (l.map g)
  | [], _ => rfl
  | x :: l, h => by
    rw [List.mapM_cons, h x List.mem_cons_self, Res.ok_bind, mapM_map f g l fun y hy => h y (List.mem_cons_of_mem _ hy)]
    rfl

variable {K : Nat} {n : Fin K → Nat}

/-- another signature gives the same view with other coins -/
theorem view_exists (P : Params F G1 G2 GT) (hcyc : ∀ a b : G1, a ≠ 0 → ∃ k : F, b = k • a) (x : F) {n : Nat} (pk : PublicKey G1 G2) (hwf : WellFormed pk) (hw : pk.w = x • P.g2)
    (hgood : Nondeg P) (shown : Fin n → Bool) (sig sig' : Signature F G1) (m m' : Fin n → F) (hv : sig.verify P (List.ofFn m) pk = .ok true)
    (hv' : sig'.verify P (List.ofFn m') pk = .ok true) (hagree : ∀ j, shown j = true → m j = m' j) (c : F) (ω : Ideal F n) :
    ∃ ω', view P pk shown sig' m' c ω' = view P pk shown sig m c ω := by
  have hrev := revealed_eq shown m m' hagree
  obtain ⟨r', hr', -, h⟩ := bbs_unlinkable P hcyc x pk sig sig' (marked shown m) (marked shown m') ω.rand c hwf hw hgood (by rw [marked_map]; exact hv)
    (by rw [marked_map]; exact hv') (fun i => by
      have := mapGet_revealedOf 0 (marked shown m) i
      rw [← this, hrev, mapGet_revealedOf]) (fun pm hpm v b h => by
      unfold marked at hpm
      rw [List.mem_ofFn] at hpm
      obtain ⟨j, hj⟩ := hpm
      rw [h] at hj
      split at hj <;> cases hj) ω.1.2
  refine ⟨(⟨r'.r1, hr'⟩, r'.r2, (r'.ba, r'.bh, r'.bd, r'.bh'), fun j => if shown j then ω.2.2.2 j else r'.blind j), ?_⟩
  unfold view
  refine Prod.ext ?_ ?_
  · dsimp only
    rw [← h]
    exact (honest_congr P sig' pk shown m' r' _ (fun j hj hs => by
      show r'.blind j = if h : j < n then (if shown ⟨j, h⟩ = true then ω.2.2.2 ⟨j, h⟩ else r'.blind j) else 0
      rw [dif_pos hj, if_neg (by rw [hs]; simp)]) c).symm
  · funext j
    dsimp only
    cases hs : shown j <;> simp

/-- what is hashed -/
def bytes (P : Params F G1 G2 GT) (a : Wallet F G1 G2 K n) (r : Fin K → Rand F) : Bytes :=
  ((List.finRange K).map fun i => (honestProof P (a.sig i) (a.pk i) (marked (a.shown i) (a.m i)) (r i) 0).bytesForChallenge P
    ((revealedOf 0 (marked (a.shown i) (a.m i))).map (·.1)) (a.pk i)).flatten

/-- what is hashed can be computed from the views -/
theorem bytes_congr (P : Params F G1 G2 GT) (pk : Fin K → PublicKey G1 G2) (shown : (i : Fin K) → Fin (n i) → Bool) (sig sig' : Fin K → Signature F G1) (m m' : (i : Fin K) → Fin (n i) → F)
    (hrev : ∀ i, revealedOf 0 (marked (shown i) (m i)) = revealedOf 0 (marked (shown i) (m' i))) (c : F) (ω ω' : (i : Fin K) → Ideal F (n i))
    (h : ∀ i, view P (pk i) (shown i) (sig' i) (m' i) c (ω' i) = view P (pk i) (shown i) (sig i) (m i) c (ω i)) :
    bytes P (⟨pk, shown, sig', m'⟩ : Wallet F G1 G2 K n) (fun i => (ω' i).rand) = bytes P (⟨pk, shown, sig, m⟩ : Wallet F G1 G2 K n) (fun i => (ω i).rand) := by
  unfold bytes
  refine congrArg List.flatten (List.map_congr_left fun i _ => ?_)
  have h1 := (Prod.mk.inj (h i)).1
  have e : ∀ (sig : Signature F G1) (m : Fin (n i) → F) (ω : Ideal F (n i)),
      (honestProof P sig (pk i) (marked (shown i) m) ω.rand 0).bytesForChallenge P ((revealedOf 0 (marked (shown i) m)).map (·.1)) (pk i) =
        (honestProof P sig (pk i) (marked (shown i) m) ω.rand c).bytesForChallenge P ((revealedOf 0 (marked (shown i) m)).map (·.1)) (pk i) := fun _ _ _ => rfl
  dsimp only
  rw [e, e, h1, hrev i]

theorem present_eq (P : Params F G1 G2 GT) (a : Wallet F G1 G2 K n) (hv : ∀ i, (a.sig i).verify P (List.ofFn (a.m i)) (a.pk i) = .ok true) (claims : List Bytes) (nonce : F)
    (r : Fin K → Rand F) :
    a.present P claims nonce r = .ok ((List.finRange K).map fun i => ⟨revealedOf 0 (marked (a.shown i) (a.m i)),
      honestProof P (a.sig i) (a.pk i) (marked (a.shown i) (a.m i)) (r i) (P.hashFr (bytes P a r ++ P.encF.enc nonce ++ claims.flatten))⟩,
      P.hashFr (bytes P a r ++ P.encF.enc nonce ++ claims.flatten)) := by
  have hl : ∀ i, n i = (a.pk i).h.length := fun i => by simpa using ((verify_true_pairing P _ _ _).1 (hv i)).1
  unfold Wallet.present
  rw [mapM_map _ (fun i => initValid P (a.sig i) (a.pk i) (marked (a.shown i) (a.m i)) (r i)) _ fun i _ => by
    unfold init
    rw [if_neg (by rw [marked_length]; exact not_not.2 (hl i)), marked_map, hv i, Res.ok_bind, if_pos rfl], Res.ok_bind]
  have hc : proverChallenge P ((List.finRange K).map fun i => initValid P (a.sig i) (a.pk i) (marked (a.shown i) (a.m i)) (r i)) claims nonce =
      P.hashFr (bytes P a r ++ P.encF.enc nonce ++ claims.flatten) := by
    unfold proverChallenge bytes
    rw [List.map_map]
    congr 4
    refine List.map_congr_left fun i _ => ?_
    rw [honest_bytes P _ _ _ _ 0 (by rw [marked_length, hl])]
    rfl
  dsimp only
  rw [hc]
  generalize P.hashFr (bytes P a r ++ P.encF.enc nonce ++ claims.flatten) = c
  rw [mapM_map_map _ (fun i => initValid P (a.sig i) (a.pk i) (marked (a.shown i) (a.m i)) (r i))
    (fun i => ⟨revealedOf 0 (marked (a.shown i) (a.m i)), honestProof P (a.sig i) (a.pk i) (marked (a.shown i) (a.m i)) (r i) c⟩) _ fun i _ => by
      unfold generateSignaturePok
      rw [genProof_eq, Res.ok_bind]
      rfl]
  rfl

variable [Finite F]

/-- coins whose `r2` may be zero -/
abbrev Coins (F : Type) [Zero F] {K : Nat} (n : Fin K → Nat) : Type := (i : Fin K) → Ideal F (n i)

theorem moved (P : Params F G1 G2 GT) (hcyc : ∀ a b : G1, a ≠ 0 → ∃ k : F, b = k • a) (hgood : Nondeg P) (a b : Wallet F G1 G2 K n) (ha : a.Valid P) (hb : b.Valid P)
    (hlook : a.LooksLike b) (claims : List Bytes) (nonce : F) : ∃ φ : Coins F n → Coins F n, Function.Bijective φ ∧
      ∀ ω, b.present P claims nonce (fun i => (φ ω i).rand) = a.present P claims nonce fun i => (ω i).rand := by
  obtain ⟨pk, shown, sig, m⟩ := a
  obtain ⟨pk', shown', sig', m'⟩ := b
  obtain ⟨h1, h2, hagree⟩ := hlook
  dsimp only at h1 h2 hagree
  subst h1 h2
  have hl : ∀ i, n i = (pk i).h.length := fun i => by simpa using ((verify_true_pairing P _ _ _).1 (ha i).1).1
  have hrev : ∀ i, revealedOf 0 (marked (shown i) (m i)) = revealedOf 0 (marked (shown i) (m' i)) := fun i => revealed_eq (shown i) (m i) (m' i) (hagree i)
  have hv := fun i => (ha i).1
  have hv' := fun i => (hb i).1
  dsimp only at hv hv'
  obtain ⟨φ, hbij, hφ⟩ := fs_bijective (fun ω : Coins F n => bytes P (⟨pk, shown, sig, m⟩ : Wallet F G1 G2 K n) fun i => (ω i).rand)
    (fun ω : Coins F n => bytes P (⟨pk, shown, sig', m'⟩ : Wallet F G1 G2 K n) fun i => (ω i).rand)
    (fun (c : F) (ω : Coins F n) i => view P (pk i) (shown i) (sig i) (m i) c (ω i)) (fun (c : F) (ω : Coins F n) i => view P (pk i) (shown i) (sig' i) (m' i) c (ω i))
    (fun c ω ω' h => by
      funext i
      obtain ⟨x, hx⟩ := (ha i).2.2
      exact view_injective P (pk i) (hl i).symm (ha i).2.1.1 (shown i) (sig i) ((bbs_verify_iff P hgood _ _ _ x hx).1 (hv i)).2.1.1 (m i) c (congrFun h i))
    (fun c ω => by
      have : ∀ i, ∃ ω', view P (pk i) (shown i) (sig' i) (m' i) c ω' = view P (pk i) (shown i) (sig i) (m i) c (ω i) := fun i => by
        obtain ⟨x, hx⟩ := (ha i).2.2
        exact view_exists P hcyc x (pk i) (ha i).2.1 hx hgood (shown i) (sig i) (sig' i) (m i) (m' i) (hv i) (hv' i) (hagree i) c (ω i)
      choose ω' h using this
      exact ⟨ω', funext h⟩)
    (fun c ω ω' h => bytes_congr P pk shown sig sig' m m' hrev c ω ω' fun i => congrFun h i) (fun b => P.hashFr (b ++ P.encF.enc nonce ++ claims.flatten))
  refine ⟨φ, hbij, fun ω => ?_⟩
  obtain ⟨e1, e2⟩ := hφ ω
  rw [present_eq P (⟨pk, shown, sig', m'⟩ : Wallet F G1 G2 K n) hv', present_eq P (⟨pk, shown, sig, m⟩ : Wallet F G1 G2 K n) hv, e1]
  dsimp only at e1 e2 ⊢
  congr 2
  refine List.map_congr_left fun i _ => ?_
  have := (Prod.mk.inj (congrFun e2 i)).1
  rw [this, hrev i]
end Together

/-- The coins of a presentation of credentials with `n i` messages. -/
abbrev WalletCoins (F : Type) [Zero F] {K : Nat} (n : Fin K → Nat) : Type := (i : Fin K) → PresCoins F (n i)

theorem pr_at {k : Nat} {X : Fin k → Type} [∀ i, Fintype (X i)] [∀ i, Nonempty (X i)] (j : Fin k) (P : X j → Prop) : pr (fun f : (i : Fin k) → X i => P (f j)) = pr P := by
  classical
  have h := pr_bijective (Equiv.piSplitAt j X) (Equiv.piSplitAt j X).bijective (fun z : X j × ((i : {i // i ≠ j}) → X i) => P z.1)
  rw [pr_fst] at h
  rw [← h]
  rfl

variable [Fintype F]

/-- **C236** Whichever of two wallets that look alike is presented, any test of what is shown says yes with the same probability but for the chance that a factor `r2` is zero. -/
theorem bbs_together_unlinkable (P : Params F G1 G2 GT) (hcyc : ∀ a b : G1, a ≠ 0 → ∃ k : F, b = k • a) (hgood : Nondeg P) {K : Nat} {n : Fin K → Nat} (a b : Wallet F G1 G2 K n)
    (ha : a.Valid P) (hb : b.Valid P) (hlook : a.LooksLike b) (claims : List Bytes) (nonce : F) (test : Res Error (List (SignatureProof F G1) × F) → Prop) :
    |pr (fun ω : WalletCoins F n => test (a.present P claims nonce fun i => (ω i).rand)) - pr (fun ω : WalletCoins F n => test (b.present P claims nonce fun i => (ω i).rand))| ≤
      2 * (K / Fintype.card F) := by
  let e (ω : WalletCoins F n) : Together.Coins F n := fun i => ((ω i).1, (ω i).2.1.1, (ω i).2.2)
  have he : Function.Injective e := by
    intro ω ω' h
    funext i
    have := congrFun h i
    obtain ⟨h1, h2, h3⟩ := Prod.mk.inj this |>.imp id Prod.mk.inj
    exact Prod.ext h1 (Prod.ext (Subtype.ext h2) h3)
  have hne : Nonempty {r : F // r ≠ 0} := ⟨⟨1, one_ne_zero⟩⟩
  have hbad : pr (fun ω : Together.Coins F n => ∃ i, (ω i).2.1 = 0) ≤ K / Fintype.card F := by
    refine (SDH.pr_exists_fin _ (1 / Fintype.card F) fun i => ?_).trans (by rw [mul_one_div])
    classical
    rw [pr_at (X := fun i => Unlink.Ideal F (n i)) i (fun w : Unlink.Ideal F (n i) => w.2.1 = 0), CS.pr_snd (fun w : F × (F × F × F × F) × (Fin (n i) → F) => w.1 = 0), pr_fst (fun r : F => r = 0)]
    exact SDH.pr_one_case _ fun a b ha hb => ha.trans hb.symm
  have hsurj : ∀ ω : Together.Coins F n, ¬ (∃ i, (ω i).2.1 = 0) → ∃ ω', e ω' = ω := fun ω h =>
    ⟨fun i => ((ω i).1, ⟨(ω i).2.1, fun h0 => h ⟨i, h0⟩⟩, (ω i).2.2), rfl⟩
  have c1 := (pr_restrict e he (fun ω => test (a.present P claims nonce fun i => (ω i).rand)) _ hsurj).trans hbad
  have c2 := (pr_restrict e he (fun ω => test (b.present P claims nonce fun i => (ω i).rand)) _ hsurj).trans hbad
  obtain ⟨φ, hφ, h⟩ := Together.moved P hcyc hgood a b ha hb hlook claims nonce
  rw [← pr_bijective _ hφ fun ω => test (b.present P claims nonce fun i => (ω i).rand)] at c2
  simp only [h] at c2
  change |pr (fun ω : WalletCoins F n => test (a.present P claims nonce fun i => (e ω i).rand)) - pr (fun ω : WalletCoins F n => test (b.present P claims nonce fun i => (e ω i).rand))| ≤ _
  rw [abs_le] at *
  constructor <;> linarith [c1.1, c1.2, c2.1, c2.2]
end Verif.BBS

/-! ## The hypotheses are met: two credentials from one holder, or from two -/

namespace Verif.BBS.Toy
open Verif.Toy Verif.Forking
local instance : Fact (Nat.Prime 101) := fact101

def same : Wallet (ZMod 101) (ZMod 101) (ZMod 101) 2 fun _ => 3 := ⟨fun _ => key, fun _ => ![true, false, false], fun _ => sig, fun _ => ![4, 6, 8]⟩
def other : Wallet (ZMod 101) (ZMod 101) (ZMod 101) 2 fun _ => 3 := ⟨fun _ => key, fun _ => ![true, false, false], ![sig, sig2], ![![4, 6, 8], ![4, 50, 60]]⟩

theorem key_w : key.w = (7 : ZMod 101) • par.g2 := by decide +kernel

theorem same_valid : same.Valid par := fun _ => ⟨sig_ok, wf, 7, key_w⟩
theorem other_valid : other.Valid par := fun i => match i with
  | 0 => ⟨sig_ok, wf, 7, key_w⟩
  | 1 => ⟨sig2_ok, wf, 7, key_w⟩

example (claims : List Bytes) (test : Res Error (List (SignatureProof (ZMod 101) (ZMod 101)) × ZMod 101) → Prop) :
    |pr (fun ω : WalletCoins (ZMod 101) (fun _ : Fin 2 => 3) => test (same.present par claims 5 fun i => (ω i).rand)) -
      pr (fun ω : WalletCoins (ZMod 101) (fun _ : Fin 2 => 3) => test (other.present par claims 5 fun i => (ω i).rand))| ≤ 2 * ((2 : ℕ) / Fintype.card (ZMod 101)) :=
  bbs_together_unlinkable par (fun a b ha => ⟨b * a⁻¹, by rw [smul_eq_mul, mul_assoc, inv_mul_cancel₀ ha, mul_one]⟩) nondeg same other same_valid other_valid
    ⟨rfl, rfl, fun i j hj => by
      match i, j with
      | 0, _ => rfl
      | 1, 0 => rfl
      | 1, 1 => cases hj
      | 1, 2 => cases hj⟩ claims 5 test

/-- a presentation of both is made -/
example (r : Fin 2 → Rand (ZMod 101)) : ∃ sps c, other.present par [] 5 r = .ok (sps, c) ∧ sps.length = 2 :=
  ⟨_, _, Together.present_eq par other (fun i => (other_valid i).1) [] 5 r, by simp⟩
end Verif.BBS.Toy
