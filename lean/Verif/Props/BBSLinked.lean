import Verif.Props.BBSTogether
/-!
# C237: showing that BBS+ credentials hold the same hidden message tells nothing else

Hidden messages of several credentials are given one blinding (`ProofMessage::Hidden(HiddenMessage::ExternalBlinding)`), so that the verifier sees equal responses.  What is shown
does not depend on the hidden messages, the common ones included.
-/
set_option linter.unusedSectionVars false
set_option linter.unusedVariables false

namespace Verif.BBS
open Verif.PoK Verif.Forking Verif.Unlinkable

variable {F G1 G2 GT : Type} [Field F] [DecidableEq F] [AddCommGroup G1] [Module F G1] [DecidableEq G1] [AddCommGroup G2] [Module F G2] [DecidableEq G2]
  [AddCommGroup GT] [Module F GT] [DecidableEq GT]

/-! ## Specification -/

/-- which hidden messages have a blinding of their own, and which have one of the `L` common ones -/
abbrev Links {K : Nat} (n : Fin K → Nat) (L : Nat) : Type := (i : Fin K) → Fin (n i) → Option (Fin L)

/-- the messages, marked as shown, hidden with a common blinding, or hidden -/
def markedLinked {n L : Nat} (shown : Fin n → Bool) (link : Fin n → Option (Fin L)) (β : Fin L → F) (m : Fin n → F) : List (ProofMessage F) :=
  List.ofFn fun j => if shown j then .revealed (m j) else match link j with
    | some l => .hiddenExt (m j) (β l)
    | none => .hidden (m j)

/-- the presentation of a wallet with common blindings `β` -/
def Wallet.presentLinked (P : Params F G1 G2 GT) {K L : Nat} {n : Fin K → Nat} (a : Wallet F G1 G2 K n) (link : Links n L) (claims : List Bytes) (nonce : F) (β : Fin L → F)
    (r : Fin K → Rand F) : Res Error (List (SignatureProof F G1) × F) := do
  let poks ← (List.finRange K).mapM fun i => init P (a.sig i) (a.pk i) (markedLinked (a.shown i) (link i) β (a.m i)) (r i)
  let c := proverChallenge P poks claims nonce
  let sps ← poks.mapM fun pok => generateSignaturePok pok c
  pure (sps, c)

/-- linked messages are the same -/
def Wallet.Respects {K L : Nat} {n : Fin K → Nat} (a : Wallet F G1 G2 K n) (link : Links n L) : Prop :=
  ∃ s : Fin L → F, ∀ i j l, a.shown i j = false → link i j = some l → a.m i j = s l

/-! ## Proof -/

namespace Linked
open Unlink Together

/-- the blinding and the message of a hidden message -/
def slot (bl : F) : ProofMessage F → Option (F × F)
  | .revealed _ => none
  | .hidden m => some (bl, m)
  | .hiddenExt m b => some (b, m)

theorem hiddenOf_slots (bl bl' : Nat → F) : ∀ (i : Nat) (hs : List G1) (pms pms' : List (ProofMessage F)), pms.length = pms'.length →
    (∀ j, (pms[j]?).map (slot (bl (i + j))) = (pms'[j]?).map (slot (bl' (i + j)))) → hiddenOf bl i hs pms = hiddenOf bl' i hs pms'
  | i, [], pms, pms', _, _ => by
    cases pms <;> cases pms' <;> simp [hiddenOf]
  | i, h :: hs, [], pms', hl, _ => by
    cases pms' with
    | nil => simp [hiddenOf]
    | cons _ _ => simp at hl
  | i, h :: hs, pm :: pms, [], hl, _ => by simp at hl
  | i, h :: hs, pm :: pms, pm' :: pms', hl, hb => by
    have ih := hiddenOf_slots bl bl' (i + 1) hs pms pms' (by simpa using hl) fun j => by
      have := hb (j + 1)
      rw [List.getElem?_cons_succ, List.getElem?_cons_succ] at this
      rwa [show i + 1 + j = i + (j + 1) by omega]
    have h0 := hb 0
    rw [List.getElem?_cons_zero, List.getElem?_cons_zero, Nat.add_zero, Option.map_some, Option.map_some, Option.some.injEq] at h0
    cases pm <;> cases pm' <;> simp [slot] at h0 <;> simp [hiddenOf, ih, h0]

theorem revealed_slots : ∀ (i : Nat) (l l' : List (ProofMessage F)), l.length = l'.length → (∀ j, revealedAt l j = revealedAt l' j) → revealedOf i l = revealedOf i l'
  | i, [], l', h, _ => by
    cases l' with
    | nil => rfl
    | cons _ _ => simp at h
  | i, a :: l, [], h, _ => by simp at h
  | i, a :: l, a' :: l', h, hr => by
    have ih := revealed_slots (i + 1) l l' (by simpa using h) (fun j => by
      have := hr (j + 1); simpa [revealedAt] using this)
    have h0 := hr 0
    cases a <;> cases a' <;> simp [revealedAt] at h0 <;> simp [revealedOf, ih, h0]

variable {n L : Nat}

/-- the coins with the common blindings put in -/
def tie (shown : Fin n → Bool) (link : Fin n → Option (Fin L)) (β : Fin L → F) (ω : Ideal F n) : Ideal F n :=
  (ω.1, ω.2.1, ω.2.2.1, fun j => if shown j then ω.2.2.2 j else (link j).elim (ω.2.2.2 j) β)

theorem init_linked (P : Params F G1 G2 GT) (sig : Signature F G1) (pk : PublicKey G1 G2) (shown : Fin n → Bool) (link : Fin n → Option (Fin L)) (β : Fin L → F) (m : Fin n → F)
    (ω : Ideal F n) : init P sig pk (markedLinked shown link β m) ω.rand = init P sig pk (marked shown m) (tie shown link β ω).rand := by
  have hl : (markedLinked shown link β m).length = (marked shown m).length := by simp [markedLinked, marked]
  have hget : ∀ j, (markedLinked shown link β m)[j]? = if h : j < n then some (if shown ⟨j, h⟩ then .revealed (m ⟨j, h⟩) else match link ⟨j, h⟩ with
      | some l => .hiddenExt (m ⟨j, h⟩) (β l)
      | none => .hidden (m ⟨j, h⟩)) else none := by
    intro j
    unfold markedLinked
    rw [List.getElem?_ofFn]
  have hmap : (markedLinked shown link β m).map (·.get) = (marked shown m).map (·.get) := by
    rw [marked_map]
    unfold markedLinked
    rw [List.map_ofFn]
    congr 1
    funext j
    rw [Function.comp_apply]
    split
    · rfl
    · split <;> rfl
  have hhid : hiddenOf ω.rand.blind 0 pk.h (markedLinked shown link β m) = hiddenOf (tie shown link β ω).rand.blind 0 pk.h (marked shown m) := by
    refine hiddenOf_slots _ _ 0 pk.h _ _ hl fun j => ?_
    rw [hget, marked_get]
    by_cases h : j < n
    · rw [dif_pos h, dif_pos h, Option.map_some, Option.map_some]
      cases hs : shown ⟨j, h⟩
      · cases hk : link ⟨j, h⟩ <;> simp [slot, Ideal.rand, tie, h, hs, hk]
      · simp [slot]
    · rw [dif_neg h, dif_neg h]
      rfl
  have hrev : revealedOf 0 (markedLinked shown link β m) = revealedOf 0 (marked shown m) := by
    refine revealed_slots 0 _ _ hl fun j => ?_
    unfold revealedAt
    rw [hget, marked_get]
    by_cases h : j < n
    · rw [dif_pos h, dif_pos h]
      cases hs : shown ⟨j, h⟩
      · cases hk : link ⟨j, h⟩ <;> simp
      · simp
    · rw [dif_neg h, dif_neg h]
  unfold init
  rw [hl, hmap]
  have : initValid P sig pk (markedLinked shown link β m) ω.rand = initValid P sig pk (marked shown m) (tie shown link β ω).rand := by
    unfold initValid
    rw [hmap, hhid, hrev]
    rfl
  rw [this]

theorem hiddenOf_shift (c : F) (bl bl' : Nat → F) (shown : Nat → Bool) (m m' : Nat → F) : ∀ (i : Nat) (hs : List G1) (k : Nat), hs.length = k →
    (hiddenOf bl i hs (List.ofFn fun j : Fin k => if shown (i + j) then .revealed (m (i + j)) else .hidden (m (i + j)))).map (fun t => t.2.1 - c * t.2.2) =
      (hiddenOf bl' i hs (List.ofFn fun j : Fin k => if shown (i + j) then .revealed (m' (i + j)) else .hidden (m' (i + j)))).map (fun t => t.2.1 - c * t.2.2) →
    ∀ j < k, shown (i + j) = false → bl (i + j) - c * m (i + j) = bl' (i + j) - c * m' (i + j)
  | i, [], k, hl, _, j, hj, _ => by
    rw [List.length_nil] at hl
    omega
  | i, h :: hs, 0, hl, _, j, hj, _ => by omega
  | i, h :: hs, k + 1, hl, he, j, hj, hsj => by
    rw [List.ofFn_succ, List.ofFn_succ] at he
    have hrec := hiddenOf_shift c bl bl' shown m m' (i + 1) hs k (by simpa using hl)
    have idx : ∀ j : Fin k, i + ((j.succ : Fin (k + 1)) : Nat) = i + 1 + j := fun j => by rw [Fin.val_succ]; omega
    simp only [idx, Fin.val_zero, Nat.add_zero] at he
    cases hs0 : shown i with
    | true =>
      simp only [hs0, if_true, hiddenOf] at he
      cases j with
      | zero => rw [Nat.add_zero, hs0] at hsj; cases hsj
      | succ j =>
        have := hrec he j (by omega) (by rw [← hsj]; congr 1; omega)
        rwa [show i + (j + 1) = i + 1 + j by omega]
    | false =>
      simp only [hs0, Bool.false_eq_true, if_false, hiddenOf, List.map_cons, List.cons.injEq] at he
      cases j with
      | zero => exact he.1
      | succ j =>
        have := hrec he.2 j (by omega) (by rw [← hsj]; congr 1; omega)
        rwa [show i + (j + 1) = i + 1 + j by omega]

/-- equal views have equal responses -/
theorem view_response (P : Params F G1 G2 GT) (pk : PublicKey G1 G2) (hn : pk.h.length = n) (shown : Fin n → Bool) (sig sig' : Signature F G1) (m m' : Fin n → F) (c : F)
    (ω ω' : Ideal F n) (h : view P pk shown sig' m' c ω' = view P pk shown sig m c ω) (j : Fin n) (hj : shown j = false) :
    ω'.2.2.2 j - c * m' j = ω.2.2.2 j - c * m j := by
  have h1 := (Prod.mk.inj h).1
  unfold honestProof initValid at h1
  dsimp only [Committing.finish] at h1
  rw [SigProof.mk.injEq, Proof.mk.injEq, Proof.mk.injEq] at h1
  obtain ⟨-, -, -, -, -, e4⟩ := h1
  simp only [List.zipWith_cons_cons, List.cons.injEq] at e4
  have e5 := e4.2.2
  rw [zipWith_map_map, zipWith_map_map] at e5
  let sh (j : Nat) : Bool := if h : j < n then shown ⟨j, h⟩ else false
  let ex (v : Fin n → F) (j : Nat) : F := if h : j < n then v ⟨j, h⟩ else 0
  have hm : ∀ v : Fin n → F, marked shown v = List.ofFn fun j : Fin n => if sh (0 + j) then .revealed (ex v (0 + j)) else .hidden (ex v (0 + j)) := fun v => by
    unfold marked
    congr 1
    funext j
    simp [sh, ex]
  rw [hm m, hm m'] at e5
  have := hiddenOf_shift c _ _ sh (ex m') (ex m) 0 pk.h n hn e5 j j.2 (by simpa [sh] using hj)
  simpa [ex, Ideal.rand] using this

variable {K : Nat} {n : Fin K → Nat}

theorem present_linked (P : Params F G1 G2 GT) (a : Wallet F G1 G2 K n) (link : Links n L) (claims : List Bytes) (nonce : F) (β : Fin L → F) (ω : (i : Fin K) → Ideal F (n i)) :
    a.presentLinked P link claims nonce β (fun i => (ω i).rand) = a.present P claims nonce fun i => (tie (a.shown i) (link i) β (ω i)).rand := by
  unfold Wallet.presentLinked Wallet.present
  simp only [init_linked]

open Classical in
/-- what is seen, and the blindings that are not used -/
noncomputable def seen (P : Params F G1 G2 GT) (a : Wallet F G1 G2 K n) (link : Links n L) (c : F) (ω : (Fin L → F) × Coins F n) :
    ((i : Fin K) → SigProof F G1 × (Fin (n i) → F)) × ((i : Fin K) → Fin (n i) → F) × (Fin L → F) :=
  (fun i => view P (a.pk i) (a.shown i) (a.sig i) (a.m i) c (tie (a.shown i) (link i) ω.1 (ω.2 i)),
    fun i j => if a.shown i j = false ∧ (link i j).isSome then (ω.2 i).2.2.2 j else 0,
    fun l => if ∃ i j, a.shown i j = false ∧ link i j = some l then 0 else ω.1 l)

variable [Finite F]

theorem moved (P : Params F G1 G2 GT) (hcyc : ∀ a b : G1, a ≠ 0 → ∃ k : F, b = k • a) (hgood : Nondeg P) (a b : Wallet F G1 G2 K n) (ha : a.Valid P) (hb : b.Valid P)
    (hlook : a.LooksLike b) (link : Links n L) (hra : a.Respects link) (hrb : b.Respects link) (claims : List Bytes) (nonce : F) :
    ∃ φ : (Fin L → F) × Coins F n → (Fin L → F) × Coins F n, Function.Bijective φ ∧
      ∀ ω, b.presentLinked P link claims nonce (φ ω).1 (fun i => ((φ ω).2 i).rand) = a.presentLinked P link claims nonce ω.1 fun i => (ω.2 i).rand := by
  classical
  obtain ⟨pk, shown, sig, m⟩ := a
  obtain ⟨pk', shown', sig', m'⟩ := b
  obtain ⟨h1, h2, hagree⟩ := hlook
  obtain ⟨s, hs⟩ := hra
  obtain ⟨s', hs'⟩ := hrb
  dsimp only at h1 h2 hagree
  subst h1 h2
  have hl : ∀ i, n i = (pk i).h.length := fun i => by simpa using ((verify_true_pairing P _ _ _).1 (ha i).1).1
  have hrev : ∀ i, revealedOf 0 (marked (shown i) (m i)) = revealedOf 0 (marked (shown i) (m' i)) := fun i => revealed_eq (shown i) (m i) (m' i) (hagree i)
  have hv := fun i => (ha i).1
  have hv' := fun i => (hb i).1
  dsimp only at hv hv' hs hs'
  obtain ⟨φ, hbij, hφ⟩ := fs_bijective
    (fun ω : (Fin L → F) × Coins F n => bytes P (⟨pk, shown, sig, m⟩ : Wallet F G1 G2 K n) fun i => (tie (shown i) (link i) ω.1 (ω.2 i)).rand)
    (fun ω : (Fin L → F) × Coins F n => bytes P (⟨pk, shown, sig', m'⟩ : Wallet F G1 G2 K n) fun i => (tie (shown i) (link i) ω.1 (ω.2 i)).rand)
    (seen P (⟨pk, shown, sig, m⟩ : Wallet F G1 G2 K n) link) (seen P (⟨pk, shown, sig', m'⟩ : Wallet F G1 G2 K n) link)
    (fun c ω ω' h => by
      obtain ⟨β, ω⟩ := ω
      obtain ⟨β', ω'⟩ := ω'
      unfold seen at h
      rw [Prod.mk.injEq, Prod.mk.injEq] at h
      obtain ⟨e1, e2, e3⟩ := h
      have ht : ∀ i, tie (shown i) (link i) β (ω i) = tie (shown i) (link i) β' (ω' i) := fun i => by
        obtain ⟨x, hx⟩ := (ha i).2.2
        exact view_injective P (pk i) (hl i).symm (ha i).2.1.1 (shown i) (sig i) ((bbs_verify_iff P hgood _ _ _ x hx).1 (hv i)).2.1.1 (m i) c (congrFun e1 i)
      have hbl : ∀ i j, (if shown i j then (ω i).2.2.2 j else (link i j).elim ((ω i).2.2.2 j) β) = (if shown i j then (ω' i).2.2.2 j else (link i j).elim ((ω' i).2.2.2 j) β') :=
        fun i j => congrFun (congrArg (fun w : Ideal F (n i) => w.2.2.2) (ht i)) j
      refine Prod.ext (funext fun l => ?_) (funext fun i => ?_)
      · by_cases hu : ∃ i j, shown i j = false ∧ link i j = some l
        · obtain ⟨i, j, h1, h2⟩ := hu
          simpa [h1, h2] using hbl i j
        · have := congrFun e3 l
          dsimp only at this
          rwa [if_neg hu, if_neg hu] at this
      · have h1 : (ω i).1 = (ω' i).1 := by
          have := congrArg (fun w : Ideal F (n i) => w.1) (ht i)
          exact this
        have h2 : (ω i).2.1 = (ω' i).2.1 := by
          have := congrArg (fun w : Ideal F (n i) => w.2.1) (ht i)
          exact this
        have h3 : (ω i).2.2.1 = (ω' i).2.2.1 := by
          have := congrArg (fun w : Ideal F (n i) => w.2.2.1) (ht i)
          exact this
        refine Prod.ext h1 (Prod.ext h2 (Prod.ext h3 (funext fun j => ?_)))
        cases hsj : shown i j
        · cases hk : link i j with
          | none => simpa [hsj, hk] using hbl i j
          | some l =>
            have := congrFun (congrFun e2 i) j
            simpa [hsj, hk] using this
        · simpa [hsj] using hbl i j)
    (fun c ω => by
      obtain ⟨β, ω⟩ := ω
      have : ∀ i, ∃ ω', view P (pk i) (shown i) (sig' i) (m' i) c ω' = view P (pk i) (shown i) (sig i) (m i) c (tie (shown i) (link i) β (ω i)) := fun i => by
        obtain ⟨x, hx⟩ := (ha i).2.2
        exact view_exists P hcyc x (pk i) (ha i).2.1 hx hgood (shown i) (sig i) (sig' i) (m i) (m' i) (hv i) (hv' i) (hagree i) c _
      choose ω' h using this
      refine ⟨(fun l => if ∃ i j, shown i j = false ∧ link i j = some l then β l + c * (s' l - s l) else β l,
        fun i => ((ω' i).1, (ω' i).2.1, (ω' i).2.2.1, fun j => if shown i j = false ∧ (link i j).isSome then (ω i).2.2.2 j else (ω' i).2.2.2 j)), ?_⟩
      unfold seen
      refine Prod.ext (funext fun i => ?_) (Prod.ext (funext fun i => funext fun j => ?_) (funext fun l => ?_))
      · dsimp only
        rw [← h i]
        congr 1
        refine Prod.ext rfl (Prod.ext rfl (Prod.ext rfl (funext fun j => ?_)))
        unfold tie
        dsimp only
        cases hsj : shown i j
        · cases hk : link i j with
          | none => simp
          | some l =>
            have hr := view_response P (pk i) (hl i).symm (shown i) (sig i) (sig' i) (m i) (m' i) c _ _ (h i) j hsj
            have hu : ∃ i j, shown i j = false ∧ link i j = some l := ⟨i, j, hsj, hk⟩
            rw [hs' i j l hsj hk, hs i j l hsj hk] at hr
            unfold tie at hr
            simp only [hsj, hk, Bool.false_eq_true, if_false, Option.elim_some] at hr ⊢
            rw [if_pos hu]
            linear_combination -hr
        · simp
      · dsimp only
        split <;> rfl
      · dsimp only
        split <;> rfl)
    (fun c ω ω' h => bytes_congr P pk shown sig sig' m m' hrev c _ _ fun i => congrFun (Prod.mk.inj h).1 i)
    (fun b => P.hashFr (b ++ P.encF.enc nonce ++ claims.flatten))
  refine ⟨φ, hbij, fun ω => ?_⟩
  obtain ⟨e1, e2⟩ := hφ ω
  rw [present_linked, present_linked, present_eq P (⟨pk, shown, sig', m'⟩ : Wallet F G1 G2 K n) hv', present_eq P (⟨pk, shown, sig, m⟩ : Wallet F G1 G2 K n) hv]
  dsimp only at e1 e2 ⊢
  rw [e1]
  congr 2
  refine List.map_congr_left fun i _ => ?_
  have := (Prod.mk.inj (congrFun (Prod.mk.inj e2).1 i)).1
  dsimp only at this
  rw [this, hrev i]
end Linked

variable [Fintype F]

/-- **C237** Whichever of two wallets that look alike and have linked messages in the same places is presented, any test of what is shown says yes with the same probability but for the
chance that a factor `r2` is zero. -/
theorem bbs_linked_unlinkable (P : Params F G1 G2 GT) (hcyc : ∀ a b : G1, a ≠ 0 → ∃ k : F, b = k • a) (hgood : Nondeg P) {K L : Nat} {n : Fin K → Nat} (a b : Wallet F G1 G2 K n)
    (ha : a.Valid P) (hb : b.Valid P) (hlook : a.LooksLike b) (link : Links n L) (hra : a.Respects link) (hrb : b.Respects link) (claims : List Bytes) (nonce : F)
    (test : Res Error (List (SignatureProof F G1) × F) → Prop) :
    |pr (fun ω : (Fin L → F) × WalletCoins F n => test (a.presentLinked P link claims nonce ω.1 fun i => (ω.2 i).rand)) -
      pr (fun ω : (Fin L → F) × WalletCoins F n => test (b.presentLinked P link claims nonce ω.1 fun i => (ω.2 i).rand))| ≤ 2 * (K / Fintype.card F) := by
  let e (ω : (Fin L → F) × WalletCoins F n) : (Fin L → F) × Together.Coins F n := (ω.1, fun i => ((ω.2 i).1, (ω.2 i).2.1.1, (ω.2 i).2.2))
  have he : Function.Injective e := by
    intro ω ω' h
    refine Prod.ext (Prod.mk.inj h).1 (funext fun i => ?_)
    have := congrFun (Prod.mk.inj h).2 i
    obtain ⟨h1, h2, h3⟩ := Prod.mk.inj this |>.imp id Prod.mk.inj
    exact Prod.ext h1 (Prod.ext (Subtype.ext h2) h3)
  have hne : Nonempty {r : F // r ≠ 0} := ⟨⟨1, one_ne_zero⟩⟩
  have hbad : pr (fun ω : (Fin L → F) × Together.Coins F n => ∃ i, (ω.2 i).2.1 = 0) ≤ K / Fintype.card F := by
    rw [CS.pr_snd (fun ω : Together.Coins F n => ∃ i, (ω i).2.1 = 0)]
    refine (SDH.pr_exists_fin _ (1 / Fintype.card F) fun i => ?_).trans (by rw [mul_one_div])
    classical
    rw [pr_at (X := fun i => Unlink.Ideal F (n i)) i (fun w : Unlink.Ideal F (n i) => w.2.1 = 0), CS.pr_snd (fun w : F × (F × F × F × F) × (Fin (n i) → F) => w.1 = 0),
      pr_fst (fun r : F => r = 0)]
    exact SDH.pr_one_case _ fun a b ha hb => ha.trans hb.symm
  have hsurj : ∀ ω : (Fin L → F) × Together.Coins F n, ¬ (∃ i, (ω.2 i).2.1 = 0) → ∃ ω', e ω' = ω := fun ω h =>
    ⟨(ω.1, fun i => ((ω.2 i).1, ⟨(ω.2 i).2.1, fun h0 => h ⟨i, h0⟩⟩, (ω.2 i).2.2)), rfl⟩
  have c1 := (pr_restrict e he (fun ω => test (a.presentLinked P link claims nonce ω.1 fun i => (ω.2 i).rand)) _ hsurj).trans hbad
  have c2 := (pr_restrict e he (fun ω => test (b.presentLinked P link claims nonce ω.1 fun i => (ω.2 i).rand)) _ hsurj).trans hbad
  obtain ⟨φ, hφ, h⟩ := Linked.moved P hcyc hgood a b ha hb hlook link hra hrb claims nonce
  rw [← pr_bijective _ hφ fun ω => test (b.presentLinked P link claims nonce ω.1 fun i => (ω.2 i).rand)] at c2
  simp only [h] at c2
  change |pr (fun ω : (Fin L → F) × WalletCoins F n => test (a.presentLinked P link claims nonce (e ω).1 fun i => ((e ω).2 i).rand)) -
    pr (fun ω : (Fin L → F) × WalletCoins F n => test (b.presentLinked P link claims nonce (e ω).1 fun i => ((e ω).2 i).rand))| ≤ _
  rw [abs_le] at *
  constructor <;> linarith [c1.1, c1.2, c2.1, c2.2]
end Verif.BBS

/-! ## The hypotheses are met: two credentials with the second message in common, shown to be so -/

namespace Verif.BBS.Toy
open Verif.Toy Verif.Forking
local instance : Fact (Nat.Prime 101) := fact101

/-- the second message of both -/
def secondOfBoth : Links (fun _ : Fin 2 => 3) 1 := fun _ => ![none, some 0, none]

def others : Wallet (ZMod 101) (ZMod 101) (ZMod 101) 2 fun _ => 3 := ⟨fun _ => key, fun _ => ![true, false, false], fun _ => sig2, fun _ => ![4, 50, 60]⟩

theorem others_valid : others.Valid par := fun _ => ⟨sig2_ok, wf, 7, key_w⟩

/-- is the common message 6 or 50? -/
example (claims : List Bytes) (test : Res Error (List (SignatureProof (ZMod 101) (ZMod 101)) × ZMod 101) → Prop) :
    |pr (fun ω : (Fin 1 → ZMod 101) × WalletCoins (ZMod 101) (fun _ : Fin 2 => 3) => test (same.presentLinked par secondOfBoth claims 5 ω.1 fun i => (ω.2 i).rand)) -
      pr (fun ω : (Fin 1 → ZMod 101) × WalletCoins (ZMod 101) (fun _ : Fin 2 => 3) => test (others.presentLinked par secondOfBoth claims 5 ω.1 fun i => (ω.2 i).rand))|
      ≤ 2 * ((2 : ℕ) / Fintype.card (ZMod 101)) :=
  bbs_linked_unlinkable par (fun a b ha => ⟨b * a⁻¹, by rw [smul_eq_mul, mul_assoc, inv_mul_cancel₀ ha, mul_one]⟩) nondeg same others same_valid others_valid
    ⟨rfl, rfl, fun i j hj => by
      match j with
      | 0 => rfl
      | 1 => cases hj
      | 2 => cases hj⟩ secondOfBoth
    ⟨fun _ => 6, fun i j l _ hk => by
      match j with
      | 0 => cases hk
      | 1 => rfl
      | 2 => cases hk⟩
    ⟨fun _ => 50, fun i j l _ hk => by
      match j with
      | 0 => cases hk
      | 1 => rfl
      | 2 => cases hk⟩ claims 5 test

/-- a presentation of both is made, and the verifier sees equal responses for the second messages -/
example (β : Fin 1 → ZMod 101) (ω : (i : Fin 2) → Unlink.Ideal (ZMod 101) 3) : ∃ p q c, same.presentLinked par secondOfBoth [] 5 β (fun i => (ω i).rand) = .ok ([p, q], c) ∧
    p.proof.vc2.responses[2]? = q.proof.vc2.responses[2]? := by
  refine ⟨_, _, _, (Linked.present_linked par same secondOfBoth [] 5 β ω).trans (Together.present_eq par same (fun i => (same_valid i).1) [] 5 _), ?_⟩
  rfl
end Verif.BBS.Toy
