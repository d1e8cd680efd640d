import Verif.Props.CLHiding
set_option linter.unusedVariables false
set_option linter.unusedSimpArgs false
set_option linter.unusedSectionVars false
/-!
# What presentations of CL credentials give away (C188, C189)
-/
namespace Verif.CL
open Verif BN

section
variable {F G1 G2 GT : Type} [Field F] [AddCommGroup G1] [Module F G1] [AddCommGroup G2] [Module F G2]
  [AddCommGroup GT] [Module F GT]

/-- `sp` is the sub proof for `it` in a presentation with challenge `c` and masks `common` of common attributes -/
def MadeFor (cv : Conv F G1 G2 GT) (mode : Overflow) (ord ordF : SetOrder) (e : G1 →ₗ[F] G2 →ₗ[F] GT) (common : Map Int) (c : Int) (it : Item F G1 G2 GT)
    (sp : SubProof F G1 G2) : Prop :=
  ∃ pi : PrimaryInit, initPrimaryProof mode ord common it.pk.pKey it.sig.p it.vals it.schema it.nonSchema it.req
      ((initNonRevoc e it.sig it.reg it.pk.rKey it.witness it.x).map fun i => cv.ofF i.tauParams.m2) it.rnd it.nrnd = .ok pi ∧
    finalizeSubProof cv ordF c ⟨pi, initNonRevoc e it.sig it.reg it.pk.rKey it.witness it.x, it.vals, it.req, it.schema, it.nonSchema⟩ = .ok sp

theorem mapM_forall₂ {α β ε : Type} (f : α → Res ε β) : ∀ (l : List α) (r : List β), l.mapM f = .ok r → List.Forall₂ (fun a b => f a = .ok b) l r
  | [], r, h => by rw [List.mapM_nil, Res.pure_eq, Res.ok.injEq] at h; rw [← h]; exact .nil
  | a :: l, r, h => by
    rw [List.mapM_cons] at h
    obtain ⟨b, hb, h⟩ := Res.bind_eq_ok.1 h
    obtain ⟨r', hr, h⟩ := Res.bind_eq_ok.1 h
    rw [Res.pure_eq, Res.ok.injEq] at h
    rw [← h]
    exact .cons hb (mapM_forall₂ f l r' hr)

theorem forall₂_chain {α β γ : Type} {r : α → β → Prop} {s : β → γ → Prop} {t : α → γ → Prop} (h : ∀ a b c, r a b → s b c → t a c) :
    ∀ {l1 : List α} {l2 : List β} {l3 : List γ}, List.Forall₂ r l1 l2 → List.Forall₂ s l2 l3 → List.Forall₂ t l1 l3
  | _, _, _, .nil, .nil => .nil
  | _, _, _, .cons x f, .cons y g => .cons (h _ _ _ x y) (forall₂_chain h f g)

theorem forall₂_get {α β : Type} {r : α → β → Prop} {l1 : List α} {l2 : List β} (f : List.Forall₂ r l1 l2) {j : Nat} {a : α} (h : l1[j]? = some a) :
    ∃ b, l2[j]? = some b ∧ r a b := by
  have hlt : j < l1.length := (List.getElem?_eq_some_iff.1 h).1
  have hlt2 : j < l2.length := by rw [← f.length_eq]; exact hlt
  refine ⟨l2[j], List.getElem?_eq_getElem hlt2, ?_⟩
  have := f.get hlt hlt2
  have he : l1.get ⟨j, hlt⟩ = a := (List.getElem?_eq_some_iff.1 h).2
  rwa [he] at this

/-- a presentation consists of one sub proof for each credential, in order -/
theorem present_made (e : G1 →ₗ[F] G2 →ₗ[F] GT) (cv : Conv F G1 G2 GT) (mode : Overflow) (sha : Bytes → Bytes) (ord ordF : SetOrder) (commons : List (String × Int))
    (items : List (Item F G1 G2 GT)) (nonce : Int) (π : Proof F G1 G2) (h : present e cv mode sha ord ordF commons items nonce = .ok π) :
    ∃ common, List.Forall₂ (MadeFor cv mode ord ordF e common π.cHash) items π.proofs := by
  unfold present at h
  simp only [] at h
  obtain ⟨i1, -, -, -⟩ := builder_commons commons (Builder.new : Builder F G1 G2 GT)
  generalize commons.foldl (fun b c => b.addCommonAttribute c.1 c.2) (Builder.new : Builder F G1 G2 GT) = b0 at *
  obtain ⟨b, hb, h⟩ := Res.bind_eq_ok.1 h
  have key : ∀ (l : List (Item F G1 G2 GT)) (b0 b : Builder F G1 G2 GT), l.foldlM (fun b it =>
      b.addSubProofRequest e cv mode ord it.req it.schema it.nonSchema it.sig it.vals it.pk it.reg it.witness it.x it.rnd it.nrnd) b0 = .ok b →
      ∃ inis, b.inits = b0.inits ++ inis ∧ List.Forall₂ (fun it ini => ∃ pi : PrimaryInit, initPrimaryProof mode ord b0.common it.pk.pKey it.sig.p it.vals it.schema it.nonSchema it.req
        ((initNonRevoc e it.sig it.reg it.pk.rKey it.witness it.x).map fun i => cv.ofF i.tauParams.m2) it.rnd it.nrnd = .ok pi ∧
        ini = ⟨pi, initNonRevoc e it.sig it.reg it.pk.rKey it.witness it.x, it.vals, it.req, it.schema, it.nonSchema⟩) l inis := by
    intro l
    induction l with
    | nil =>
      intro b0 b hb
      rw [List.foldlM_nil, Res.pure_eq, Res.ok.injEq] at hb
      exact ⟨[], by rw [hb, List.append_nil], .nil⟩
    | cons it l ih =>
      intro b0 b hb
      rw [List.foldlM_cons] at hb
      obtain ⟨b1, h1, hb⟩ := Res.bind_eq_ok.1 hb
      unfold Builder.addSubProofRequest at h1
      obtain ⟨_, -, h1⟩ := Res.bind_eq_ok.1 h1
      simp only [] at h1
      obtain ⟨pi, hpi, h1⟩ := Res.bind_eq_ok.1 h1
      rw [Res.pure_eq, Res.ok.injEq] at h1
      obtain ⟨inis, e1, f⟩ := ih b1 b hb
      have e2 : b1.common = b0.common := by rw [← h1]
      rw [e2] at f
      refine ⟨_ :: inis, ?_, .cons ⟨pi, hpi, rfl⟩ f⟩
      rw [e1, ← h1]
      simp only [List.append_assoc, List.singleton_append]
  obtain ⟨inis, e1, f⟩ := key items b0 b hb
  rw [i1] at e1
  unfold Builder.finalize at h
  simp only [] at h
  obtain ⟨sps, hs, h⟩ := Res.bind_eq_ok.1 h
  rw [Res.pure_eq, Res.ok.injEq] at h
  refine ⟨b0.common, ?_⟩
  rw [← h]
  simp only []
  have g := mapM_forall₂ _ _ _ hs
  rw [e1] at g
  simp only [Builder.new, List.nil_append] at g
  exact forall₂_chain (fun it ini sp h hg => by obtain ⟨pi, h1, rfl⟩ := h; exact ⟨pi, h1, hg⟩) f g

/-- the responses for the context and for the non-revocation part -/
theorem made_context (cv : Conv F G1 G2 GT) (mode : Overflow) (ord ordF : SetOrder) (e : G1 →ₗ[F] G2 →ₗ[F] GT) (common : Map Int) (c : Int) (it : Item F G1 G2 GT)
    (sp : SubProof F G1 G2) (h : MadeFor cv mode ord ordF e common c it sp) {rc acc rk w} (h1 : it.sig.r = some rc) (h2 : it.reg = some acc) (h3 : it.pk.rKey = some rk)
    (h4 : it.witness = some w) :
    sp.primary.eq.m2 = c * it.sig.p.m2 + cv.ofF it.x.tau.m2 ∧ ∃ x cl, sp.nonRevoc = some (x, cl) ∧ x.m2 = it.x.tau.m2 - cv.toF c * rc.m2 := by
  obtain ⟨pi, hi, hf⟩ := h
  unfold finalizeSubProof at hf
  simp only [] at hf
  obtain ⟨nr, hnr, hf⟩ := Res.bind_eq_ok.1 hf
  obtain ⟨p, hp, hf⟩ := Res.bind_eq_ok.1 hf
  rw [Res.pure_eq, Res.ok.injEq] at hf
  unfold initNonRevoc at hi hnr
  rw [h1, h2, h3, h4] at hi hnr
  simp only [Option.map_some] at hi hnr
  constructor
  · rw [← hf]
    unfold finalizePrimaryProof at hp
    obtain ⟨eq, heq, hp⟩ := Res.bind_eq_ok.1 hp
    obtain ⟨ne, -, hp⟩ := Res.bind_eq_ok.1 hp
    rw [Res.pure_eq, Res.ok.injEq] at hp
    rw [← hp]
    unfold finalizeEqProof at heq
    obtain ⟨m, -, heq⟩ := Res.bind_eq_ok.1 heq
    obtain ⟨rev, -, heq⟩ := Res.bind_eq_ok.1 heq
    rw [Res.pure_eq, Res.ok.injEq] at heq
    rw [← heq]
    unfold initPrimaryProof at hi
    obtain ⟨eqi, heqi, hi⟩ := Res.bind_eq_ok.1 hi
    obtain ⟨nei, -, hi⟩ := Res.bind_eq_ok.1 hi
    rw [Res.pure_eq, Res.ok.injEq] at hi
    rw [← hi]
    unfold initEqProof at heqi
    simp only [] at heqi
    obtain ⟨sr, -, heqi⟩ := Res.bind_eq_ok.1 heqi
    obtain ⟨ap, -, heqi⟩ := Res.bind_eq_ok.1 heqi
    obtain ⟨t, -, heqi⟩ := Res.bind_eq_ok.1 heqi
    rw [Res.pure_eq, Res.ok.injEq] at heqi
    rw [← heqi]
    rfl
  · rw [← hf]
    unfold finalizeNonRevocOpt at hnr
    obtain ⟨q, hq, hnr⟩ := Res.bind_eq_ok.1 hnr
    rw [Res.pure_eq, Res.ok.injEq] at hnr
    refine ⟨q.1, q.2, by rw [← hnr], ?_⟩
    cases hq
    show it.x.tau.m2 + -(cv.toF c * rc.m2) = _
    rw [sub_eq_add_neg]

/-! ## C188: presentations with a non-revocation part identify the credential -/

/-- A number that anybody computes from sub proof `j` of a presentation with a non-revocation part.  Both parts answer the challenge with a response for the credential
context, and with the same mask: `c m2 + m` in the one, `m - c m2` in the other. -/
def tag (π : Proof F G1 G2) (j : Nat) : Option F :=
  (π.proofs[j]?).bind fun sp => sp.nonRevoc.map fun nr => ((sp.primary.eq.m2 : F) - nr.1.m2) / (π.cHash : F)

/-- **C188.** The tag of every presentation of a credential is the same: twice the credential context, for which the issuer has taken the hash of the holder's id and the
credential's index in the registry.  It does not depend on any random value. -/
theorem nonrev_tag (e : G1 →ₗ[F] G2 →ₗ[F] GT) (cv : Conv F G1 G2 GT) (mode : Overflow) (sha : Bytes → Bytes) (ord ordF : SetOrder) (commons : List (String × Int))
    (items : List (Item F G1 G2 GT)) (nonce : Int) (π : Proof F G1 G2) (h : present e cv mode sha ord ordF commons items nonce = .ok π) (j : Nat) (it : Item F G1 G2 GT)
    (hj : items[j]? = some it) (rc acc rk w) (h1 : it.sig.r = some rc) (h2 : it.reg = some acc) (h3 : it.pk.rKey = some rk) (h4 : it.witness = some w)
    (hofF : ∀ y : F, (cv.ofF y : F) = y) (htoF : cv.toF π.cHash = (π.cHash : F)) (hc : (π.cHash : F) ≠ 0) (hm2 : rc.m2 = (it.sig.p.m2 : F)) :
    tag π j = some (2 * (it.sig.p.m2 : F)) := by
  obtain ⟨common, f⟩ := present_made e cv mode sha ord ordF commons items nonce π h
  obtain ⟨sp, hsp, hm⟩ := forall₂_get f hj
  obtain ⟨a, x, cl, b, d⟩ := made_context cv mode ord ordF e common π.cHash it sp hm h1 h2 h3 h4
  unfold tag
  rw [hsp, Option.bind_some, b, Option.map_some, a, d]
  congr 1
  rw [htoF, hm2]
  push_cast
  rw [hofF]
  field_simp
  ring

/-- **C188**: so whoever sees two presentations can tell whether they show the same credential or not: the tags agree if and only if the contexts do. -/
theorem nonrev_presentations_linkable (e : G1 →ₗ[F] G2 →ₗ[F] GT) (cv : Conv F G1 G2 GT) (mode : Overflow) (sha : Bytes → Bytes) (ord ordF : SetOrder)
    (commons1 commons2 : List (String × Int)) (items1 items2 : List (Item F G1 G2 GT)) (nonce1 nonce2 : Int) (π1 π2 : Proof F G1 G2)
    (hp1 : present e cv mode sha ord ordF commons1 items1 nonce1 = .ok π1) (hp2 : present e cv mode sha ord ordF commons2 items2 nonce2 = .ok π2)
    (j1 j2 : Nat) (it1 it2 : Item F G1 G2 GT) (hj1 : items1[j1]? = some it1) (hj2 : items2[j2]? = some it2)
    (rc1 acc1 rk1 w1 rc2 acc2 rk2 w2)
    (a1 : it1.sig.r = some rc1) (b1 : it1.reg = some acc1) (c1 : it1.pk.rKey = some rk1) (d1 : it1.witness = some w1) (m1 : rc1.m2 = (it1.sig.p.m2 : F))
    (a2 : it2.sig.r = some rc2) (b2 : it2.reg = some acc2) (c2 : it2.pk.rKey = some rk2) (d2 : it2.witness = some w2) (m2 : rc2.m2 = (it2.sig.p.m2 : F))
    (hofF : ∀ y : F, (cv.ofF y : F) = y) (htoF : ∀ k : Int, cv.toF k = (k : F)) (hc1 : (π1.cHash : F) ≠ 0) (hc2 : (π2.cHash : F) ≠ 0) (odd : (2 : F) ≠ 0) :
    tag π1 j1 = tag π2 j2 ↔ (it1.sig.p.m2 : F) = (it2.sig.p.m2 : F) := by
  rw [nonrev_tag e cv mode sha ord ordF commons1 items1 nonce1 π1 hp1 j1 it1 hj1 rc1 acc1 rk1 w1 a1 b1 c1 d1 hofF (htoF _) hc1 m1,
    nonrev_tag e cv mode sha ord ordF commons2 items2 nonce2 π2 hp2 j2 it2 hj2 rc2 acc2 rk2 w2 a2 b2 c2 d2 hofF (htoF _) hc2 m2, Option.some.injEq]
  exact mul_right_inj' odd

/-! ## C189: presentations with predicates give away the value -/

/-- What an observer checks to see whether the value of the predicate `ne` of a presentation with challenge `c` differs by `d` from the bound: the commitment to the difference
opens to `d` for a blinding factor `k` near the quotient of the response by the challenge. -/
def Fits {n : Nat} (S Z : (ZMod n)ˣ) (c : Int) (ne : NeProof) (d : Int) : Prop :=
  ∃ ρ t, ne.r.lookup "DELTA" = some ρ ∧ ne.t.lookup "DELTA" = some t ∧ ∃ k : Int, |k - ρ / c| ≤ 2 ^ 672 ∧ t = val (Z ^ d * S ^ k)

/-- response and commitment for the difference between value and bound -/
theorem ne_delta {pk : PrimaryPubKey} {n : Nat} {S Z C : (ZMod n)ˣ} {R : String → (ZMod n)ˣ} (hk : KeyUnits pk n S Z C R) (mode : Overflow) (mT : Map Int)
    (vals : Map CredentialValue) (p : Predicate) (rnd : NeRand) (i : NeInit) (h : initNeProof mode pk mT vals p rnd = .ok i) (c : Int) (eq : EqProof) (ne : NeProof)
    (hf : finalizeNeProof c i eq = .ok ne) :
    ∃ v d, vals.lookup p.attrName = some v ∧ p.getDelta mode v.value = .ok d ∧ ne.predicate = p ∧ ne.r.lookup "DELTA" = some (c * rnd.rDelta + rnd.rTDelta) ∧
      ne.t.lookup "DELTA" = some (val (Z ^ d * S ^ rnd.rDelta)) := by
  have full := h
  unfold initNeProof at h
  cases hv : vals.lookup p.attrName with
  | none => rw [hv] at h; cases h
  | some v =>
    rw [hv, Res.ofOption_some, Res.ok_bind] at h
    by_cases hi : InI32 v.value
    · rw [if_neg (not_not.2 hi)] at h
      obtain ⟨d, hd, h⟩ := Res.bind_eq_ok.1 h
      by_cases hd0 : d < 0
      · rw [if_pos hd0] at h; cases h
      · rw [if_neg hd0] at h
        obtain ⟨q, hq, h⟩ := Res.bind_eq_ok.1 h
        simp only [] at h
        obtain ⟨ts, -, h⟩ := Res.bind_eq_ok.1 h
        obtain ⟨tD, -, h⟩ := Res.bind_eq_ok.1 h
        obtain ⟨mj, hmj, h⟩ := Res.bind_eq_ok.1 h
        have hm : mT.lookup p.attrName = some mj := by
          cases hx : mT.lookup p.attrName with
          | none => rw [hx] at hmj; cases hmj
          | some y => rw [hx] at hmj; cases hmj; rfl
        have := (initNe_units hk mode mT vals p rnd hv hi hd (by omega) hq hm).symm.trans full
        rw [Res.ok.injEq] at this
        subst this
        have hmj2 : ∃ y, eq.m.lookup p.attrName = some y := by
          unfold finalizeNeProof at hf
          obtain ⟨_, -, hf⟩ := Res.bind_eq_ok.1 hf
          obtain ⟨_, -, hf⟩ := Res.bind_eq_ok.1 hf
          obtain ⟨_, -, hf⟩ := Res.bind_eq_ok.1 hf
          simp only [] at hf
          obtain ⟨y, hy, hf⟩ := Res.bind_eq_ok.1 hf
          cases hx : eq.m.lookup p.attrName with
          | none => rw [hx] at hy; cases hy
          | some z => exact ⟨z, rfl⟩
        obtain ⟨y, hy⟩ := hmj2
        have g := (finalizeNe_units c _ eq q rnd rfl rfl rfl rfl hy).symm.trans hf
        rw [Res.ok.injEq] at g
        subst g
        exact ⟨v, d, rfl, hd, rfl, (iter_lookup _ _).2, (iter_lookup _ _).2⟩
    · rw [if_pos hi] at h; cases h

/-- the inequality proofs of a sub proof, in the order of the predicates -/
theorem made_predicates (cv : Conv F G1 G2 GT) (mode : Overflow) (ord ordF : SetOrder) (e : G1 →ₗ[F] G2 →ₗ[F] GT) (common : Map Int) (c : Int) (it : Item F G1 G2 GT)
    (sp : SubProof F G1 G2) (h : MadeFor cv mode ord ordF e common c it sp) {n : Nat} {S Z C : (ZMod n)ˣ} {R : String → (ZMod n)ˣ} (hk : KeyUnits it.pk.pKey n S Z C R) :
    List.Forall₂ (fun p ne => ∃ v d, it.vals.lookup p.attrName = some v ∧ p.getDelta mode v.value = .ok d ∧ ne.predicate = p ∧
      ne.r.lookup "DELTA" = some (c * (it.nrnd p).rDelta + (it.nrnd p).rTDelta) ∧ ne.t.lookup "DELTA" = some (val (Z ^ d * S ^ (it.nrnd p).rDelta)))
      it.req.predicates sp.primary.ne := by
  obtain ⟨pi, hi, hf⟩ := h
  unfold finalizeSubProof at hf
  simp only [] at hf
  obtain ⟨nr, -, hf⟩ := Res.bind_eq_ok.1 hf
  obtain ⟨p, hp, hf⟩ := Res.bind_eq_ok.1 hf
  rw [Res.pure_eq, Res.ok.injEq] at hf
  rw [← hf]
  unfold finalizePrimaryProof at hp
  obtain ⟨eq, -, hp⟩ := Res.bind_eq_ok.1 hp
  obtain ⟨ne, hne, hp⟩ := Res.bind_eq_ok.1 hp
  rw [Res.pure_eq, Res.ok.injEq] at hp
  rw [← hp]
  unfold initPrimaryProof at hi
  obtain ⟨eqi, -, hi⟩ := Res.bind_eq_ok.1 hi
  obtain ⟨nei, hnei, hi⟩ := Res.bind_eq_ok.1 hi
  rw [Res.pure_eq, Res.ok.injEq] at hi
  rw [← hi] at hne
  exact forall₂_chain (fun p i ne h1 h2 => ne_delta hk mode eqi.mT it.vals p (it.nrnd p) i h1 c eq ne h2) (mapM_forall₂ _ _ _ hnei) (mapM_forall₂ _ _ _ hne)

/-- **C189.** A presentation with a predicate identifies the difference `d` of the value from the bound, among all candidates: the true difference fits, and another one does not
unless `Z^(d - d')` is one of the few powers of `S` with an exponent of at most 674 bits.  (The blinding factor of the commitment has 2128 bits, but the mask of its response has
only 672.) -/
theorem predicate_value_identified (e : G1 →ₗ[F] G2 →ₗ[F] GT) (cv : Conv F G1 G2 GT) (mode : Overflow) (sha : Bytes → Bytes) (ord ordF : SetOrder) (commons : List (String × Int))
    (items : List (Item F G1 G2 GT)) (nonce : Int) (π : Proof F G1 G2) (h : present e cv mode sha ord ordF commons items nonce = .ok π) (hc : 0 < π.cHash)
    (j : Nat) (it : Item F G1 G2 GT) (hj : items[j]? = some it) {n : Nat} {S Z C : (ZMod n)ˣ} {R : String → (ZMod n)ˣ} (hk : KeyUnits it.pk.pKey n S Z C R)
    (i : Nat) (p : Predicate) (hi : it.req.predicates[i]? = some p) (hr : 0 ≤ (it.nrnd p).rTDelta ∧ (it.nrnd p).rTDelta < 2 ^ 672) :
    ∃ sp ne v d, π.proofs[j]? = some sp ∧ sp.primary.ne[i]? = some ne ∧ ne.predicate = p ∧ it.vals.lookup p.attrName = some v ∧ p.getDelta mode v.value = .ok d ∧
      Fits S Z π.cHash ne d ∧ ∀ d', (∀ k : Int, |k| ≤ 2 ^ 674 → Z ^ (d - d') ≠ S ^ k) → ¬ Fits S Z π.cHash ne d' := by
  obtain ⟨common, f⟩ := present_made e cv mode sha ord ordF commons items nonce π h
  obtain ⟨sp, hsp, hm⟩ := forall₂_get f hj
  obtain ⟨ne, hne, v, d, hv, hd, hpp, hρ, ht⟩ := forall₂_get (made_predicates cv mode ord ordF e common π.cHash it sp hm hk) hi
  have hq : |(it.nrnd p).rDelta - (π.cHash * (it.nrnd p).rDelta + (it.nrnd p).rTDelta) / π.cHash| ≤ 2 ^ 672 := by
    rw [Int.add_comm (π.cHash * _), Int.add_mul_ediv_left _ _ hc.ne', ← sub_sub, sub_right_comm, sub_self, zero_sub, abs_neg,
      abs_of_nonneg (Int.ediv_nonneg hr.1 hc.le)]
    exact (Int.ediv_le_self _ hr.1).trans hr.2.le
  refine ⟨sp, ne, v, d, hsp, hne, hpp, hv, hd, ⟨_, _, hρ, ht, _, hq, rfl⟩, ?_⟩
  rintro d' hz ⟨ρ, t, h1, h2, k, h3, h4⟩
  have hn0 := neZero_of hk.hn
  rw [hρ, Option.some.injEq] at h1
  rw [ht, Option.some.injEq] at h2
  rw [← h1] at h3
  rw [← h2] at h4
  have h5 := val_injective h4
  refine hz (k - (it.nrnd p).rDelta) ?_ ?_
  · have h6 : |k - (it.nrnd p).rDelta| ≤ 2 ^ 672 + 2 ^ 672 := by
      refine (abs_sub_le k ((π.cHash * (it.nrnd p).rDelta + (it.nrnd p).rTDelta) / π.cHash) _).trans (add_le_add h3 ?_)
      rw [abs_sub_comm]
      exact hq
    refine h6.trans ?_
    rw [show (2 : Int) ^ 674 = 2 ^ 672 * 4 from pow_add 2 672 2]
    have : (0 : Int) < 2 ^ 672 := pow_pos (by norm_num) _
    generalize (2 : Int) ^ 672 = X at *
    omega
  · rw [zpow_sub, zpow_sub, ← div_eq_mul_inv, ← div_eq_mul_inv, div_eq_div_iff_mul_eq_mul, h5, mul_comm]

end

/-! ## The hypotheses are met -/

section
variable {F G1 G2 GT : Type} [Field F] [AddCommGroup G1] [Module F G1] [AddCommGroup G2] [Module F G2]
  [AddCommGroup GT] [Module F GT]

theorem present_hash (e : G1 →ₗ[F] G2 →ₗ[F] GT) (cv : Conv F G1 G2 GT) (mode : Overflow) (sha : Bytes → Bytes) (ord ordF : SetOrder) (commons : List (String × Int))
    (items : List (Item F G1 G2 GT)) (nonce : Int) (π : Proof F G1 G2) (h : present e cv mode sha ord ordF commons items nonce = .ok π) :
    ∃ l, π.cHash = getHashAsInt sha l := by
  unfold present at h
  simp only [] at h
  obtain ⟨b, -, h⟩ := Res.bind_eq_ok.1 h
  unfold Builder.finalize at h
  simp only [] at h
  obtain ⟨sps, -, h⟩ := Res.bind_eq_ok.1 h
  rw [Res.pure_eq, Res.ok.injEq] at h
  exact ⟨_, by rw [← h]⟩

end

namespace Toy77
open Rev

/-- a credential with the context 9 of the toy non-revocation credential -/
def sig9 : PrimarySig := ⟨9, 16, 7, 8⟩

theorem signed9 : CLEquation (u 4) (u 9) (u 16) R (u 16) sig9.e sig9.v sig9.m2 vals := by
  unfold CLEquation attrProd signedAttrs
  have : vals.filter (fun e => e.2.isKnown || e.2.isHidden) = vals := by decide
  rw [this]
  simp only [sig9, vals, List.map_cons, List.map_nil, List.prod_cons, List.prod_nil, CredentialValue.value, mul_one, zpow30]
  ext
  decide +kernel

/-- the credential, with its non-revocation part -/
def item9 : Item (ZMod 101) (ZMod 101 × ZMod 101) (ZMod 101) (ZMod 101 × ZMod 101) :=
  { item (ZMod 101) (ZMod 101 × ZMod 101) (ZMod 101) (ZMod 101 × ZMod 101) with
      sig := ⟨sig9, some toySig⟩, pk := ⟨pk, some toyPub⟩, reg := some 2, revKeyPub := some (4, 0), witness := some 0 }

theorem honest9 : Honest pair2 item9 := by
  have h := honest pair2
  refine ⟨⟨77, u 4, u 9, u 16, R, u 16, key, (⟨by decide, by decide⟩ : Rep (16 : Int) (u 16)), signed9⟩, h.distinct, h.noCommitment, h.attrs, h.covered, h.revealed, h.predicates, h.rand, ?_⟩
  intro rc acc rk w h1 h2 h3 h4
  cases h1; cases h2; cases h3; cases h4
  exact ⟨_, rfl, toy_authentic⟩

/-- conversions: a number is taken modulo 101 -/
def conv101 : Conv (ZMod 101) (ZMod 101 × ZMod 101) (ZMod 101) (ZMod 101 × ZMod 101) := ⟨fun _ => [], fun _ => [], fun _ => [], fun k => (k : ZMod 101), fun y => (ZMod.val y : Int)⟩

theorem conv101_ofF (y : ZMod 101) : ((conv101.ofF y : Int) : ZMod 101) = y := by
  show (((ZMod.val y : Nat) : Int) : ZMod 101) = y
  rw [Int.cast_natCast, ZMod.natCast_zmod_val]

/-- a hash function, for the example -/
def sha7 : Bytes → Bytes := fun _ => [7]

theorem sha7_int (l : List Bytes) : getHashAsInt sha7 l = 7 := rfl

/-- `nonrev_tag` applies: two presentations of the same credential with different nonces exist, and both have the tag 18 -/
example : ∃ π1 π2, present pair2 conv101 .checked sha7 ord ord [] [item9] 1 = .ok π1 ∧ present pair2 conv101 .checked sha7 ord ord [] [item9, item9] 2 = .ok π2 ∧
    tag π1 0 = some 18 ∧ tag π2 1 = some 18 := by
  obtain ⟨π1, -, p1, -⟩ := honest_presentation_accepted pair2 conv101 .checked sha7 ord ord ord [] [] (by simp) [item9] (fun _ => 0)
    (fun it hit => by rw [List.mem_singleton.1 hit]; exact ⟨honest9, by simp⟩) 1
  obtain ⟨π2, -, p2, -⟩ := honest_presentation_accepted pair2 conv101 .checked sha7 ord ord ord [] [] (by simp) [item9, item9] (fun _ => 0)
    (fun it hit => by
      simp only [List.mem_cons, List.not_mem_nil, or_false, or_self] at hit
      rw [hit]; exact ⟨honest9, by simp⟩) 2
  obtain ⟨l1, c1⟩ := present_hash pair2 conv101 .checked sha7 ord ord [] _ 1 π1 p1
  obtain ⟨l2, c2⟩ := present_hash pair2 conv101 .checked sha7 ord ord [] _ 2 π2 p2
  rw [sha7_int] at c1 c2
  refine ⟨π1, π2, p1, p2, ?_, ?_⟩
  · rw [nonrev_tag pair2 conv101 .checked sha7 ord ord [] _ 1 π1 p1 0 item9 rfl toySig 2 toyPub 0 rfl rfl rfl rfl conv101_ofF rfl (by rw [c1]; decide)
      (by show (9 : ZMod 101) = ((9 : Int) : ZMod 101); decide)]
    show some (2 * ((9 : Int) : ZMod 101)) = some 18
    decide
  · rw [nonrev_tag pair2 conv101 .checked sha7 ord ord [] _ 2 π2 p2 1 item9 rfl toySig 2 toyPub 0 rfl rfl rfl rfl conv101_ofF rfl (by rw [c2]; decide)
      (by show (9 : ZMod 101) = ((9 : Int) : ZMod 101); decide)]
    show some (2 * ((9 : Int) : ZMod 101)) = some 18
    decide

/-- a key whose `Z` is not a power of `S` -/
def pkN : PrimaryPubKey := { pk with z := 38 }
def sigN : PrimarySig := ⟨3, 3, 7, 5⟩

theorem keyN : KeyUnits pkN 77 (u 4) (u 38) (u 16) R := ⟨key.hn, key.n_eq, key.s, ⟨by decide, by decide⟩, key.c, key.r⟩

theorem signedN : CLEquation (u 4) (u 38) (u 16) R (u 3) sigN.e sigN.v sigN.m2 vals := by
  unfold CLEquation attrProd signedAttrs
  have : vals.filter (fun e => e.2.isKnown || e.2.isHidden) = vals := by decide
  rw [this]
  simp only [sigN, vals, List.map_cons, List.map_nil, List.prod_cons, List.prod_nil, CredentialValue.value, mul_one, zpow30]
  ext
  decide +kernel

def itemN : Item (ZMod 101) (ZMod 101 × ZMod 101) (ZMod 101) (ZMod 101 × ZMod 101) :=
  { item (ZMod 101) (ZMod 101 × ZMod 101) (ZMod 101) (ZMod 101 × ZMod 101) with sig := ⟨sigN, none⟩, pk := ⟨pkN, none⟩ }

theorem honestN : Honest pair2 itemN := by
  have h := honest pair2
  refine ⟨⟨77, u 4, u 38, u 16, R, u 3, keyN, (⟨by decide, by decide⟩ : Rep (3 : Int) (u 3)), signedN⟩, h.distinct, h.noCommitment, h.attrs, h.covered, h.revealed, h.predicates, h.rand, ?_⟩
  intro rc acc rk w h1
  cases h1

/-- `predicate_value_identified` applies: for age 28 and the predicate "at least 18", the difference 10 fits and the difference 11 does not -/
example : ∃ π sp ne, present pair2 conv101 .checked sha7 ord ord [] [itemN] 1 = .ok π ∧ π.proofs[0]? = some sp ∧ sp.primary.ne[0]? = some ne ∧
    Fits (u 4) (u 38) π.cHash ne 10 ∧ ¬ Fits (u 4) (u 38) π.cHash ne 11 := by
  obtain ⟨π, -, p, -⟩ := honest_presentation_accepted pair2 conv101 .checked sha7 ord ord ord [] [] (by simp) [itemN] (fun _ => 0)
    (fun it hit => by rw [List.mem_singleton.1 hit]; exact ⟨honestN, by simp⟩) 1
  obtain ⟨l, c⟩ := present_hash pair2 conv101 .checked sha7 ord ord [] _ 1 π p
  rw [sha7_int] at c
  obtain ⟨sp, ne, v, d, a1, a2, -, a3, a4, a5, a6⟩ := predicate_value_identified pair2 conv101 .checked sha7 ord ord [] _ 1 π p (by rw [c]; decide) 0 itemN rfl keyN 0
    ⟨"age", .GE, 18⟩ rfl (by show (0 : Int) ≤ 35 ∧ (35 : Int) < 2 ^ 672; decide +kernel)
  have hv : v = .known 28 := by
    have : vals.lookup "age" = some v := a3
    have h2 : vals.lookup "age" = some (.known 28) := by decide
    rw [h2, Option.some.injEq] at this
    exact this.symm
  have hd : d = 10 := by
    rw [hv] at a4
    have h2 : Predicate.getDelta .checked ⟨"age", .GE, 18⟩ (CredentialValue.known 28).value = .ok 10 := by decide
    rw [h2, Res.ok.injEq] at a4
    exact a4.symm
  subst hd
  refine ⟨π, sp, ne, p, a1, a2, a5, a6 11 fun k _ h => ?_⟩
  have h1 : (u 38 ^ (10 - 11 : Int)) ^ 15 = 1 := by
    rw [h, ← zpow_natCast, ← zpow_mul, mul_comm, zpow_mul, zpow_natCast, show u 4 ^ 15 = 1 by decide +kernel, one_zpow]
  revert h1
  rw [zpow30]
  decide +kernel

end Toy77

end Verif.CL
