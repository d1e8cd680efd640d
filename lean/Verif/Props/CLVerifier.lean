import Verif.Props.CLPresentation
/-!
# What an accepted presentation does and does not guarantee (C21, C22, C23, C24, C52, C53, C61, C62)
-/
set_option linter.unusedSectionVars false

namespace Verif.CL

open Verif BN

section
variable {F G1 G2 GT : Type} [Field F] [AddCommGroup G1] [Module F G1] [AddCommGroup G2] [Module F G2]
  [AddCommGroup GT] [Module F GT]

/-! ## C21: the request is enforced -/

theorem checkCommon_inv (m : Map Int) : ∀ (com com' : Map (Option Int)), checkCommon m com = (com', .ok ()) →
    com' = com.map (fun a => (a.1, m.lookup a.1)) ∧ ∀ a ∈ com, ∃ x, m.lookup a.1 = some x ∧ (a.2 = none ∨ a.2 = some x)
  | [], com', h => by
    unfold checkCommon at h
    cases h
    exact ⟨rfl, by simp⟩
  | (k, st) :: rest, com', h => by
    unfold checkCommon at h
    cases hm : m.lookup k with
    | none => rw [hm] at h; simp at h
    | some x =>
      rw [hm] at h
      simp only [] at h
      cases hr : checkCommon m rest with
      | mk rest' r =>
        rw [hr] at h
        cases st with
        | none =>
          simp only [Prod.mk.injEq] at h
          obtain ⟨h1, h2⟩ := h
          subst h2
          obtain ⟨h3, h4⟩ := checkCommon_inv m rest rest' hr
          subst h1 h3
          refine ⟨by simp [hm], ?_⟩
          intro a ha
          rcases List.mem_cons.1 ha with rfl | ha
          · exact ⟨x, hm, .inl rfl⟩
          · exact h4 a ha
        | some v =>
          simp only [] at h
          split_ifs at h with hv
          · simp at h
          · simp only [Prod.mk.injEq] at h
            obtain ⟨h1, h2⟩ := h
            subst h2
            obtain ⟨h3, h4⟩ := checkCommon_inv m rest rest' hr
            subst h1 h3
            have hvx : v = x := not_not.1 hv
            subst hvx
            refine ⟨by simp [hm], ?_⟩
            intro a ha
            rcases List.mem_cons.1 ha with rfl | ha
            · exact ⟨v, hm, .inr rfl⟩
            · exact h4 a ha

/-- the loop over the sub proofs leaves in the map the one response all sub proofs agree on -/
theorem verifyLoop_inv (e : G1 →ₗ[F] G2 →ₗ[F] GT) (cv : Conv F G1 G2 GT) (mode : Overflow) (ordV : SetOrder) (c : Int) :
    ∀ (l : List (SubProof F G1 G2 × VCred G1 G2 GT)) (com com' : Map (Option Int)) (t : List Bytes),
    verifyLoop e cv mode ordV c l com = (com', .ok t) →
    ∀ a ∈ com, ∃ x, (a.2 = none ∨ a.2 = some x) ∧ (∀ p ∈ l, p.1.primary.eq.m.lookup a.1 = some x) ∧
      (l ≠ [] → (a.1, some x) ∈ com')
  | [], com, com', t, _, a, _ => by
    cases ha : a.2 with
    | none => exact ⟨0, .inl rfl, by simp, by simp⟩
    | some x => exact ⟨x, .inr rfl, by simp, by simp⟩
  | (p, cred) :: rest, com, com', t, h, a, ha => by
    unfold verifyLoop at h
    simp only [] at h
    cases hc : checkCommon p.primary.eq.m com with
    | mk com1 r =>
      rw [hc] at h
      cases r with
      | err m => simp at h
      | panic => simp at h
      | ok u =>
        simp only [] at h
        obtain ⟨g1, g2⟩ := checkCommon_inv _ _ _ hc
        cases hv : verifyPrimaryProof mode ordV cred.pk.pKey c p.primary cred.schema cred.nonSchema cred.req with
        | err m => rw [hv] at h; simp at h
        | panic => rw [hv] at h; simp at h
        | ok pt =>
          rw [hv] at h
          simp only [] at h
          cases hr : verifyLoop e cv mode ordV c rest com1 with
          | mk com2 r2 =>
            rw [hr] at h
            cases r2 with
            | err m => simp at h
            | panic => simp at h
            | ok t2 =>
              simp only [Prod.mk.injEq] at h
              obtain ⟨h1, -⟩ := h
              subst h1
              obtain ⟨x, hx, hst⟩ := g2 a ha
              have hmem : (a.1, some x) ∈ com1 := by
                rw [g1, List.mem_map]
                exact ⟨a, ha, by rw [hx]⟩
              obtain ⟨y, hy1, hy2, hy3⟩ := verifyLoop_inv e cv mode ordV c rest com1 com2 t2 hr _ hmem
              have hxy : y = x := by
                rcases hy1 with hy1 | hy1
                · cases hy1
                · exact (Option.some.inj hy1).symm
              subst hxy
              refine ⟨y, hst, ?_, fun _ => ?_⟩
              · intro q hq
                rcases List.mem_cons.1 hq with rfl | hq
                · exact hx
                · exact hy2 q hq
              · cases rest with
                | nil =>
                  unfold verifyLoop at hr
                  cases hr
                  exact hmem
                | cons z zs => exact hy3 (by simp)

theorem checkShape_inv {p : PrimaryProof} {req : SubProofRequest} (h : checkShape p req = .ok ()) :
    (p.eq.revealed.map (·.1)).toFinset = req.revealed ∧ (p.ne.map (·.predicate)).toFinset = req.predicates.toFinset := by
  unfold checkShape at h
  split_ifs at h with h1 h2
  exact ⟨not_not.1 h1, not_not.1 h2⟩

/-- inversion of `verify` returning a verdict -/
theorem verify_inv {e : G1 →ₗ[F] G2 →ₗ[F] GT} {cv : Conv F G1 G2 GT} {mode : Overflow} {sha : Bytes → Bytes} {ordV : SetOrder}
    {v : PVerifier G1 G2 GT} {proof : Proof F G1 G2} {nonce : Int} {b : Bool}
    (h : (v.verify e cv mode sha ordV proof nonce).2 = .ok b) :
    checkVerifyParams v.creds proof = .ok () ∧ ∃ com tau,
      verifyLoop e cv mode ordV proof.cHash (proof.proofs.zip v.creds) v.common = (com, .ok tau) ∧
      (v.verify e cv mode sha ordV proof nonce).1 = ⟨v.creds, com⟩ ∧
      b = decide (getHashAsInt sha (tau ++ proof.cList ++ [toBytes nonce]) = proof.cHash) := by
  unfold PVerifier.verify at h ⊢
  cases hc : checkVerifyParams v.creds proof with
  | err m => rw [hc] at h; simp at h
  | panic => rw [hc] at h; simp at h
  | ok u =>
    rw [hc] at h
    simp only [] at h ⊢
    refine ⟨trivial, ?_⟩
    cases hl : verifyLoop e cv mode ordV proof.cHash (proof.proofs.zip v.creds) v.common with
    | mk com r =>
      rw [hl] at h
      cases r with
      | err m => simp at h
      | panic => simp at h
      | ok tau =>
        simp only [] at h ⊢
        exact ⟨com, tau, rfl, rfl, (Res.ok.inj h).symm⟩

/-- **C21** Whatever the proof object, `verify` returns a verdict only if there is one sub proof per request, each reveals exactly the
requested names and carries exactly the requested predicates, and every common attribute has one and the same response in all sub
proofs (equal to the response remembered from earlier calls, if any). -/
theorem verdict_only_for_matching_shape (e : G1 →ₗ[F] G2 →ₗ[F] GT) (cv : Conv F G1 G2 GT) (mode : Overflow) (sha : Bytes → Bytes)
    (ordV : SetOrder) (v : PVerifier G1 G2 GT) (proof : Proof F G1 G2) (nonce : Int) (b : Bool)
    (h : (v.verify e cv mode sha ordV proof nonce).2 = .ok b) :
    proof.proofs.length = v.creds.length ∧
    (∀ x ∈ proof.proofs.zip v.creds, (x.1.primary.eq.revealed.map (·.1)).toFinset = x.2.req.revealed ∧
      (x.1.primary.ne.map (·.predicate)).toFinset = x.2.req.predicates.toFinset) ∧
    ∀ a ∈ v.common, ∃ r, (a.2 = none ∨ a.2 = some r) ∧ ∀ sp ∈ proof.proofs, sp.primary.eq.m.lookup a.1 = some r := by
  obtain ⟨h1, com, tau, h2, -⟩ := verify_inv h
  unfold checkVerifyParams at h1
  split_ifs at h1 with hlen
  have hlen' := not_not.1 hlen
  rw [Res.bind_eq_ok] at h1
  obtain ⟨us, h1, -⟩ := h1
  have hf := mapM_ok_inv _ _ _ h1
  refine ⟨hlen', ?_, ?_⟩
  · intro x hx
    have : ∀ (l : List (SubProof F G1 G2 × VCred G1 G2 GT)) (us : List Unit),
        List.Forall₂ (fun a b => checkShape a.1.primary a.2.req = .ok b) l us → ∀ x ∈ l, checkShape x.1.primary x.2.req = .ok () := by
      intro l us hl
      induction hl with
      | nil => simp
      | cons hab _ ih =>
        intro x hx
        rcases List.mem_cons.1 hx with rfl | hx
        · exact hab
        · exact ih x hx
    exact checkShape_inv (this _ _ hf x hx)
  · intro a ha
    obtain ⟨x, hx1, hx2, -⟩ := verifyLoop_inv e cv mode ordV _ _ _ _ _ h2 a ha
    refine ⟨x, hx1, ?_⟩
    intro sp hsp
    obtain ⟨i, hi, rfl⟩ := List.mem_iff_getElem.1 hsp
    have hi' : i < v.creds.length := by rw [← hlen']; exact hi
    have hmem : (proof.proofs[i], v.creds[i]) ∈ proof.proofs.zip v.creds := by
      rw [List.mem_iff_getElem]
      exact ⟨i, by rw [List.length_zip]; omega, by simp⟩
    exact hx2 _ hmem

/-! ## C61: the nonce is bound -/

theorem toBytes_injective {a b : Int} (ha : 0 ≤ a) (hb : 0 ≤ b) (h : toBytes a = toBytes b) : a = b := by
  rw [← from_to_bytes a ha, ← from_to_bytes b hb, h]

theorem getHashAsInt_eq {sha : Bytes → Bytes} {L : Nat} (hlen : ∀ m, (sha m).length = L) {a b : List Bytes}
    (h : getHashAsInt sha a = getHashAsInt sha b) : sha a.flatten = sha b.flatten := by
  unfold getHashAsInt fromBytes at h
  exact ofBe_injective _ _ (by rw [hlen, hlen]) (by exact_mod_cast h)

/-- the bytes the verifier hashes (empty if the checks before hashing fail) -/
def hashedBytes (e : G1 →ₗ[F] G2 →ₗ[F] GT) (cv : Conv F G1 G2 GT) (mode : Overflow) (ordV : SetOrder) (v : PVerifier G1 G2 GT)
    (proof : Proof F G1 G2) (nonce : Int) : Bytes :=
  match (verifyLoop e cv mode ordV proof.cHash (proof.proofs.zip v.creds) v.common).2 with
  | .ok tau => tau.flatten ++ proof.cList.flatten ++ toBytes nonce
  | _ => []

/-- **C61** If a verifier accepts one proof under two different nonces, then the two byte strings it hashed are different but have
the same hash: an accepted proof cannot be replayed under a fresh nonce unless these two strings collide. -/
theorem replay_gives_collision (e : G1 →ₗ[F] G2 →ₗ[F] GT) (cv : Conv F G1 G2 GT) (mode : Overflow) (sha : Bytes → Bytes) (L : Nat)
    (hlen : ∀ m, (sha m).length = L) (ordV : SetOrder) (v : PVerifier G1 G2 GT) (proof : Proof F G1 G2) (n1 n2 : Int) (h1 : 0 ≤ n1)
    (h2 : 0 ≤ n2) (hne : n1 ≠ n2) (a1 : (v.verify e cv mode sha ordV proof n1).2 = .ok true)
    (a2 : (v.verify e cv mode sha ordV proof n2).2 = .ok true) :
    hashedBytes e cv mode ordV v proof n1 ≠ hashedBytes e cv mode ordV v proof n2 ∧
    sha (hashedBytes e cv mode ordV v proof n1) = sha (hashedBytes e cv mode ordV v proof n2) := by
  obtain ⟨-, com, tau, hl, -, hb⟩ := verify_inv a1
  obtain ⟨-, com', tau', hl', -, hb'⟩ := verify_inv a2
  rw [hl] at hl'
  cases hl'
  have e1 := of_decide_eq_true hb.symm
  have e2 := of_decide_eq_true hb'.symm
  have hh := getHashAsInt_eq hlen (e1.trans e2.symm)
  simp only [List.flatten_append, List.flatten_cons, List.flatten_nil, List.append_nil] at hh
  unfold hashedBytes
  rw [hl]
  refine ⟨?_, hh⟩
  simp only [ne_eq, List.append_cancel_left_eq]
  exact fun hcon => hne (toBytes_injective h1 h2 hcon)

/-! ## C24: the verifier object remembers responses -/

/-- **C24, limit** After any verdict of `verify`, the same verifier object accepts no proof whose response for a common attribute
differs from that of the first proof. -/
theorem reused_verifier_rejects (e : G1 →ₗ[F] G2 →ₗ[F] GT) (cv : Conv F G1 G2 GT) (mode : Overflow) (sha : Bytes → Bytes)
    (ordV : SetOrder) (v : PVerifier G1 G2 GT) (p1 p2 : Proof F G1 G2) (n1 n2 : Int) (b : Bool)
    (h : (v.verify e cv mode sha ordV p1 n1).2 = .ok b) (k : String) (hk : k ∈ v.common.map (·.1)) (sp1 sp2 : SubProof F G1 G2)
    (hsp1 : sp1 ∈ p1.proofs) (hsp2 : sp2 ∈ p2.proofs) (hne : sp1.primary.eq.m.lookup k ≠ sp2.primary.eq.m.lookup k) :
    ∀ b', ((v.verify e cv mode sha ordV p1 n1).1.verify e cv mode sha ordV p2 n2).2 ≠ .ok b' := by
  intro b' hcon
  obtain ⟨hlen, -, hcom⟩ := verdict_only_for_matching_shape e cv mode sha ordV v p1 n1 b h
  obtain ⟨-, com, tau, hl, hst, -⟩ := verify_inv h
  rw [List.mem_map] at hk
  obtain ⟨a, ha, rfl⟩ := hk
  obtain ⟨x, hx1, hx2, hx3⟩ := verifyLoop_inv e cv mode ordV _ _ _ _ _ hl a ha
  obtain ⟨r, -, hr⟩ := hcom a ha
  have hnz : p1.proofs.zip v.creds ≠ [] := by
    intro hz
    have h0 : (p1.proofs.zip v.creds).length = 0 := by rw [hz]; rfl
    rw [List.length_zip, ← hlen, min_self] at h0
    rw [List.length_eq_zero_iff] at h0
    rw [h0] at hsp1
    simp at hsp1
  have hmem := hx3 hnz
  obtain ⟨y, hy⟩ := List.exists_mem_of_ne_nil _ hnz
  have hyp : y.1 ∈ p1.proofs := (List.of_mem_zip hy).1
  have hxr : x = r := by
    have h1 := hx2 y hy
    rw [hr _ hyp] at h1
    exact (Option.some.inj h1).symm
  obtain ⟨-, -, hcom2⟩ := verdict_only_for_matching_shape e cv mode sha ordV _ p2 n2 b' hcon
  rw [hst] at hcom2
  obtain ⟨r2, hr2, hr3⟩ := hcom2 _ hmem
  rcases hr2 with hr2 | hr2
  · cases hr2
  · apply hne
    rw [hr sp1 hsp1, hr3 sp2 hsp2, ← hxr]
    exact hr2

/-- **C24 is false**: an honest holder presents the same credentials twice, with fresh randomness for the common attribute `k`.  Each
proof is accepted by a fresh verifier; but a verifier object that has verified the first one returns an error for the second
(unless the two responses happen to be equal). -/
theorem honest_second_presentation_rejected (e : G1 →ₗ[F] G2 →ₗ[F] GT) (cv : Conv F G1 G2 GT) (mode : Overflow) (sha : Bytes → Bytes)
    (ord ordF ordV : SetOrder) (k : String) (mt1 mt2 : Int) (items : List (Item F G1 G2 GT)) (hne : items ≠ []) (cval : String → Int)
    (h : ∀ it ∈ items, Honest e it ∧ k ∈ unrevealedAttrs it.schema it.nonSchema it.req ∧ attrValue it.vals k = cval k) (n1 n2 : Int) :
    ∃ p1 p2 v, present e cv mode sha ord ordF [(k, mt1)] items n1 = .ok p1 ∧ present e cv mode sha ord ordF [(k, mt2)] items n2 = .ok p2 ∧
      expectItems [k] items = .ok v ∧ (v.verify e cv mode sha ordV p1 n1).2 = .ok true ∧ (v.verify e cv mode sha ordV p2 n2).2 = .ok true ∧
      (p1.cHash * cval k + mt1 ≠ p2.cHash * cval k + mt2 →
        ∀ b, ((v.verify e cv mode sha ordV p1 n1).1.verify e cv mode sha ordV p2 n2).2 ≠ .ok b) := by
  have hh : ∀ mt : Int, ∀ it ∈ items, Honest e it ∧ ∀ k' ∈ [(k, mt)].map (·.1), k' ∈ unrevealedAttrs it.schema it.nonSchema it.req ∧
      attrValue it.vals k' = cval k' := by
    intro mt it hit
    refine ⟨(h it hit).1, ?_⟩
    intro k' hk'
    simp only [List.map_cons, List.map_nil, List.mem_singleton] at hk'
    subst hk'
    exact (h it hit).2
  obtain ⟨p1, v, a1, a2, a3, a4, a5, a6⟩ := honest_presentation_responses e cv mode sha ord ordF ordV [(k, mt1)] [k] (by simp) items cval
    (hh mt1) n1
  obtain ⟨p2, v', b1, b2, b3, b4, -, b6⟩ := honest_presentation_responses e cv mode sha ord ordF ordV [(k, mt2)] [k] (by simp) items cval
    (hh mt2) n2
  rw [a2] at b2
  cases b2
  have hmem : ∀ {p : Proof F G1 G2}, p.proofs.length = items.length → ∃ sp, sp ∈ p.proofs := by
    intro p hp
    apply List.exists_mem_of_ne_nil
    intro h0
    rw [h0] at hp
    exact hne (List.length_eq_zero_iff.1 hp.symm)
  obtain ⟨sp1, hs1⟩ := hmem a4
  obtain ⟨sp2, hs2⟩ := hmem b4
  have hlk : ∀ mt : Int, ([(k, mt)].foldl (fun b c => b.addCommonAttribute c.1 c.2) (Builder.new : Builder F G1 G2 GT)).common.lookup k =
      some mt := by
    intro mt
    exact lookup_insert_self _ _ _
  refine ⟨p1, p2, v, a1, b1, a2, a3, b3, fun hd b => ?_⟩
  apply reused_verifier_rejects e cv mode sha ordV v p1 p2 n1 n2 true a3 k ?_ sp1 sp2 hs1 hs2
  · rw [a6 sp1 hs1 k mt1 (hlk mt1), b6 sp2 hs2 k mt2 (hlk mt2)]
    exact fun hcon => hd (Option.some.inj hcon)
  · rw [a5]
    simp [PVerifier.addCommonAttribute, Map.insert]

/-! ## C23, C53: the non-revocation part is optional and not tied to the credential -/

/-- **C23 is false**: a holder who supplies no witness (so that no non-revocation part is made) is accepted by a verifier that asks for
non-revocation, i.e. has the revocation key, the registry and its key. -/
theorem missing_nonrevocation_accepted (e : G1 →ₗ[F] G2 →ₗ[F] GT) (cv : Conv F G1 G2 GT) (mode : Overflow) (sha : Bytes → Bytes)
    (ord ordF ordV : SetOrder) (it : Item F G1 G2 GT) (h : Honest e it) (rk : Rev.PubKey G1 G2) (acc : G2) (z : GT) (nonce : Int) :
    ∃ proof v, present e cv mode sha ord ordF [] [{ it with reg := some acc, pk := ⟨it.pk.pKey, some rk⟩, revKeyPub := some z, witness := none }]
        nonce = .ok proof ∧
      expectItems [] [{ it with reg := some acc, pk := ⟨it.pk.pKey, some rk⟩, revKeyPub := some z, witness := none }] = .ok v ∧
      (v.verify e cv mode sha ordV proof nonce).2 = .ok true := by
  refine honest_presentation_accepted e cv mode sha ord ordF ordV [] [] (by simp) _ (fun _ => 0) ?_ nonce
  intro x hx
  rw [List.mem_singleton] at hx
  subst hx
  refine ⟨⟨h.signed, h.distinct, h.noCommitment, h.attrs, h.covered, h.revealed, h.predicates, h.rand, ?_⟩, by simp⟩
  intro rc acc rk w _ _ _ hw
  cases hw

/-- **C53 is false**: the non-revocation part may come from a different credential, with any other context `m2`.  A (revoked) holder
with a presentable primary credential who borrows the revocation credential `rc` and witness `w` of another holder is accepted. -/
theorem borrowed_nonrevocation_accepted (e : G1 →ₗ[F] G2 →ₗ[F] GT) (cv : Conv F G1 G2 GT) (mode : Overflow) (sha : Bytes → Bytes)
    (ord ordF ordV : SetOrder) (it : Item F G1 G2 GT) (h : Honest e it) (rk : Rev.PubKey G1 G2) (acc : G2) (z : GT)
    (rc : Rev.NonRevSig F G1 G2) (w : G2)
    (hauth : Rev.Authentic e rk z acc rc.sigma rc.c rc.vr rc.m2 rc.gI rc.sigmaI rc.uI w) (nonce : Int) :
    ∃ proof v, present e cv mode sha ord ordF []
        [{ it with sig := ⟨it.sig.p, some rc⟩, reg := some acc, pk := ⟨it.pk.pKey, some rk⟩, revKeyPub := some z, witness := some w }]
        nonce = .ok proof ∧
      expectItems []
        [{ it with sig := ⟨it.sig.p, some rc⟩, reg := some acc, pk := ⟨it.pk.pKey, some rk⟩, revKeyPub := some z, witness := some w }]
        = .ok v ∧
      (v.verify e cv mode sha ordV proof nonce).2 = .ok true := by
  refine honest_presentation_accepted e cv mode sha ord ordF ordV [] [] (by simp) _ (fun _ => 0) ?_ nonce
  intro x hx
  rw [List.mem_singleton] at hx
  subst hx
  refine ⟨⟨h.signed, h.distinct, h.noCommitment, h.attrs, h.covered, h.revealed, h.predicates, h.rand, ?_⟩, by simp⟩
  intro rc' acc' rk' w' h1 h2 h3 h4
  cases h1; cases h2; cases h3; cases h4
  exact ⟨z, rfl, hauth⟩

/-! ## C52, C22: forging a presentation without any credential -/

/-- what the attacker needs to know about one request: the public key is made of units and covers the attributes; the predicates'
bounds stay inside `i32` -/
structure Forgeable (cr : VCred G1 G2 GT) : Prop where
  key : ∃ (n : Nat) (S Z C : (ZMod n)ˣ) (R : String → (ZMod n)ˣ), KeyUnits cr.pk.pKey n S Z C R
  covered : ∀ k ∈ cr.nonSchema ∪ cr.schema, cr.pk.pKey.r.hasKey k = true
  revealed : cr.req.revealed ⊆ cr.schema
  bounds : ∀ p ∈ cr.req.predicates, ∃ d', p.getDeltaPrime .checked = .ok d'

theorem forge_algebra_add {M : Type} [AddCommGroup M] (H S C Z V A : M) (c E v m2 : Int)
    (hA : A = -H - v • S - m2 • C + c • Z - c • V) :
    (1 - c * E) • A + H + v • S + m2 • C + c • (-(Z - (E • A + V))) = 0 := by
  have : (1 - c * E) • A + H + v • S + m2 • C + c • (-(Z - (E • A + V))) = A + H + v • S + m2 • C - c • Z + c • V := by module
  rw [this, hA]; module

theorem forge_algebra {G : Type} [CommGroup G] (H S C Z V : G) (c E v m2 : Int) :
    (H⁻¹ / S ^ v / C ^ m2 * Z ^ c / V ^ c) ^ (1 - c * E) * H * S ^ v * C ^ m2 *
      ((Z / ((H⁻¹ / S ^ v / C ^ m2 * Z ^ c / V ^ c) ^ E * V))⁻¹) ^ c = 1 :=
  congrArg Additive.toMul (forge_algebra_add (M := Additive G) (.ofMul H) (.ofMul S) (.ofMul C) (.ofMul Z) (.ofMul V) _ c E v m2 rfl)

/-- the forged predicate proof: commitments made in advance to the difference 0, responses for the value `delta'` -/
theorem forge_ne {pk : PrimaryPubKey} {n : Nat} {S Z C : (ZMod n)ˣ} {R : String → (ZMod n)ˣ} (hk : KeyUnits pk n S Z C R)
    (mode : Overflow) (p : Predicate) {d' : Int} (hd' : p.getDeltaPrime .checked = .ok d') :
    ∃ tau, ∀ c, 0 ≤ c → ∃ np : NeProof, np.predicate = p ∧ np.mj = c * d' ∧ verifyNePredicate mode pk np c = .ok tau := by
  have hn := hk.hn
  have hn0 := neZero_of hn
  refine ⟨iterKeys.map (fun _ => val (1 : (ZMod n)ˣ)) ++ [val (1 : (ZMod n)ˣ), val (1 : (ZMod n)ˣ)], fun c hc => ?_⟩
  refine ⟨⟨iterKeys.map (fun k => (k, 0)), iterKeys.map (fun k => (k, 0)) ++ [("DELTA", 0)], c * d', 0,
    iterKeys.map (fun k => (k, val (1 : (ZMod n)ˣ))) ++ [("DELTA", val (1 : (ZMod n)ˣ))], p⟩, rfl, rfl, ?_⟩
  rw [verifyNe_units hk mode _ c (fun _ => 0) (fun _ => 0) 0 (fun _ => 1) 1 d' (fun k hkm => map_lookup_key iterKeys (fun _ => (0 : Int)) hkm)
    (iter_lookup _ _).1 (iter_lookup _ _).2 (fun k hkm => ⟨_, (iter_lookup _ _).1 k hkm, rep_val _⟩)
    ⟨_, (iter_lookup _ _).2, rep_val _⟩ (getDeltaPrime_mode hd' mode)]
  have hs : signedDelta p.isLess 0 = 0 := by cases p.isLess <;> rfl
  have hone : (if p.isLess = true then (1 : (ZMod n)ˣ)⁻¹ else 1) = 1 := by cases p.isLess <;> simp
  simp only [hs, ite_self, one_zpow, zpow_zero, mul_one, inv_one, one_mul, mul_comm c, zpow_mul, inv_mul_cancel, List.map_const',
    List.prod_replicate, one_pow]

/-- forging one sub proof: the commitments are fixed before the challenge is known -/
theorem forge_item (e : G1 →ₗ[F] G2 →ₗ[F] GT) (cv : Conv F G1 G2 GT) (mode : Overflow) (ordV : SetOrder) (cr : VCred G1 G2 GT)
    (h : Forgeable cr) :
    ∃ tl : List Bytes, ∀ c, 0 ≤ c → ∀ (value resp : String → Int) (vh mh2 : Int), ∃ (sp : SubProof F G1 G2) (tau : List Int), checkShape sp.primary cr.req = .ok () ∧ sp.nonRevoc = none ∧
      verifyPrimaryProof mode ordV cr.pk.pKey c sp.primary cr.schema cr.nonSchema cr.req = .ok tau ∧
      verifyNonRevoc e cv c sp cr ++ tau.map toBytes = tl ∧
      (∀ k ∈ cr.req.revealed, (k, value k) ∈ sp.primary.eq.revealed) ∧
      (∀ k ∈ unrevealedAttrs cr.schema cr.nonSchema cr.req, sp.primary.eq.m.lookup k = some (resp k)) ∧
      sp.primary.eq.m2 = mh2 ∧ sp.primary.eq.v = vh := by
  obtain ⟨n, S, Z, C, R, hk⟩ := h.key
  have hn := hk.hn
  have hn0 := neZero_of hn
  set U := unrevealedAttrs cr.schema cr.nonSchema cr.req with hU
  have hcovU : ∀ k ∈ U, cr.pk.pKey.r.hasKey k = true := by
    intro k hkm
    rw [hU] at hkm
    exact h.covered k (Finset.mem_sdiff.1 hkm).1
  have hcovR : ∀ k ∈ cr.req.revealed, cr.pk.pKey.r.hasKey k = true :=
    fun k hkm => h.covered k (Finset.mem_union_right _ (h.revealed hkm))
  have hneall : ∀ p : Predicate, ∃ tau, p ∈ cr.req.predicates → ∀ c, 0 ≤ c → ∃ np : NeProof, np.predicate = p ∧
      verifyNePredicate mode cr.pk.pKey np c = .ok tau := by
    intro p
    by_cases hp : p ∈ cr.req.predicates
    · obtain ⟨d', hd'⟩ := h.bounds p hp
      obtain ⟨tau, ht⟩ := forge_ne hk mode p hd'
      exact ⟨tau, fun _ c hc => by obtain ⟨np, h1, -, h2⟩ := ht c hc; exact ⟨np, h1, h2⟩⟩
    · exact ⟨[], fun hp' => absurd hp' hp⟩
  choose taus htaus using hneall
  refine ⟨toBytes (val (1 : (ZMod n)ˣ)) :: (cr.req.predicates.map (fun p => (taus p).map toBytes)).flatten, fun c hc value resp vh mh2 => ?_⟩
  have hnp : ∀ p : Predicate, ∃ np : NeProof, p ∈ cr.req.predicates → np.predicate = p ∧
      verifyNePredicate mode cr.pk.pKey np c = .ok (taus p) := by
    intro p
    by_cases hp : p ∈ cr.req.predicates
    · obtain ⟨np, h1, h2⟩ := htaus p hp c hc
      exact ⟨np, fun _ => ⟨h1, h2⟩⟩
    · exact ⟨⟨[], [], 0, 0, [], p⟩, fun hp' => absurd hp' hp⟩
  choose np hnp using hnp
  set V := hiddenProd R value (ordV.enum cr.req.revealed) with hV
  set H := hiddenProd R resp (ordV.enum U) with hH
  set A' : (ZMod n)ˣ := H⁻¹ / S ^ vh / C ^ mh2 * Z ^ c / V ^ c with hA'
  set eqp : EqProof := ⟨(ordV.enum cr.req.revealed).map (fun k => (k, value k)), val A', 1 - c * LARGE_E_START_VALUE, vh,
    (ordV.enum U).map (fun k => (k, resp k)), mh2⟩ with heqp
  have hlk : ∀ k ∈ U, eqp.m.lookup k = some (resp k) := fun k hkm => map_lookup_key _ resp ((ordV.mem _ _).2 hkm)
  have hve := verifyEquality_units hk ordV eqp (rep_val A') c cr.schema cr.nonSchema cr.req resp hcovU hlk (by
    intro a ha
    rw [heqp] at ha
    simp only [List.mem_map] at ha
    obtain ⟨k, hk1, rfl⟩ := ha
    exact hcovR k ((ordV.mem _ _).1 hk1))
  have hprod : (eqp.revealed.map (fun e => R e.1 ^ e.2)).prod = V := by
    rw [heqp, List.map_map]
    rfl
  rw [hprod, ← hU, ← hH, heqp] at hve
  simp only [] at hve
  rw [hA', forge_algebra H S C Z V c LARGE_E_START_VALUE vh mh2, ← hA', ← heqp] at hve
  have hcs : checkShape ⟨eqp, cr.req.predicates.map np⟩ cr.req = .ok () := by
    unfold checkShape
    rw [if_neg, if_neg]
    · rw [not_not, List.map_map]
      have : cr.req.predicates.map ((fun x : NeProof => x.predicate) ∘ np) = cr.req.predicates := by
        conv_rhs => rw [← List.map_id cr.req.predicates]
        apply List.map_congr_left
        intro p hp
        exact (hnp p hp).1
      rw [this]
    · rw [not_not, heqp]
      ext k
      simp only [List.map_map, List.mem_toFinset, List.mem_map, Function.comp, exists_eq_right, ordV.mem]
  refine ⟨⟨⟨eqp, cr.req.predicates.map np⟩, none⟩, val (1 : (ZMod n)ˣ) :: (cr.req.predicates.map taus).flatten, hcs, rfl, ?_, ?_, ?_, hlk,
    rfl, rfl⟩
  · unfold verifyPrimaryProof
    rw [hve, Res.ok_bind, List.mapM_map, mapM_ok ((fun x => verifyNePredicate mode cr.pk.pKey x c) ∘ np) taus _
      (fun p hp => (hnp p hp).2), Res.ok_bind]
    rfl
  · simp only [verifyNonRevoc, List.nil_append, List.map_cons, List.map_flatten, List.map_map]
    rfl
  · intro k hkm
    rw [heqp]
    exact List.mem_map.2 ⟨k, (ordV.mem _ _).2 hkm, rfl⟩

theorem forge_items (e : G1 →ₗ[F] G2 →ₗ[F] GT) (cv : Conv F G1 G2 GT) (mode : Overflow) (ordV : SetOrder)
    (value : VCred G1 G2 GT → String → Int) : ∀ (creds : List (VCred G1 G2 GT)),
    (∀ cr ∈ creds, Forgeable cr) →
    ∃ tl : List Bytes, ∀ c, 0 ≤ c → ∀ (resp : String → Int) (vh mh2 : Int), ∃ sps : List (SubProof F G1 G2), sps.length = creds.length ∧
      (∃ us, (sps.zip creds).mapM (fun x => checkShape x.1.primary x.2.req) = .ok us) ∧
      (∀ x ∈ sps.zip creds, x.1.nonRevoc = none ∧ ∀ k ∈ x.2.req.revealed, (k, value x.2 k) ∈ x.1.primary.eq.revealed) ∧
      ∀ com : Map (Option Int), (∀ a ∈ com, (a.2 = none ∨ a.2 = some (resp a.1)) ∧
          ∀ cr ∈ creds, a.1 ∈ unrevealedAttrs cr.schema cr.nonSchema cr.req) →
        ∃ com', verifyLoop e cv mode ordV c (sps.zip creds) com = (com', .ok tl)
  | [], _ => ⟨[], fun c _ _ _ _ => ⟨[], rfl, ⟨[], rfl⟩, by simp, fun com _ => ⟨com, rfl⟩⟩⟩
  | cr :: creds, h => by
    obtain ⟨tl, h1⟩ := forge_item e cv mode ordV cr (h cr (by simp))
    obtain ⟨tl', h2⟩ := forge_items e cv mode ordV value creds (fun x hx => h x (by simp [hx]))
    refine ⟨tl ++ tl', fun c hc resp vh mh2 => ?_⟩
    obtain ⟨sp, tau, g1, g2, g3, g4, g5, g6, -⟩ := h1 c hc (value cr) resp vh mh2
    obtain ⟨sps, k1, ⟨us, k2⟩, k3, k4⟩ := h2 c hc resp vh mh2
    refine ⟨sp :: sps, by simp [k1], ⟨() :: us, ?_⟩, ?_, ?_⟩
    · rw [List.zip_cons_cons, List.mapM_cons, g1, Res.ok_bind, k2]
      rfl
    · intro x hx
      rw [List.zip_cons_cons] at hx
      rcases List.mem_cons.1 hx with rfl | hx
      · exact ⟨g2, g5⟩
      · exact k3 x hx
    · intro com hcom
      have hcm := checkCommon_ok sp.primary.eq.m resp com (fun a ha => ⟨g6 _ ((hcom a ha).2 cr (by simp)), (hcom a ha).1⟩)
      obtain ⟨com', hv⟩ := k4 (com.map (fun a => (a.1, some (resp a.1)))) (by
        intro a ha
        rw [List.mem_map] at ha
        obtain ⟨a', ha', rfl⟩ := ha
        exact ⟨.inr rfl, fun x hx => (hcom a' ha').2 x (by simp [hx])⟩)
      refine ⟨com', ?_⟩
      rw [List.zip_cons_cons]
      unfold verifyLoop
      simp only []
      rw [hcm]
      simp only []
      rw [g3]
      simp only []
      rw [hv, g4]

/-- **C52 is false**: universal forgery.  For every list of requests against valid public keys — any schema, any revealed values of
the attacker's choice, any predicates (true or not), any common attributes, with or without non-revocation — anybody who knows only
the public keys makes a proof that the verifier accepts.  (The commitments list `c_list` is taken from the proof without being tied to
`A'`, and the response `e^` is not range checked, so `A'` can be solved for after the challenge is known.) -/
theorem universal_forgery (e : G1 →ₗ[F] G2 →ₗ[F] GT) (cv : Conv F G1 G2 GT) (mode : Overflow) (sha : Bytes → Bytes) (ordV : SetOrder)
    (v : PVerifier G1 G2 GT) (h : ∀ cr ∈ v.creds, Forgeable cr)
    (hcom : ∀ a ∈ v.common, a.2 = none ∧ ∀ cr ∈ v.creds, a.1 ∈ unrevealedAttrs cr.schema cr.nonSchema cr.req)
    (value : VCred G1 G2 GT → String → Int) (nonce : Int) :
    ∃ proof : Proof F G1 G2, (v.verify e cv mode sha ordV proof nonce).2 = .ok true ∧
      ∀ x ∈ proof.proofs.zip v.creds, x.1.nonRevoc = none ∧ ∀ k ∈ x.2.req.revealed, (k, value x.2 k) ∈ x.1.primary.eq.revealed := by
  obtain ⟨tl, htl⟩ := forge_items (F := F) e cv mode ordV value v.creds h
  obtain ⟨sps, h1, ⟨us, h2⟩, h3, h4⟩ := htl (getHashAsInt sha (tl ++ [] ++ [toBytes nonce])) (getHashAsInt_nonneg _ _) (fun _ => 0) 0 0
  obtain ⟨com', h5⟩ := h4 v.common (fun a ha => ⟨.inl (hcom a ha).1, (hcom a ha).2⟩)
  refine ⟨⟨sps, getHashAsInt sha (tl ++ [] ++ [toBytes nonce]), []⟩, ?_, h3⟩
  unfold PVerifier.verify
  have hshape : checkVerifyParams v.creds (⟨sps, getHashAsInt sha (tl ++ [] ++ [toBytes nonce]), []⟩ : Proof F G1 G2) = .ok () := by
    unfold checkVerifyParams
    simp only []
    rw [if_neg (by rw [h1]; simp), h2]
    rfl
  rw [hshape]
  simp only []
  rw [h5]
  simp

/-! ## C22: predicates are not tied to the credential -/

/-- **C22 is false**: a holder of a valid credential proves any predicates, true or not, about its attributes.  The equality part of
the accepted proof is the honest one for the real attribute values; only the predicate responses are invented. -/
theorem false_predicate_accepted (e : G1 →ₗ[F] G2 →ₗ[F] GT) (cv : Conv F G1 G2 GT) (mode : Overflow) (sha : Bytes → Bytes)
    (ord ordF ordV : SetOrder) (it : Item F G1 G2 GT) (h : Honest e it) (hno : it.req.predicates = []) (ps : List Predicate)
    (hps : ∀ p ∈ ps, p.attrName ∈ it.schema ∧ ∃ d', p.getDeltaPrime .checked = .ok d') (nonce : Int) :
    ∃ (proof : Proof F G1 G2) (v : PVerifier G1 G2 GT) (sp : SubProof F G1 G2),
      expectItems [] [{ it with req := ⟨it.req.revealed, ps⟩ }] = .ok v ∧
      (v.verify e cv mode sha ordV proof nonce).2 = .ok true ∧ proof.proofs = [sp] ∧
      (∀ k ∈ unrevealedAttrs it.schema it.nonSchema it.req,
        sp.primary.eq.m.lookup k = some (proof.cHash * attrValue it.vals k + it.rnd.mT k)) ∧
      ∀ p ∈ ps, ∃ np ∈ sp.primary.ne, np.predicate = p ∧ ∀ d', p.getDeltaPrime .checked = .ok d' → np.mj = proof.cHash * d' := by
  obtain ⟨n, S, Z, C, R, A, hk, -⟩ := h.signed
  obtain ⟨ini, cl, tl, -, hfin⟩ := item_complete e cv mode ord ordF ordV (Builder.new : Builder F G1 G2 GT) it h
  have hneall : ∀ p : Predicate, ∃ tau, p ∈ ps → ∀ c, 0 ≤ c → ∃ np : NeProof, np.predicate = p ∧
      (∀ d', p.getDeltaPrime .checked = .ok d' → np.mj = c * d') ∧ verifyNePredicate mode it.pk.pKey np c = .ok tau := by
    intro p
    by_cases hp : p ∈ ps
    · obtain ⟨-, d', hd'⟩ := hps p hp
      obtain ⟨tau, ht⟩ := forge_ne hk mode p hd'
      refine ⟨tau, fun _ c hc => ?_⟩
      obtain ⟨np, h1, h2, h3⟩ := ht c hc
      refine ⟨np, h1, fun d'' hd'' => ?_, h3⟩
      rw [hd'] at hd''
      cases hd''
      exact h2
    · exact ⟨[], fun hp' => absurd hp' hp⟩
  choose taus htaus using hneall
  set c := getHashAsInt sha ((tl ++ (ps.map (fun p => (taus p).map toBytes)).flatten) ++ cl ++ [toBytes nonce]) with hc
  have hc0 : 0 ≤ c := getHashAsInt_nonneg _ _
  obtain ⟨sp, tau, -, g2, g3, g4, g5⟩ := hfin c hc0
  have hnp : ∀ p : Predicate, ∃ np : NeProof, p ∈ ps → np.predicate = p ∧
      (∀ d', p.getDeltaPrime .checked = .ok d' → np.mj = c * d') ∧ verifyNePredicate mode it.pk.pKey np c = .ok (taus p) := by
    intro p
    by_cases hp : p ∈ ps
    · obtain ⟨np, h1⟩ := htaus p hp c hc0
      exact ⟨np, fun _ => h1⟩
    · exact ⟨⟨[], [], 0, 0, [], p⟩, fun hp' => absurd hp' hp⟩
  choose np hnp using hnp
  have hspne : sp.primary.ne = [] := by
    obtain ⟨-, h2⟩ := checkShape_inv g2
    rw [hno] at h2
    simp only [List.toFinset_nil, List.toFinset_eq_empty_iff, List.map_eq_nil_iff] at h2
    exact h2
  have hve : ∃ t, verifyEquality ordV it.pk.pKey sp.primary.eq c it.schema it.nonSchema it.req = .ok t ∧ tau = [t] := by
    unfold verifyPrimaryProof at g3
    rw [hspne, Res.bind_eq_ok] at g3
    obtain ⟨t, h1, h2⟩ := g3
    refine ⟨t, h1, ?_⟩
    rw [List.mapM_nil] at h2
    exact (Res.ok.inj h2).symm
  obtain ⟨t, hve, htau⟩ := hve
  set it' : Item F G1 G2 GT := { it with req := ⟨it.req.revealed, ps⟩ } with hit'
  set sp' : SubProof F G1 G2 := ⟨⟨sp.primary.eq, ps.map np⟩, sp.nonRevoc⟩ with hsp'
  have hexp := expectItems_ok [] [it'] (by
    intro x hx
    rw [List.mem_singleton] at hx
    subst hx
    exact ⟨h.revealed, fun p hp => (hps p hp).1⟩)
  have hpp : ps.map ((fun x : NeProof => x.predicate) ∘ np) = ps := by
    conv_rhs => rw [← List.map_id ps]
    exact List.map_congr_left (fun p hp => (hnp p hp).1)
  have hcs : checkShape sp'.primary it'.req = .ok () := by
    unfold checkShape
    rw [if_neg, if_neg]
    · rw [not_not, hsp', List.map_map, hpp]
    · rw [not_not]
      exact (checkShape_inv g2).1
  have hvp : verifyPrimaryProof mode ordV it'.cred.pk.pKey c sp'.primary it'.cred.schema it'.cred.nonSchema it'.cred.req =
      .ok (t :: (ps.map taus).flatten) := by
    unfold verifyPrimaryProof
    have : verifyEquality ordV it'.cred.pk.pKey sp'.primary.eq c it'.cred.schema it'.cred.nonSchema it'.cred.req = .ok t := hve
    rw [this, Res.ok_bind, hsp', List.mapM_map, mapM_ok ((fun x => verifyNePredicate mode it'.cred.pk.pKey x c) ∘ np) taus _
      (fun p hp => (hnp p hp).2.2), Res.ok_bind]
    rfl
  have hnr : verifyNonRevoc e cv c sp' it'.cred = verifyNonRevoc e cv c sp it.cred := rfl
  have hloop : verifyLoop e cv mode ordV c [(sp', it'.cred)] [] =
      ([], .ok (tl ++ (ps.map (fun p => (taus p).map toBytes)).flatten)) := by
    unfold verifyLoop
    simp only [checkCommon]
    rw [hvp]
    simp only [verifyLoop]
    rw [hnr, ← g4, htau]
    simp only [List.map_cons, List.map_nil, List.map_flatten, List.map_map, List.append_nil, List.append_assoc,
      List.singleton_append]
    rfl
  refine ⟨⟨[sp'], c, cl⟩, _, sp', hexp, ?_, rfl, ?_, ?_⟩
  · unfold PVerifier.verify
    have hshape : checkVerifyParams ([it'].map Item.cred) (⟨[sp'], c, cl⟩ : Proof F G1 G2) = .ok () := by
      unfold checkVerifyParams
      rw [if_neg (by simp)]
      have : checkShape sp'.primary it'.cred.req = .ok () := hcs
      simp only [List.map_cons, List.map_nil, List.zip_cons_cons, List.zip_nil_right, List.mapM_cons, List.mapM_nil, this]
      rfl
    simp only []
    rw [hshape]
    simp only [List.map_cons, List.map_nil, List.zip_cons_cons, List.zip_nil_right, List.foldl_nil, PVerifier.new]
    rw [hloop]
    simp only []
    rw [← hc]
    simp
  · intro k hkm
    have := g5 k hkm
    rw [this]
    rfl
  · intro p hp
    exact ⟨np p, List.mem_map.2 ⟨p, hp, rfl⟩, (hnp p hp).1, (hnp p hp).2.1⟩

/-! ## What the equality proof does guarantee: special soundness -/

theorem eq_extract_add {M : Type} [AddCommGroup M] (A S C Z V H1 H2 : M) (e1 e2 v1 v2 m1 m2 c1 c2 E : Int)
    (h : e1 • A + H1 + v1 • S + m1 • C + c1 • (-(Z - (E • A + V))) = e2 • A + H2 + v2 • S + m2 • C + c2 • (-(Z - (E • A + V)))) :
    (c1 - c2) • Z = ((e1 - e2) + (c1 - c2) * E) • A + (v1 - v2) • S + (m1 - m2) • C + ((H1 - H2) + (c1 - c2) • V) := by
  linear_combination (norm := module) -h

theorem eq_extract {G : Type} [CommGroup G] (A S C Z V H1 H2 : G) (e1 e2 v1 v2 m1 m2 c1 c2 E : Int)
    (h : A ^ e1 * H1 * S ^ v1 * C ^ m1 * ((Z / (A ^ E * V))⁻¹) ^ c1 = A ^ e2 * H2 * S ^ v2 * C ^ m2 * ((Z / (A ^ E * V))⁻¹) ^ c2) :
    Z ^ (c1 - c2) = A ^ ((e1 - e2) + (c1 - c2) * E) * S ^ (v1 - v2) * C ^ (m1 - m2) * ((H1 / H2) * V ^ (c1 - c2)) :=
  congrArg Additive.toMul (eq_extract_add (M := Additive G) (.ofMul A) (.ofMul S) (.ofMul C) (.ofMul Z) (.ofMul V) (.ofMul H1)
    (.ofMul H2) e1 e2 v1 v2 m1 m2 c1 c2 E (congrArg Additive.ofMul h))

/-- **C63** Two equality proofs with the same `A'` and the same revealed values for which the verifier recomputes the same commitment
under challenges `c1`, `c2` satisfy the `(c1 - c2)`-th power of the CL equation with differences of responses as exponents: the
revealed attributes enter with exactly the revealed values. -/
theorem equality_proof_special_sound {pk : PrimaryPubKey} {n : Nat} {S Z C : (ZMod n)ˣ} {R : String → (ZMod n)ˣ}
    (hk : KeyUnits pk n S Z C R) (ordV : SetOrder) (p1 p2 : EqProof) {A' : (ZMod n)ˣ} (hA1 : Rep p1.aPrime A')
    (hA2 : p2.aPrime = p1.aPrime) (hrv : p2.revealed = p1.revealed) (c1 c2 : Int) (schema nonSchema : Finset String)
    (req : SubProofRequest) (m1 m2 : String → Int)
    (hr : ∀ k ∈ unrevealedAttrs schema nonSchema req, pk.r.hasKey k = true)
    (hm1 : ∀ k ∈ unrevealedAttrs schema nonSchema req, p1.m.lookup k = some (m1 k))
    (hm2 : ∀ k ∈ unrevealedAttrs schema nonSchema req, p2.m.lookup k = some (m2 k))
    (hrev : ∀ e ∈ p1.revealed, pk.r.hasKey e.1 = true) (t : Int)
    (h1 : verifyEquality ordV pk p1 c1 schema nonSchema req = .ok t)
    (h2 : verifyEquality ordV pk p2 c2 schema nonSchema req = .ok t) :
    Z ^ (c1 - c2) = A' ^ ((p1.e - p2.e) + (c1 - c2) * LARGE_E_START_VALUE) * S ^ (p1.v - p2.v) * C ^ (p1.m2 - p2.m2) *
      (((unrevealedAttrs schema nonSchema req).prod (fun k => R k ^ (m1 k - m2 k))) *
        ((p1.revealed.map (fun e => R e.1 ^ e.2)).prod) ^ (c1 - c2)) := by
  have hn := hk.hn
  have hn0 := neZero_of hn
  rw [verifyEquality_units hk ordV p1 hA1 c1 schema nonSchema req m1 hr hm1 hrev] at h1
  rw [verifyEquality_units hk ordV p2 (hA2 ▸ hA1) c2 schema nonSchema req m2 hr hm2 (hrv ▸ hrev), hrv] at h2
  have := val_injective ((Res.ok.inj h1).trans (Res.ok.inj h2).symm)
  rw [eq_extract _ _ _ _ _ _ _ _ _ _ _ _ _ _ _ _ this]
  congr 2
  have hf : ∀ m : String → Int, hiddenProd R m (ordV.enum (unrevealedAttrs schema nonSchema req)) =
      (unrevealedAttrs schema nonSchema req).prod (fun k => R k ^ m k) := by
    intro m
    have : (unrevealedAttrs schema nonSchema req) = (ordV.enum (unrevealedAttrs schema nonSchema req)).toFinset := by
      ext k; rw [List.mem_toFinset, ordV.mem]
    conv_rhs => rw [this]
    rw [List.prod_toFinset _ (ordV.nodup _)]
    rfl
  rw [hf, hf, ← Finset.prod_div_distrib]
  simp only [zpow_sub]
  rfl

/-! ## C62: credentials with a committed attribute -/

/-- product of `R_k ^ m_k` over the attributes of which only a commitment was given to the issuer -/
def committedProd {n : Nat} (R : String → (ZMod n)ˣ) (vals : Map CredentialValue) : (ZMod n)ˣ :=
  attrProd R (vals.filter (fun e => e.2.isCommitment))

theorem attr_split_commit {n : Nat} (R : String → (ZMod n)ˣ) {vals : Map CredentialValue} (hnd : (vals.map (·.1)).Nodup)
    (o o' : SetOrder) (U Rv : Finset String) (hdis : Disjoint U Rv) (hall : U ∪ Rv = (vals.map (·.1)).toFinset) :
    attrProd R (signedAttrs vals) * committedProd R vals =
      hiddenProd R (attrValue vals) (o.enum U) * hiddenProd R (attrValue vals) (o'.enum Rv) := by
  have h1 : attrProd R (signedAttrs vals) * committedProd R vals = attrProd R vals := by
    unfold committedProd signedAttrs attrProd
    clear hall hnd
    induction vals with
    | nil => simp
    | cons a l ih =>
      have ih' := ih
      rcases a with ⟨k, v | v | ⟨v, b⟩⟩
      · simp only [List.filter_cons, CredentialValue.isKnown_known, Bool.true_or, if_true, CredentialValue.isCommitment_known,
          Bool.false_eq_true, if_false, List.map_cons, List.prod_cons]
        rw [mul_assoc, ih' ]
      · simp only [List.filter_cons, CredentialValue.isHidden_hidden, Bool.or_true, if_true, CredentialValue.isCommitment_hidden,
          Bool.false_eq_true, if_false, List.map_cons, List.prod_cons]
        rw [mul_assoc, ih']
      · simp only [List.filter_cons, CredentialValue.isKnown_commitment, CredentialValue.isHidden_commitment, Bool.or_false,
          CredentialValue.isCommitment_commitment, if_true, Bool.false_eq_true, if_false, List.map_cons, List.prod_cons]
        rw [mul_left_comm, ih']
  have h2 : attrProd R vals = hiddenProd R (attrValue vals) (vals.map (·.1)) := by
    unfold attrProd hiddenProd
    rw [List.map_map]
    congr 1
    apply List.map_congr_left
    intro e he
    simp only [Function.comp]
    rw [attrValue_of_mem hnd he]
  rw [h1, h2, ← hiddenProd_append]
  apply hiddenProd_perm
  rw [List.perm_ext_iff_of_nodup hnd]
  · intro k
    have : k ∈ U ∪ Rv ↔ k ∈ (vals.map (·.1)).toFinset := by rw [hall]
    rw [Finset.mem_union, List.mem_toFinset] at this
    rw [List.mem_append, o.mem, o'.mem, this]
  · rw [List.nodup_append']
    refine ⟨o.nodup _, o'.nodup _, ?_⟩
    intro k hk1 hk2
    rw [o.mem] at hk1
    rw [o'.mem] at hk2
    exact Finset.disjoint_left.1 hdis hk1 hk2

theorem eq_algebra_commit {G : Type} [CommGroup G] (A S C U V Ut Z K : G) (e v m2 r c E eT vT m2T : Int)
    (h : Z * K = A ^ e * S ^ v * C ^ m2 * (U * V)) :
    (S ^ r * A) ^ (c * (e - E) + eT) * (U ^ c * Ut) * S ^ (c * (v - e * r) + vT) * C ^ (c * m2 + m2T) *
      ((Z / ((S ^ r * A) ^ E * V))⁻¹) ^ c = (S ^ r * A) ^ eT * Ut * S ^ vT * C ^ m2T * K ^ c := by
  have h1 := eq_algebra A S C U V Ut (Z * K) e v m2 r c E eT vT m2T h
  have h2 : ((Z / ((S ^ r * A) ^ E * V))⁻¹) ^ c = ((Z * K / ((S ^ r * A) ^ E * V))⁻¹) ^ c * K ^ c := by
    rw [← mul_zpow]
    congr 1
    rw [mul_div_right_comm, mul_inv, inv_mul_cancel_right]
  rw [h2, ← mul_assoc, h1]

/-- **C62 is false**: presenting a credential with a committed attribute.  `process_credential_signature` accepts such a credential (its
equation leaves the committed attributes out), the prover builds a proof without an error, but the verifier recomputes the
commitment multiplied by the `c`-th power of the product of `R_k ^ m_k` over the committed attributes.  The verdict is whether the
hash of the recomputed value and the hash of the prover's value agree, and the two hashed strings differ unless that power is 1. -/
theorem committed_attribute_not_presentable (e : G1 →ₗ[F] G2 →ₗ[F] GT) (cv : Conv F G1 G2 GT) (mode : Overflow) (sha : Bytes → Bytes)
    (L : Nat) (hlen : ∀ m, (sha m).length = L) (ord ordF ordV : SetOrder) (it : Item F G1 G2 GT) {n : Nat} {S Z C A : (ZMod n)ˣ}
    {R : String → (ZMod n)ˣ} (hk : KeyUnits it.pk.pKey n S Z C R) (hA : Rep it.sig.p.a A)
    (hcl : CLEquation S Z C R A it.sig.p.e it.sig.p.v it.sig.p.m2 it.vals) (hnd : (it.vals.map (·.1)).Nodup)
    (hattrs : it.nonSchema ∪ it.schema = (it.vals.map (·.1)).toFinset) (hcov : ∀ k ∈ it.vals.map (·.1), it.pk.pKey.r.hasKey k = true)
    (hrev : it.req.revealed ⊆ it.schema) (hno : it.req.predicates = []) (hnr : it.witness = none) (nonce : Int) :
    ∃ (proof : Proof F G1 G2) (v : PVerifier G1 G2 GT) (sp : SubProof F G1 G2) (ei : EqInit) (t : Int),
      present e cv mode sha ord ordF [] [it] nonce = .ok proof ∧ expectItems [] [it] = .ok v ∧ proof.proofs = [sp] ∧
      initEqProof ord [] it.pk.pKey it.sig.p it.schema it.nonSchema it.req none it.rnd = .ok ei ∧
      verifyEquality ordV it.pk.pKey sp.primary.eq proof.cHash it.schema it.nonSchema it.req = .ok t ∧
      (v.verify e cv mode sha ordV proof nonce).2 = .ok (decide
        (sha (toBytes t ++ toBytes ei.aPrime ++ toBytes nonce) = sha (toBytes ei.t ++ toBytes ei.aPrime ++ toBytes nonce))) ∧
      ((t : Int) : ZMod n) = (ei.t : ZMod n) * ((committedProd R it.vals ^ proof.cHash : (ZMod n)ˣ) : ZMod n) ∧
      (committedProd R it.vals ^ proof.cHash ≠ 1 →
        toBytes t ++ toBytes ei.aPrime ++ toBytes nonce ≠ toBytes ei.t ++ toBytes ei.aPrime ++ toBytes nonce) := by
  have hn := hk.hn
  have hn0 := neZero_of hn
  set U := unrevealedAttrs it.schema it.nonSchema it.req with hUdef
  have hU : U ∪ it.req.revealed = (it.vals.map (·.1)).toFinset := by
    rw [hUdef]
    unfold unrevealedAttrs
    rw [Finset.sdiff_union_of_subset (hrev.trans Finset.subset_union_right), hattrs]
  have hUk : ∀ k ∈ U ∪ it.req.revealed, k ∈ it.vals.map (·.1) := by
    intro k hkm
    rwa [hU, List.mem_toFinset] at hkm
  have hUr : ∀ k ∈ U, it.pk.pKey.r.hasKey k = true := fun k hkm => hcov k (hUk k (Finset.mem_union_left _ hkm))
  have hchk : checkBuilderParams it.vals it.req it.schema it.nonSchema = .ok () := by
    unfold checkBuilderParams
    simp only []
    have hs : it.schema ⊆ (it.vals.map (·.1)).toFinset := by rw [← hattrs]; exact Finset.subset_union_right
    rw [if_neg (not_not.2 hattrs), if_neg, if_neg, if_neg]
    · rw [hno]; simp
    · rw [hno]; simp
    · rw [not_not, Finset.sdiff_eq_empty_iff_subset]
      exact hrev.trans hs
  have hnone : initNonRevoc e it.sig it.reg it.pk.rKey it.witness it.x = none := by
    rw [hnr]
    unfold initNonRevoc
    cases it.sig.r <;> cases it.reg <;> cases it.pk.rKey <;> rfl
  obtain ⟨ei, hei⟩ : ∃ ei, ei = (⟨val (S ^ it.rnd.r * A), val ((S ^ it.rnd.r * A) ^ it.rnd.eT *
      hiddenProd R (mTildeOf [] it.rnd.mT) (ord.enum U) * S ^ it.rnd.vT * C ^ it.rnd.m2T), it.rnd.eT, it.sig.p.e - LARGE_E_START_VALUE,
      it.rnd.vT, it.sig.p.v - it.sig.p.e * it.rnd.r, getMtilde (ord.enum U) [] it.rnd.mT, it.rnd.m2T, it.sig.p.m2⟩ : EqInit) := ⟨_, rfl⟩
  have hinit : initPrimaryProof mode ord [] it.pk.pKey it.sig.p it.vals it.schema it.nonSchema it.req none it.rnd it.nrnd = .ok ⟨ei, []⟩ := by
    unfold initPrimaryProof
    rw [initEqProof_units hk ord [] it.sig.p hA it.schema it.nonSchema it.req none it.rnd hUr, Res.ok_bind, hno, hei]
    rfl
  have hadd : Builder.addSubProofRequest e cv mode ord (Builder.new : Builder F G1 G2 GT) it.req it.schema it.nonSchema it.sig it.vals
      it.pk it.reg it.witness it.x it.rnd it.nrnd = .ok ⟨[], [⟨⟨ei, []⟩, none, it.vals, it.req, it.schema, it.nonSchema⟩],
        [toBytes ei.aPrime], [toBytes ei.t]⟩ := by
    unfold Builder.addSubProofRequest
    rw [hchk, Res.ok_bind]
    simp only []
    rw [hnone]
    simp only [Option.map_none, Builder.new]
    rw [hinit]
    rfl
  set c := getHashAsInt sha ([toBytes ei.t] ++ [toBytes ei.aPrime] ++ [toBytes nonce]) with hc
  have hmT : ∀ k ∈ U, ei.mT.lookup k = some (mTildeOf [] it.rnd.mT k) := by
    intro k hkm
    rw [hei]
    exact (getMtilde_lookup (ord.enum U) [] it.rnd.mT).1 k ((ord.mem _ _).2 hkm)
  have hfe := finalizeEq_units ordF ei c it.schema it.nonSchema it.vals it.req (mTildeOf [] it.rnd.mT) hmT hUk
  obtain ⟨eqp, heqp⟩ : ∃ eqp, eqp = (⟨(ordF.enum it.req.revealed).map (fun k => (k, attrValue it.vals k)), ei.aPrime, c * ei.ePrime + ei.eT,
      c * ei.vPrime + ei.vT, (ordF.enum U).map (fun k => (k, c * attrValue it.vals k + mTildeOf [] it.rnd.mT k)),
      c * ei.m2 + ei.m2T⟩ : EqProof) := ⟨_, rfl⟩
  rw [← hUdef, ← heqp] at hfe
  have hlk : ∀ k ∈ U, eqp.m.lookup k = some (c * attrValue it.vals k + mTildeOf [] it.rnd.mT k) := by
    intro k hkm
    rw [heqp]
    exact map_lookup_key (ordF.enum U) (fun k => c * attrValue it.vals k + mTildeOf [] it.rnd.mT k) ((ordF.mem _ _).2 hkm)
  have hAp : Rep eqp.aPrime (S ^ it.rnd.r * A) := by rw [heqp, hei]; exact rep_val _
  have hve := verifyEquality_units hk ordV eqp hAp c it.schema it.nonSchema it.req _ hUr hlk (by
    intro a ha
    rw [heqp] at ha
    simp only [List.mem_map] at ha
    obtain ⟨k, hk1, rfl⟩ := ha
    exact hcov k (hUk k (Finset.mem_union_right _ ((ordF.mem _ _).1 hk1))))
  have hprod : (eqp.revealed.map (fun e => R e.1 ^ e.2)).prod = hiddenProd R (attrValue it.vals) (ordF.enum it.req.revealed) := by
    rw [heqp, List.map_map]
    rfl
  have hsplit := attr_split_commit R hnd ord ordF U it.req.revealed (by
    rw [hUdef]; unfold unrevealedAttrs; exact Finset.sdiff_disjoint) hU
  have hcl' : Z * committedProd R it.vals = A ^ it.sig.p.e * S ^ it.sig.p.v * C ^ it.sig.p.m2 *
      (hiddenProd R (attrValue it.vals) (ord.enum U) * hiddenProd R (attrValue it.vals) (ordF.enum it.req.revealed)) := by
    rw [← hsplit, ← mul_assoc]
    congr 1
  have haddp : hiddenProd R (fun k => c * attrValue it.vals k + mTildeOf [] it.rnd.mT k) (ord.enum U) =
      hiddenProd R (attrValue it.vals) (ord.enum U) ^ c * hiddenProd R (mTildeOf [] it.rnd.mT) (ord.enum U) := by
    rw [← hiddenProd_add]
    congr 1
    funext k
    ring
  rw [← hUdef, hprod, hiddenProd_perm R _ (ordV.perm ord U), haddp, heqp, hei] at hve
  simp only [] at hve
  rw [eq_algebra_commit A S C _ _ _ Z (committedProd R it.vals) it.sig.p.e it.sig.p.v it.sig.p.m2 it.rnd.r c LARGE_E_START_VALUE
    it.rnd.eT it.rnd.vT _ hcl'] at hve
  rw [hei] at heqp
  simp only [] at heqp
  rw [← heqp] at hve
  set T := (S ^ it.rnd.r * A) ^ it.rnd.eT * hiddenProd R (mTildeOf [] it.rnd.mT) (ord.enum U) * S ^ it.rnd.vT * C ^ it.rnd.m2T with hT
  have hcs : checkShape ⟨eqp, []⟩ it.req = .ok () := by
    unfold checkShape
    rw [if_neg, if_neg]
    · rw [hno]; simp
    · rw [not_not, heqp]
      ext k
      simp only [List.map_map, List.mem_toFinset, List.mem_map, Function.comp, exists_eq_right, ordF.mem]
  have hfin : finalizeSubProof cv ordF c (⟨⟨ei, []⟩, none, it.vals, it.req, it.schema, it.nonSchema⟩ : InitProof F G1 G2 GT) =
      .ok ⟨⟨eqp, []⟩, none⟩ := by
    unfold finalizeSubProof finalizePrimaryProof finalizeNonRevocOpt
    simp only [Res.pure_eq, Res.ok_bind]
    rw [hfe]
    rfl
  have hexp := expectItems_ok [] [it] (by
    intro x hx
    rw [List.mem_singleton] at hx
    subst hx
    exact ⟨hrev, by rw [hno]; simp⟩)
  have hvp : verifyPrimaryProof mode ordV it.cred.pk.pKey c ⟨eqp, []⟩ it.cred.schema it.cred.nonSchema it.cred.req =
      .ok [val (T * committedProd R it.vals ^ c)] := by
    unfold verifyPrimaryProof
    have : verifyEquality ordV it.cred.pk.pKey eqp c it.cred.schema it.cred.nonSchema it.cred.req = .ok _ := hve
    rw [this]
    rfl
  have hiq : initEqProof ord [] it.pk.pKey it.sig.p it.schema it.nonSchema it.req none it.rnd = .ok ei := by
    rw [initEqProof_units hk ord [] it.sig.p hA it.schema it.nonSchema it.req none it.rnd hUr, hei]
    rfl
  have het : ei.t = val T := by rw [hei]
  refine ⟨⟨[⟨⟨eqp, []⟩, none⟩], c, [toBytes ei.aPrime]⟩, _, _, ei, _, ?_, hexp, rfl, hiq, hve, ?_, ?_, ?_⟩
  · unfold present
    simp only [List.foldl_nil, List.foldlM_cons, List.foldlM_nil]
    rw [hadd]
    simp only [Res.pure_eq, Res.ok_bind]
    unfold Builder.finalize
    simp only []
    rw [← hc, List.mapM_cons, hfin]
    rfl
  · unfold PVerifier.verify
    have hshape : checkVerifyParams ([it].map Item.cred) (⟨[⟨⟨eqp, []⟩, none⟩], c, [toBytes ei.aPrime]⟩ : Proof F G1 G2) = .ok () := by
      unfold checkVerifyParams
      rw [if_neg (by simp)]
      have : checkShape ⟨eqp, []⟩ it.cred.req = .ok () := hcs
      simp only [List.map_cons, List.map_nil, List.zip_cons_cons, List.zip_nil_right, List.mapM_cons, List.mapM_nil, this]
      rfl
    have hloop : verifyLoop e cv mode ordV c [((⟨⟨eqp, []⟩, none⟩ : SubProof F G1 G2), it.cred)] [] =
        ([], .ok [toBytes (val (T * committedProd R it.vals ^ c))]) := by
      unfold verifyLoop
      simp only [checkCommon]
      rw [hvp]
      simp only [verifyLoop, verifyNonRevoc]
      rfl
    simp only []
    rw [hshape]
    simp only [List.map_cons, List.map_nil, List.zip_cons_cons, List.zip_nil_right, List.foldl_nil, PVerifier.new]
    rw [hloop]
    simp only [Res.ok.injEq, decide_eq_decide]
    have hce : getHashAsInt sha ([toBytes (val (T * committedProd R it.vals ^ c))] ++ [toBytes ei.aPrime] ++ [toBytes nonce]) = c ↔
        getHashAsInt sha ([toBytes (val (T * committedProd R it.vals ^ c))] ++ [toBytes ei.aPrime] ++ [toBytes nonce]) =
          getHashAsInt sha ([toBytes ei.t] ++ [toBytes ei.aPrime] ++ [toBytes nonce]) := by rw [hc]
    rw [hce]
    constructor
    · intro hb
      have := getHashAsInt_eq hlen hb
      simpa using this
    · intro hb
      unfold getHashAsInt
      simp only [List.flatten_append, List.flatten_cons, List.flatten_nil, List.append_nil]
      rw [hb]
  · rw [het, cast_val, cast_val, Units.val_mul]
  · intro hK hcon
    simp only [List.append_cancel_right_eq] at hcon
    have h1 := toBytes_injective (val_nonneg _) (by rw [het]; exact val_nonneg _) hcon
    rw [het] at h1
    have h2 := val_injective h1
    exact hK (by simpa using h2)

end

/-! ## The hypotheses are met -/

namespace Toy77
open Rev

abbrev GA := ZMod 101 × ZMod 101

/-- the item without predicates -/
def itemNP : Item (ZMod 101) GA (ZMod 101) GA := { item (ZMod 101) GA (ZMod 101) GA with req := ⟨{"name"}, []⟩ }

theorem honestNP : Honest pair2 itemNP := by
  have h := honest (F := ZMod 101) (G1 := GA) (G2 := ZMod 101) (GT := GA) pair2
  exact ⟨h.signed, h.distinct, h.noCommitment, h.attrs, h.covered, h.revealed, by intro p hp; simp [itemNP] at hp, h.rand, h.nonRevoked⟩

theorem honest_pair : Honest pair2 (item (ZMod 101) GA (ZMod 101) GA) := honest pair2

/-- the master secret is unrevealed in both items -/
theorem ms_unrevealed : "master_secret" ∈ unrevealedAttrs {"name", "age"} {"master_secret"} ⟨{"name"}, []⟩ := by decide

/-- `verdict_only_for_matching_shape`, `replay_gives_collision` and `honest_second_presentation_rejected` apply: with a constant hash
function one proof is accepted under two nonces, and the second of two honest presentations is rejected by a reused verifier -/
example (cv : Conv (ZMod 101) GA (ZMod 101) GA) : ∃ (v : PVerifier GA (ZMod 101) GA) (p1 p2 : Proof (ZMod 101) GA (ZMod 101)),
    (v.verify pair2 cv .checked (fun _ => []) ord p1 1).2 = .ok true ∧ (v.verify pair2 cv .checked (fun _ => []) ord p1 2).2 = .ok true ∧
    ∀ b, ((v.verify pair2 cv .checked (fun _ => []) ord p1 1).1.verify pair2 cv .checked (fun _ => []) ord p2 1).2 ≠ .ok b := by
  have hi : ∀ it ∈ [itemNP], Honest pair2 it ∧ "master_secret" ∈ unrevealedAttrs it.schema it.nonSchema it.req ∧
      attrValue it.vals "master_secret" = (fun _ : String => (6 : Int)) "master_secret" := by
    intro it hit
    rw [List.mem_singleton] at hit
    subst hit
    exact ⟨honestNP, ms_unrevealed, by show attrValue vals "master_secret" = 6; decide⟩
  obtain ⟨p1, p2, v, h1, h2, h3, h4, h5, h6⟩ := honest_second_presentation_rejected pair2 cv .checked (fun _ => []) ord ord ord
    "master_secret" 41 42 [itemNP] (by simp) (fun _ => 6) hi 1 1
  obtain ⟨q1, q2, w, k1, k2, k3, k4, k5, k6⟩ := honest_second_presentation_rejected pair2 cv .checked (fun _ => []) ord ord ord
    "master_secret" 41 42 [itemNP] (by simp) (fun _ => 6) hi 2 2
  have e1 : present pair2 cv .checked (fun _ => []) ord ord [("master_secret", 41)] [itemNP] 1 =
    present pair2 cv .checked (fun _ => []) ord ord [("master_secret", 41)] [itemNP] 2 := rfl
  rw [h1, k1] at e1
  cases e1
  rw [h3] at k3
  cases k3
  refine ⟨v, p1, p2, h4, k4, h6 ?_⟩
  have z : ∀ (mt : Int) (p : Proof (ZMod 101) GA (ZMod 101)),
      present pair2 cv .checked (fun _ => []) ord ord [("master_secret", mt)] [itemNP] 1 = .ok p → p.cHash = 0 := by
    intro mt p hp
    unfold present Builder.finalize at hp
    simp only [Res.bind_eq_ok] at hp
    obtain ⟨b, -, ps, -, hp⟩ := hp
    cases hp
    rfl
  rw [z 41 p1 h1, z 42 p2 h2]
  decide

/-- `missing_nonrevocation_accepted` and `borrowed_nonrevocation_accepted` apply -/
example (cv : Conv (ZMod 101) GA (ZMod 101) GA) (sha : Bytes → Bytes) (nonce : Int) :=
  And.intro (missing_nonrevocation_accepted pair2 cv .checked sha ord ord ord _ honest_pair toyPub 2 (4, 0) nonce)
    (borrowed_nonrevocation_accepted pair2 cv .checked sha ord ord ord _ honest_pair toyPub 2 (4, 0) toySig 0 toy_authentic nonce)

/-- `universal_forgery` applies: revealing the name 1234567 and proving `age ≥ 200` under the toy key, for a request that also has
revocation data -/
example (cv : Conv (ZMod 101) GA (ZMod 101) GA) (sha : Bytes → Bytes) (nonce : Int) :=
  universal_forgery (F := ZMod 101) pair2 cv .checked sha ord
    (⟨[⟨⟨pk, some toyPub⟩, ⟨{"name"}, [⟨"age", .GE, 200⟩]⟩, {"name", "age"}, {"master_secret"}, some (4, 0), some 2⟩],
      [("master_secret", none)]⟩ : PVerifier GA (ZMod 101) GA)
    (by
      intro cr hcr
      rw [List.mem_singleton] at hcr
      subst hcr
      refine ⟨⟨77, u 4, u 9, u 16, R, key⟩, ?_, ?_, ?_⟩
      · show ∀ k ∈ ({"master_secret"} ∪ {"name", "age"} : Finset String), pk.r.hasKey k = true; decide
      · show ({"name"} : Finset String) ⊆ {"name", "age"}; decide
      · intro p hp
        change p ∈ [(⟨"age", .GE, 200⟩ : Predicate)] at hp
        rw [List.mem_singleton] at hp
        subst hp
        exact ⟨200, rfl⟩)
    (by
      intro a ha
      rw [List.mem_singleton] at ha
      subst ha
      refine ⟨rfl, fun cr hcr => ?_⟩
      rw [List.mem_singleton] at hcr
      subst hcr
      show "master_secret" ∈ unrevealedAttrs {"name", "age"} {"master_secret"} _
      unfold unrevealedAttrs
      decide)
    (fun _ _ => 1234567) nonce

/-- `false_predicate_accepted` applies: the holder of a credential with age 28 proves `age ≥ 65` -/
example (cv : Conv (ZMod 101) GA (ZMod 101) GA) (sha : Bytes → Bytes) (nonce : Int) :=
  false_predicate_accepted pair2 cv .checked sha ord ord ord itemNP honestNP rfl [⟨"age", .GE, 65⟩]
    (by
      intro p hp
      rw [List.mem_singleton] at hp
      subst hp
      exact ⟨(by decide : "age" ∈ ({"name", "age"} : Finset String)), 65, rfl⟩) nonce

/-- `equality_proof_special_sound` applies: the honest prover's answers to two challenges -/
example (cv : Conv (ZMod 101) GA (ZMod 101) GA) : ∃ (p1 p2 : EqProof) (t : Int), p2.aPrime = p1.aPrime ∧ p2.revealed = p1.revealed ∧
    verifyEquality ord pk p1 5 {"name", "age"} {"master_secret"} ⟨{"name"}, []⟩ = .ok t ∧
    verifyEquality ord pk p2 6 {"name", "age"} {"master_secret"} ⟨{"name"}, []⟩ = .ok t := by
  obtain ⟨pi, h1, h2⟩ := primary_complete key .checked ord ord ord [] sig (A := u 16) ⟨by decide, by decide⟩ vals signed (by decide)
    (by decide) {"name", "age"} {"master_secret"} (by decide) (by decide) ⟨{"name"}, []⟩ (by decide) (by simp) none
    ⟨21, 22, 23, 24, fun _ => 25⟩ (fun _ => ⟨fun _ => 31, 32, fun _ => 33, fun _ => 34, 35, 36⟩) (fun _ => ⟨by norm_num, by norm_num⟩)
  have hne : pi.ne = [] := by
    unfold initPrimaryProof at h1
    rw [Res.bind_eq_ok] at h1
    obtain ⟨x, -, h1⟩ := h1
    cases h1
    rfl
  have key2 : ∀ c : Int, 0 ≤ c → ∃ p t, finalizeEqProof ord pi.eq c {"name", "age"} {"master_secret"} vals ⟨{"name"}, []⟩ = .ok p ∧
      verifyEquality ord pk p c {"name", "age"} {"master_secret"} ⟨{"name"}, []⟩ = .ok t ∧ toBytes t = toBytes pi.eq.t ∧ 0 ≤ t := by
    intro c hc
    obtain ⟨pp, tau, g1, g2, g3, g4, -⟩ := h2 c hc
    unfold finalizePrimaryProof at g1
    rw [Res.bind_eq_ok] at g1
    obtain ⟨p, g1, g5⟩ := g1
    rw [hne] at g5
    cases g5
    unfold verifyPrimaryProof at g3
    rw [Res.bind_eq_ok] at g3
    obtain ⟨t, g3, g6⟩ := g3
    cases g6
    refine ⟨p, t, g1, g3, ?_, ?_⟩
    · unfold PrimaryInit.asTauList at g4
      simp only [List.map_cons, List.cons.injEq] at g4
      exact g4.1
    · unfold verifyEquality at g3
      simp only [Res.bind_eq_ok] at g3
      obtain ⟨t1, -, r0, -, r1, -, d, -, di, -, t2, -, g3⟩ := g3
      unfold modMul at g3
      rw [modulus_eq_emod _ _ (by decide)] at g3
      cases g3
      exact Int.emod_nonneg _ (by decide)
  obtain ⟨p1, t1, a1, a2, a3, a4⟩ := key2 5 (by norm_num)
  obtain ⟨p2, t2, b1, b2, b3, b4⟩ := key2 6 (by norm_num)
  have ht : t1 = t2 := toBytes_injective a4 b4 (a3.trans b3.symm)
  subst ht
  refine ⟨p1, p2, t1, ?_, ?_, a2, b2⟩
  · unfold finalizeEqProof at a1 b1
    simp only [Res.bind_eq_ok] at a1 b1
    obtain ⟨_, -, _, -, a1⟩ := a1
    obtain ⟨_, -, _, -, b1⟩ := b1
    cases a1; cases b1; rfl
  · unfold finalizeEqProof at a1 b1
    simp only [Res.bind_eq_ok] at a1 b1
    obtain ⟨_, -, r1, a3, a1⟩ := a1
    obtain ⟨_, -, r2, b3, b1⟩ := b1
    rw [a3] at b3
    cases a1; cases b1; cases b3; rfl

/-- `committed_attribute_not_presentable` applies to a credential with the committed attribute `age`, and the committed product is not 1 -/
example (cv : Conv (ZMod 101) GA (ZMod 101) GA) (sha : Bytes → Bytes) (hlen : ∀ m, (sha m).length = 32) (nonce : Int) :=
  committed_attribute_not_presentable pair2 cv .checked sha 32 hlen ord ord ord
    { itemNP with sig := ⟨⟨3, 16, 7, 5⟩, none⟩, vals := [("master_secret", .hidden 6), ("name", .known 3), ("age", .commitment 28 5)], pk := ⟨{ pk with z := 4 }, none⟩ }
    (n := 77) (S := u 4) (Z := u 4) (C := u 16) (A := u 16) (R := R)
    ⟨key.hn, rfl, key.s, (⟨by decide, by decide⟩ : Rep (4 : Int) (u 4)), key.c, key.r⟩ (⟨by decide, by decide⟩ : Rep (16 : Int) (u 16))
    (by
      unfold CLEquation attrProd signedAttrs
      have : ([("master_secret", .hidden 6), ("name", .known 3), ("age", .commitment 28 5)] : Map CredentialValue).filter
        (fun e => e.2.isKnown || e.2.isHidden) = [("master_secret", .hidden 6), ("name", .known 3)] := by decide
      simp only [this]
      ext
      simp only [List.map_cons, List.map_nil, List.prod_cons, List.prod_nil, CredentialValue.value, mul_one]
      have e1 : ∀ (x : (ZMod 77)ˣ) (k : Nat), ((x ^ (k : Int) : (ZMod 77)ˣ) : ZMod 77) = (x : ZMod 77) ^ k := by
        intro x k; rw [zpow_natCast, Units.val_pow_eq_pow_val]
      have h7 := e1 (u 16) 7
      have h5 := e1 (u 4) 5
      have h3 := e1 (u 16) 3
      have k6 := e1 (R "master_secret") 6
      have k3 := e1 (R "name") 3
      push_cast at h7 h5 h3 k6 k3 ⊢
      rw [h7, h5, h3, k6, k3]
      decide +kernel)
    (by decide) (by decide) (by decide) (by decide) rfl rfl nonce

end Toy77

end Verif.CL
