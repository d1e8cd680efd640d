import Verif.Props.CLPresentation
import Verif.Props.CLLinking
/-!
# Attribute values are bound modulo the exponent of the credential only (C205, C206)

The equation of a credential, `Z = A^e S^v Rctxt^m2 ∏ R_k^{m_k}`, is also satisfied by `A / R_k^c` and the value `m_k + e c`.  Nothing in
the verification of a presentation bounds the values, so the holder can show `m_k + e c` instead of `m_k`, and credentials with different
values of a common attribute can be shown together.
-/
set_option linter.unusedSectionVars false
set_option linter.unusedVariables false
set_option linter.unusedSimpArgs false
namespace Verif.CL.Shift
open Verif Verif.BN Verif.CL

/-- the value moved by `d` -/
def moveValue (d : Int) : CredentialValue → CredentialValue
  | .known v => .known (v + d)
  | .hidden v => .hidden (v + d)
  | .commitment v b => .commitment v b

/-- the value of the attribute `k` moved by `d` -/
def moveVals (k : String) (d : Int) (vals : Map CredentialValue) : Map CredentialValue :=
  vals.map fun x => if x.1 = k then (x.1, moveValue d x.2) else x

/-- what the holder does to the credential, with public numbers only: `A / R_k^c` -/
def moveSig (pk : PrimaryPubKey) (sig : PrimarySig) (k : String) (c : Int) : Res String PrimarySig := do
  let r ← Res.ofOption "no such attribute" (pk.r.lookup k)
  let x ← modExp r c pk.n
  let a ← modDiv sig.a x pk.n
  pure { sig with a := a }

theorem moveVals_keys (k : String) (d : Int) (vals : Map CredentialValue) : (moveVals k d vals).map (·.1) = vals.map (·.1) := by
  unfold moveVals
  rw [List.map_map]
  apply List.map_congr_left
  intro x _
  simp only [Function.comp]
  split <;> rfl

theorem moveVals_lookup (k : String) (d : Int) (vals : Map CredentialValue) (j : String) :
    (moveVals k d vals).lookup j = if j = k then (vals.lookup j).map (moveValue d) else vals.lookup j := by
  induction vals with
  | nil => simp [moveVals, List.lookup]
  | cons x l ih =>
    unfold moveVals at ih ⊢
    rw [List.map_cons]
    by_cases hx : x.1 = k
    · rw [if_pos hx]
      by_cases hj : j = x.1
      · subst hj
        rw [if_pos hx, List.lookup_cons, List.lookup_cons, beq_self_eq_true]
        rfl
      · rw [List.lookup_cons, List.lookup_cons, beq_eq_false_iff_ne.2 hj]
        exact ih
    · rw [if_neg hx]
      by_cases hj : j = x.1
      · subst hj
        rw [if_neg hx, List.lookup_cons, List.lookup_cons, beq_self_eq_true]
      · rw [List.lookup_cons, List.lookup_cons, beq_eq_false_iff_ne.2 hj]
        exact ih

theorem moveVals_other (k : String) (d : Int) (vals : Map CredentialValue) {j : String} (h : j ≠ k) :
    attrValue (moveVals k d vals) j = attrValue vals j := by
  unfold attrValue
  rw [moveVals_lookup, if_neg h]

theorem moveVals_self (k : String) (d : Int) (vals : Map CredentialValue) (hk : k ∈ vals.map (·.1))
    (hc : ∀ a ∈ vals, a.2.isCommitment = false) : attrValue (moveVals k d vals) k = attrValue vals k + d := by
  unfold attrValue
  rw [moveVals_lookup, if_pos rfl]
  rw [List.mem_map] at hk
  obtain ⟨x, hx, rfl⟩ := hk
  cases hl : vals.lookup x.1 with
  | none =>
    rw [List.lookup_eq_none_iff] at hl
    have := hl x hx
    simp at this
  | some y =>
    have hm := mem_of_lookup hl
    have := hc _ hm
    cases y with
    | known v => rfl
    | hidden v => rfl
    | commitment v b => simp [CredentialValue.isCommitment] at this

theorem moveVals_noCommitment (k : String) (d : Int) {vals : Map CredentialValue} (hc : ∀ a ∈ vals, a.2.isCommitment = false) :
    ∀ a ∈ moveVals k d vals, a.2.isCommitment = false := by
  intro a ha
  unfold moveVals at ha
  rw [List.mem_map] at ha
  obtain ⟨x, hx, rfl⟩ := ha
  have := hc x hx
  obtain ⟨n, y⟩ := x
  split
  · cases y <;> simp_all [moveValue, CredentialValue.isCommitment]
  · exact this

/-- without commitments everything is signed -/
theorem signed_all {vals : Map CredentialValue} (hc : ∀ a ∈ vals, a.2.isCommitment = false) : signedAttrs vals = vals := by
  unfold signedAttrs
  rw [List.filter_eq_self]
  intro a ha
  have := hc a ha
  obtain ⟨n, y⟩ := a
  cases y <;> simp_all [CredentialValue.isKnown, CredentialValue.isHidden, CredentialValue.isCommitment]

theorem moved_prod {n : Nat} (R : String → (ZMod n)ˣ) (k : String) (d : Int) : ∀ (vals : Map CredentialValue),
    (vals.map (·.1)).Nodup → (∀ a ∈ vals, a.2.isCommitment = false) →
    attrProd R (moveVals k d vals) = attrProd R vals * (if k ∈ vals.map (·.1) then R k ^ d else 1)
  | [], _, _ => by simp [moveVals, attrProd]
  | x :: l, hnd, hc => by
    rw [List.map_cons, List.nodup_cons] at hnd
    have ih := moved_prod R k d l hnd.2 (fun a ha => hc a (List.mem_cons_of_mem _ ha))
    have hx := hc x (List.mem_cons_self ..)
    unfold attrProd moveVals at ih ⊢
    rw [List.map_cons, List.map_cons, List.prod_cons, ih, List.map_cons, List.prod_cons, List.map_cons]
    obtain ⟨nm, y⟩ := x
    by_cases h : nm = k
    · subst h
      simp only at hnd
      rw [if_pos rfl, if_neg hnd.1, if_pos (List.mem_cons_self ..), mul_one, mul_right_comm]
      congr 1
      cases y with
      | known v => simp only [moveValue, CredentialValue.value]; rw [zpow_add]
      | hidden v => simp only [moveValue, CredentialValue.value]; rw [zpow_add]
      | commitment v b => simp [CredentialValue.isCommitment] at hx
    · rw [if_neg h]
      have : (k ∈ nm :: l.map (·.1)) ↔ k ∈ l.map (·.1) := by simp [Ne.symm h]
      simp only [this, mul_assoc]

/-- the moved credential satisfies the equation for the moved value -/
theorem moved_equation {n : Nat} (S Z C : (ZMod n)ˣ) (R : String → (ZMod n)ˣ) (A : (ZMod n)ˣ) (e v m2 : Int) (vals : Map CredentialValue)
    (hnd : (vals.map (·.1)).Nodup) (hc : ∀ a ∈ vals, a.2.isCommitment = false) (k : String) (hk : k ∈ vals.map (·.1)) (c : Int)
    (h : CLEquation S Z C R A e v m2 vals) : CLEquation S Z C R (A / R k ^ c) e v m2 (moveVals k (e * c) vals) := by
  unfold CLEquation at h ⊢
  rw [signed_all hc] at h
  rw [signed_all (moveVals_noCommitment k _ hc), moved_prod R k _ vals hnd hc, if_pos hk, div_zpow, h, ← zpow_mul, mul_comm e c]
  generalize R k ^ (c * e) = y
  rw [div_mul_eq_mul_div, div_mul_eq_mul_div, div_mul_eq_mul_div, eq_div_iff_mul_eq', mul_assoc, mul_assoc, mul_assoc]

section
variable {F G1 G2 GT : Type} [Field F] [AddCommGroup G1] [Module F G1] [AddCommGroup G2] [Module F G2] [AddCommGroup GT] [Module F GT]

/-- the item with a moved value and another credential -/
def moved (it : Item F G1 G2 GT) (sig : PrimarySig) (k : String) (d : Int) : Item F G1 G2 GT :=
  { it with sig := ⟨sig, it.sig.r⟩, vals := moveVals k d it.vals }

/-- a moved credential is as good as the original for everything the prover and the verifier check -/
theorem moved_honest (e : G1 →ₗ[F] G2 →ₗ[F] GT) (it : Item F G1 G2 GT) (h : Honest e it) (k : String) (hk : k ∈ it.vals.map (·.1))
    (hp : ∀ p ∈ it.req.predicates, p.attrName ≠ k) (c : Int) :
    ∃ sig, moveSig it.pk.pKey it.sig.p k c = .ok sig ∧ Honest e (moved it sig k (it.sig.p.e * c)) ∧
      attrValue (moved it sig k (it.sig.p.e * c)).vals k = attrValue it.vals k + it.sig.p.e * c := by
  obtain ⟨n, S, Z, C, R, A, hkey, hA, hcl⟩ := h.signed
  obtain ⟨r, hr⟩ := hasKey_iff.1 (h.covered k hk)
  have hn0 := neZero_of hkey.hn
  have hrr := hkey.r k r hr
  have hsig : moveSig it.pk.pKey it.sig.p k c = .ok { it.sig.p with a := val (A / R k ^ c) } := by
    unfold moveSig
    rw [hr]
    simp only [Res.ofOption, Res.ok_bind]
    rw [hkey.n_eq, hrr.modExp hkey.hn, Res.ok_bind, hA.modDiv hkey.hn (rep_val _), Res.ok_bind]
    rfl
  refine ⟨_, hsig, ?_, moveVals_self k _ it.vals hk h.noCommitment⟩
  exact
    { signed := ⟨n, S, Z, C, R, A / R k ^ c, hkey, rep_val _, moved_equation S Z C R A _ _ _ it.vals h.distinct h.noCommitment k hk c hcl⟩
      distinct := by change ((moveVals k _ it.vals).map (·.1)).Nodup; rw [moveVals_keys]; exact h.distinct
      noCommitment := moveVals_noCommitment k _ h.noCommitment
      attrs := by change _ = ((moveVals k _ it.vals).map (·.1)).toFinset; rw [moveVals_keys]; exact h.attrs
      covered := by change ∀ j ∈ (moveVals k _ it.vals).map (·.1), _; rw [moveVals_keys]; exact h.covered
      revealed := h.revealed
      predicates := by
        intro p hpm
        have hv : attrValue (moved it { it.sig.p with a := val (A / R k ^ c) } k (it.sig.p.e * c)).vals p.attrName = attrValue it.vals p.attrName :=
          moveVals_other k _ it.vals (hp p hpm)
        rw [hv]
        exact h.predicates p hpm
      rand := h.rand
      nonRevoked := h.nonRevoked }

/-! ## What a presentation reveals -/

theorem fold_inits (e : G1 →ₗ[F] G2 →ₗ[F] GT) (cv : Conv F G1 G2 GT) (mode : Overflow) (ord : SetOrder) :
    ∀ (items : List (Item F G1 G2 GT)) (b b' : Builder F G1 G2 GT),
    items.foldlM (fun b it => b.addSubProofRequest e cv mode ord it.req it.schema it.nonSchema it.sig it.vals it.pk it.reg it.witness it.x
      it.rnd it.nrnd) b = .ok b' →
    b'.inits.map (fun i => (i.vals, i.req)) = b.inits.map (fun i => (i.vals, i.req)) ++ items.map (fun it => (it.vals, it.req))
  | [], b, b', h => by
    rw [List.foldlM_nil] at h
    cases h
    simp
  | it :: items, b, b', h => by
    rw [List.foldlM_cons] at h
    obtain ⟨b1, hb, h⟩ := Res.bind_eq_ok.1 h
    unfold Builder.addSubProofRequest at hb
    obtain ⟨_, _, hb⟩ := Res.bind_eq_ok.1 hb
    obtain ⟨pi, _, hb⟩ := Res.bind_eq_ok.1 hb
    cases hb
    rw [fold_inits e cv mode ord items _ b' h]
    simp

theorem commons_inits (commons : List (String × Int)) : ∀ (b : Builder F G1 G2 GT),
    (commons.foldl (fun b c => b.addCommonAttribute c.1 c.2) b).inits = b.inits := by
  induction commons with
  | nil => intro b; rfl
  | cons c l ih => intro b; rw [List.foldl_cons, ih]; rfl

theorem lookup_rev (vals : Map CredentialValue) (k : String) (l : List String) (r : List (String × Int))
    (h : List.Forall₂ (fun k y => (do let cv ← Res.ofOption "Encoded value not found" (vals.lookup k); pure (k, cv.value) : Res String (String × Int)) = .ok y) l r)
    (hmem : k ∈ l) : r.lookup k = some (attrValue vals k) := by
  induction h with
  | nil => simp at hmem
  | @cons a y l r hay hlr ih =>
    obtain ⟨v, hv, hay⟩ := Res.bind_eq_ok.1 hay
    cases hay
    by_cases hka : k = a
    · subst hka
      rw [List.lookup_cons, beq_self_eq_true]
      simp only
      unfold attrValue
      cases hl : vals.lookup k with
      | none => rw [hl] at hv; cases hv
      | some w => rw [hl] at hv; cases hv; rfl
    · rw [List.lookup_cons, beq_eq_false_iff_ne.2 hka]
      exact ih ((List.mem_cons.1 hmem).resolve_left hka)

/-- the revealed part of every sub proof made by the library: the values of the item -/
theorem present_reveals (e : G1 →ₗ[F] G2 →ₗ[F] GT) (cv : Conv F G1 G2 GT) (mode : Overflow) (sha : Bytes → Bytes) (ord ordF : SetOrder)
    (commons : List (String × Int)) (items : List (Item F G1 G2 GT)) (nonce : Int) (proof : Proof F G1 G2)
    (h : present e cv mode sha ord ordF commons items nonce = .ok proof) :
    List.Forall₂ (fun it sp => ∀ k ∈ it.req.revealed, sp.primary.eq.revealed.lookup k = some (attrValue it.vals k)) items proof.proofs := by
  unfold present at h
  obtain ⟨b, hb, h⟩ := Res.bind_eq_ok.1 h
  have hi := fold_inits e cv mode ord items _ b hb
  rw [commons_inits] at hi
  simp only [Builder.new, List.map_nil, List.nil_append] at hi
  unfold Builder.finalize at h
  obtain ⟨sps, hs, h⟩ := Res.bind_eq_ok.1 h
  cases h
  have hf := mapM_forall₂ _ _ _ hs
  have hi' : List.Forall₂ (fun (it : Item F G1 G2 GT) (i : InitProof F G1 G2 GT) => it.vals = i.vals ∧ it.req = i.req) items b.inits := by
    have : List.Forall₂ (fun (x y : Map CredentialValue × SubProofRequest) => x = y) (items.map fun it => (it.vals, it.req)) (b.inits.map fun i => (i.vals, i.req)) := by
      rw [hi]
      exact List.forall₂_same.2 fun _ _ => rfl
    rw [List.forall₂_map_left_iff, List.forall₂_map_right_iff] at this
    exact this.imp fun a b h => ⟨congrArg Prod.fst h, congrArg Prod.snd h⟩
  refine forall₂_chain ?_ hi' hf
  rintro it i sp ⟨h1, h2⟩ h3 k hk
  unfold finalizeSubProof at h3
  obtain ⟨nr, _, h3⟩ := Res.bind_eq_ok.1 h3
  obtain ⟨p, hp, h3⟩ := Res.bind_eq_ok.1 h3
  cases h3
  unfold finalizePrimaryProof at hp
  obtain ⟨eq, heq, hp⟩ := Res.bind_eq_ok.1 hp
  obtain ⟨ne, _, hp⟩ := Res.bind_eq_ok.1 hp
  cases hp
  unfold finalizeEqProof at heq
  obtain ⟨m, _, heq⟩ := Res.bind_eq_ok.1 heq
  obtain ⟨rev, hrev, heq⟩ := Res.bind_eq_ok.1 heq
  cases heq
  change rev.lookup k = some (attrValue it.vals k)
  rw [h2] at hk
  rw [h1]
  have hmem : k ∈ ordF.enum i.req.revealed := (ordF.mem _ _).2 hk
  exact lookup_rev i.vals k _ _ (mapM_forall₂ _ _ _ hrev) hmem

/-! ## C205 -/

/-- **C205, refuted** The library shows, and the verifier accepts, any value that is congruent to the signed one modulo the exponent
of the credential: for every presentable credential, every attribute asked for and every `c`, the moved credential gives an accepted
presentation whose revealed value is `m + e c`. -/
theorem revealed_value_moved (e : G1 →ₗ[F] G2 →ₗ[F] GT) (cv : Conv F G1 G2 GT) (mode : Overflow) (sha : Bytes → Bytes)
    (ord ordF ordV : SetOrder) (it : Item F G1 G2 GT) (h : Honest e it) (k : String) (hk : k ∈ it.req.revealed) (c nonce : Int) :
    ∃ sig proof v sp, moveSig it.pk.pKey it.sig.p k c = .ok sig ∧
      present e cv mode sha ord ordF [] [moved it sig k (it.sig.p.e * c)] nonce = .ok proof ∧ expectItems [] [it] = .ok v ∧
      (v.verify e cv mode sha ordV proof nonce).2 = .ok true ∧ proof.proofs = [sp] ∧
      sp.primary.eq.revealed.lookup k = some (attrValue it.vals k + it.sig.p.e * c) := by
  have hkv : k ∈ it.vals.map (·.1) := by
    have : k ∈ it.nonSchema ∪ it.schema := Finset.mem_union_right _ (h.revealed hk)
    rw [h.attrs, List.mem_toFinset] at this
    exact this
  obtain ⟨sig, hs, hm, hval⟩ := moved_honest e it h k hkv (fun p hp hpk => (h.predicates p hp).2.1 (hpk ▸ hk)) c
  obtain ⟨proof, v, h1, h2, h3⟩ := honest_presentation_accepted e cv mode sha ord ordF ordV [] [] (by simp) [moved it sig k (it.sig.p.e * c)] (fun _ => 0)
    (by intro x hx; rw [List.mem_singleton] at hx; subst hx; exact ⟨hm, by simp⟩) nonce
  have hr := present_reveals e cv mode sha ord ordF [] _ nonce proof h1
  rw [List.forall₂_cons_left_iff] at hr
  obtain ⟨sp, l, hsp, hl, hpr⟩ := hr
  rw [List.forall₂_nil_left_iff] at hl
  subst hl
  exact ⟨sig, proof, v, sp, hs, h1, h2, h3, hpr, by rw [hsp k hk, hval]⟩

/-! ## C206 -/

/-- a number that is congruent to the value of every item modulo its exponent -/
theorem common_value (k : String) : ∀ (items : List (Item F G1 G2 GT)), (items.Pairwise fun a b => IsCoprime a.sig.p.e b.sig.p.e) →
    ∃ x : Int, ∀ it ∈ items, it.sig.p.e ∣ x - attrValue it.vals k
  | [], _ => ⟨0, by simp⟩
  | it :: items, h => by
    rw [List.pairwise_cons] at h
    obtain ⟨x, hx⟩ := common_value k items h.2
    have hcop : IsCoprime it.sig.p.e ((items.map fun a => a.sig.p.e).prod) := by
      have hall := h.1
      clear hx h
      induction items with
      | nil => simpa using isCoprime_one_right
      | cons a l ih =>
        rw [List.map_cons, List.prod_cons]
        exact (hall a (by simp)).mul_right (ih fun b hb => hall b (by simp [hb]))
    obtain ⟨a, b, hab⟩ := hcop
    refine ⟨x + (items.map fun a => a.sig.p.e).prod * (b * (attrValue it.vals k - x)), ?_⟩
    intro y hy
    rcases List.mem_cons.1 hy with rfl | hy
    · refine ⟨a * (x - attrValue y.vals k), ?_⟩
      linear_combination (attrValue y.vals k - x) * hab
    · have h1 : y.sig.p.e ∣ (items.map fun a => a.sig.p.e).prod := List.dvd_prod (List.mem_map.2 ⟨y, hy, rfl⟩)
      have h2 := (hx y hy).add (h1.mul_right (b * (attrValue it.vals k - x)))
      rwa [show x - attrValue y.vals k + (items.map fun a => a.sig.p.e).prod * (b * (attrValue it.vals k - x)) = x + (items.map fun a => a.sig.p.e).prod * (b * (attrValue it.vals k - x)) - attrValue y.vals k by ring] at h2

/-- **C206, refuted** Credentials with different values of the common attribute are accepted as credentials with the same value: for
every list of presentable credentials whose exponents are pairwise coprime (those of the library are different primes), with `k` hidden
in all of them, the moved credentials are shown together and the verifier who asks for the common attribute `k` accepts. -/
theorem different_values_common (e : G1 →ₗ[F] G2 →ₗ[F] GT) (cv : Conv F G1 G2 GT) (mode : Overflow) (sha : Bytes → Bytes)
    (ord ordF ordV : SetOrder) (items : List (Item F G1 G2 GT)) (h : ∀ it ∈ items, Honest e it)
    (hcop : items.Pairwise fun a b => IsCoprime a.sig.p.e b.sig.p.e) (k : String) (mask : Int)
    (hk : ∀ it ∈ items, k ∈ unrevealedAttrs it.schema it.nonSchema it.req ∧ ∀ p ∈ it.req.predicates, p.attrName ≠ k) (nonce : Int) :
    ∃ items' proof v, List.Forall₂ (fun it it' => ∃ c sig, moveSig it.pk.pKey it.sig.p k c = .ok sig ∧ it' = moved it sig k (it.sig.p.e * c)) items items' ∧
      present e cv mode sha ord ordF [(k, mask)] items' nonce = .ok proof ∧ expectItems [k] items = .ok v ∧
      (v.verify e cv mode sha ordV proof nonce).2 = .ok true := by
  obtain ⟨x, hx⟩ := common_value k items hcop
  have hone : ∀ it ∈ items, ∃ it', (∃ c sig, moveSig it.pk.pKey it.sig.p k c = .ok sig ∧ it' = moved it sig k (it.sig.p.e * c)) ∧ Honest e it' ∧
      attrValue it'.vals k = x := by
    intro it hit
    obtain ⟨c, hc⟩ := hx it hit
    have hkv : k ∈ it.vals.map (·.1) := by
      have h1 := (hk it hit).1
      unfold unrevealedAttrs at h1
      have h2 := (Finset.mem_sdiff.1 h1).1
      rw [(h it hit).attrs, List.mem_toFinset] at h2
      exact h2
    obtain ⟨sig, hs, hm, hv⟩ := moved_honest e it (h it hit) k hkv (hk it hit).2 c
    exact ⟨_, ⟨c, sig, hs, rfl⟩, hm, by rw [hv]; linarith⟩
  obtain ⟨items', hf⟩ : ∃ items', List.Forall₂ (fun it it' => (∃ c sig, moveSig it.pk.pKey it.sig.p k c = .ok sig ∧ it' = moved it sig k (it.sig.p.e * c)) ∧
      Honest e it' ∧ attrValue it'.vals k = x) items items' := by
    clear hcop hx h hk
    induction items with
    | nil => exact ⟨[], .nil⟩
    | cons it l ih =>
      obtain ⟨it', h1⟩ := hone it (by simp)
      obtain ⟨l', h2⟩ := ih fun a ha => hone a (by simp [ha])
      exact ⟨it' :: l', .cons h1 h2⟩
  have hexp : expectItems [k] items' = expectItems [k] items := by
    unfold expectItems
    generalize List.foldl (fun (v : PVerifier G1 G2 GT) k => v.addCommonAttribute k) PVerifier.new [k] = v0
    clear hone hx hcop h hk
    induction hf generalizing v0 with
    | nil => rfl
    | @cons a b l l' hab hl ih =>
      obtain ⟨⟨c, sig, -, rfl⟩, -⟩ := hab
      rw [List.foldlM_cons, List.foldlM_cons]
      congr 1
      funext v
      exact ih v
  have hall : ∀ it' ∈ items', Honest e it' ∧ ∀ j ∈ [(k, mask)].map (·.1), j ∈ unrevealedAttrs it'.schema it'.nonSchema it'.req ∧ attrValue it'.vals j = x := by
    clear hexp hone hx hcop h
    induction hf with
    | nil => simp
    | @cons a b l l' hab hl ih =>
      intro it' hit
      rcases List.mem_cons.1 hit with rfl | hit
      · refine ⟨hab.2.1, fun j hj => ?_⟩
        simp only [List.map_cons, List.map_nil, List.mem_singleton] at hj
        subst hj
        refine ⟨?_, hab.2.2⟩
        obtain ⟨⟨c, sig, -, rfl⟩, -⟩ := hab
        exact (hk a (by simp)).1
      · exact ih (fun y hy => hk y (by simp [hy])) it' hit
  obtain ⟨proof, v, h1, h2, h3⟩ := honest_presentation_accepted e cv mode sha ord ordF ordV [(k, mask)] [k] (by simp) items' (fun _ => x) hall nonce
  exact ⟨items', proof, v, hf.imp fun a b h => h.1, h1, hexp ▸ h2, h3⟩

end

/-! ## Credentials that meet the hypotheses -/

namespace Met
open Toy77

/-- a second credential modulo 77, for another master secret (8 instead of 6) and with the exponent 13 -/
def sig2 : PrimarySig := ⟨3, 4, 13, 5⟩

def vals2 : Map CredentialValue := [("master_secret", .hidden 8), ("name", .known 3), ("age", .known 28)]

theorem signed2 : CLEquation (u 4) (u 9) (u 16) R (u 4) sig2.e sig2.v sig2.m2 vals2 := by
  unfold CLEquation attrProd signedAttrs
  have : vals2.filter (fun e => e.2.isKnown || e.2.isHidden) = vals2 := by decide
  rw [this]
  ext
  simp only [sig2, vals2, List.map_cons, List.map_nil, List.prod_cons, List.prod_nil, CredentialValue.value, mul_one]
  have e1 : ∀ (x : (ZMod 77)ˣ) (k : Nat), ((x ^ (k : Int) : (ZMod 77)ˣ) : ZMod 77) = (x : ZMod 77) ^ k := by
    intro x k; rw [zpow_natCast, Units.val_pow_eq_pow_val]
  have h7 := e1 (u 4) 13
  have h5 := e1 (u 4) 5
  have h3 := e1 (u 16) 3
  have k6 := e1 (R "master_secret") 8
  have k3 := e1 (R "name") 3
  have k28 := e1 (R "age") 28
  push_cast at h7 h5 h3 k6 k3 k28 ⊢
  rw [h7, h5, h3, k6, k3, k28]
  decide +kernel

def item2 (F G1 G2 GT : Type) [Zero F] : Item F G1 G2 GT := { item F G1 G2 GT with sig := ⟨sig2, none⟩, vals := vals2 }

variable {F G1 G2 GT : Type} [Field F] [AddCommGroup G1] [Module F G1] [AddCommGroup G2] [Module F G2] [AddCommGroup GT] [Module F GT]

theorem honest2 (e : G1 →ₗ[F] G2 →ₗ[F] GT) : Honest e (item2 F G1 G2 GT) where
  signed := ⟨77, u 4, u 9, u 16, R, u 4, key, (⟨by decide, by decide⟩ : Rep (4 : Int) (u 4)), signed2⟩
  distinct := by show (vals2.map (·.1)).Nodup; decide
  noCommitment := by show ∀ a ∈ vals2, a.2.isCommitment = false; decide
  attrs := by show ({"master_secret"} ∪ {"name", "age"} : Finset String) = (vals2.map (·.1)).toFinset; decide
  covered := by show ∀ k ∈ vals2.map (·.1), pk.r.hasKey k = true; decide
  revealed := by show ({"name"} : Finset String) ⊆ {"name", "age"}; decide
  predicates := by
    intro p hp
    have hname : p.attrName = "age" := by
      change p ∈ ([⟨"age", .GE, 18⟩, ⟨"age", .LT, 65⟩] : List Predicate) at hp
      simp only [List.mem_cons, List.not_mem_nil, or_false] at hp
      rcases hp with rfl | rfl <;> rfl
    have h := (honest e).predicates p hp
    have hv : attrValue (item2 F G1 G2 GT).vals p.attrName = attrValue (item F G1 G2 GT).vals p.attrName := by
      rw [hname]
      show attrValue vals2 "age" = attrValue vals "age"
      decide
    rw [hv]
    exact h
  rand := (honest e).rand
  nonRevoked := by intro rc acc rk w h; cases h

/-- the signed name is 3; 10 is shown and accepted -/
theorem other_name_shown (e : G1 →ₗ[F] G2 →ₗ[F] GT) (cv : Conv F G1 G2 GT) (sha : Bytes → Bytes) (nonce : Int) :
    attrValue (item F G1 G2 GT).vals "name" = 3 ∧ ∃ sig proof v sp, moveSig pk Toy77.sig "name" 1 = .ok sig ∧
      present e cv .checked sha ord ord [] [moved (item F G1 G2 GT) sig "name" 7] nonce = .ok proof ∧
      expectItems [] [item F G1 G2 GT] = .ok v ∧ (v.verify e cv .checked sha ord proof nonce).2 = .ok true ∧ proof.proofs = [sp] ∧
      sp.primary.eq.revealed.lookup "name" = some 10 :=
  ⟨by show attrValue vals "name" = 3; decide,
    revealed_value_moved e cv .checked sha ord ord ord (item F G1 G2 GT) (honest e) "name" (by show "name" ∈ ({"name"} : Finset String); decide) 1 nonce⟩

/-- two credentials with the master secrets 6 and 8 are accepted as credentials with one master secret -/
theorem two_secrets_shown (e : G1 →ₗ[F] G2 →ₗ[F] GT) (cv : Conv F G1 G2 GT) (sha : Bytes → Bytes) (mask nonce : Int) :
    attrValue (item F G1 G2 GT).vals "master_secret" ≠ attrValue (item2 F G1 G2 GT).vals "master_secret" ∧
    ∃ items' proof v, List.Forall₂ (fun it it' => ∃ c sig, moveSig it.pk.pKey it.sig.p "master_secret" c = .ok sig ∧ it' = moved it sig "master_secret" (it.sig.p.e * c))
        [item F G1 G2 GT, item2 F G1 G2 GT] items' ∧
      present e cv .checked sha ord ord [("master_secret", mask)] items' nonce = .ok proof ∧
      expectItems ["master_secret"] [item F G1 G2 GT, item2 F G1 G2 GT] = .ok v ∧ (v.verify e cv .checked sha ord proof nonce).2 = .ok true := by
  refine ⟨by show attrValue vals "master_secret" ≠ attrValue vals2 "master_secret"; decide, ?_⟩
  have hu : ("master_secret" : String) ∈ unrevealedAttrs {"name", "age"} {"master_secret"} ⟨{"name"}, [⟨"age", .GE, 18⟩, ⟨"age", .LT, 65⟩]⟩ := by decide
  have hp : ∀ p ∈ ([⟨"age", .GE, 18⟩, ⟨"age", .LT, 65⟩] : List Predicate), p.attrName ≠ "master_secret" := by decide
  refine different_values_common e cv .checked sha ord ord ord _ ?_ ?_ "master_secret" mask ?_ nonce
  · intro it hit
    simp only [List.mem_cons, List.not_mem_nil, or_false] at hit
    rcases hit with rfl | rfl
    · exact honest e
    · exact honest2 e
  · simp only [List.pairwise_cons, List.mem_singleton, forall_eq, List.not_mem_nil, false_implies, implies_true, List.Pairwise.nil, and_true]
    show IsCoprime (7 : Int) 13
    exact ⟨2, -1, by norm_num⟩
  · intro it hit
    simp only [List.mem_cons, List.not_mem_nil, or_false] at hit
    rcases hit with rfl | rfl
    · exact ⟨hu, hp⟩
    · exact ⟨hu, hp⟩

end Met

end Verif.CL.Shift
