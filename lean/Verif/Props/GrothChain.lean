import Verif.Props.Groth
import Mathlib.Tactic.Tauto
/-!
# Delegation links and chains (properties C90 – C94)

Specification: `LinkValid` — a link names the delegatee in its last attribute and carries a valid signature of the delegator on its
attributes; `ChainValid` — the links, in the order 1, 2, 3, …, alternating between the two schemes, have the levels 1, 2, 3, … and each is
valid for the keys next to each other in the two lists of keys, from the root key on.
-/
namespace Verif.Groth
set_option linter.unusedSectionVars false
set_option linter.unusedSimpArgs false
set_option linter.unusedVariables false

section LinkSec
variable {F A B GT : Type} [Field F] [AddCommGroup A] [Module F A] [AddCommGroup B] [Module F B]
  [AddCommGroup GT] [Module F GT] [DecidableEq F] [DecidableEq A] [DecidableEq B] [DecidableEq GT]
variable (e : A →ₗ[F] B →ₗ[F] GT)

/-- The link is for this delegatee and signed by this delegator. -/
structure LinkValid (l : Link A B) (delegatee : A) (delegator : B) (p : Setup A B) : Prop where
  count : l.attributes.length ≤ p.y.length
  delegatee : l.attributes.getLast? = some delegatee
  signature : Valid e l.signature l.attributes delegator p

theorem validate_ok_iff (l : Link A B) (d : A) (p : Setup A B) :
    l.validate d p = .ok () ↔ l.attributes.length ≤ p.y.length ∧ l.attributes.getLast? = some d := by
  unfold Link.validate
  by_cases h : l.attributes.length > p.y.length
  · rw [if_pos h]; simp; omega
  · rw [if_neg h]
    cases hl : l.attributes.getLast? with
    | none => simp [Link.hasVerkey, hl]
    | some a =>
      simp only [Link.hasVerkey, hl, Res.unwrap_some, Res.ok_bind, Res.pure_eq, decide_eq_true_eq, Option.some.injEq]
      by_cases ha : a = d
      · rw [if_pos ha]; simp [ha]; omega
      · rw [if_neg ha]; simp [ha]

/-- **C90** `delegate` succeeds exactly if there is room for the delegatee's key among the attributes; the link is for the next
level, has the attributes followed by the key, and is accepted (for every value drawn by the verifier) for this delegatee and the key of
the delegator. -/
theorem delegate_spec (level : Nat) (attrs : List A) (vk : A) (sk r : F) (p : Setup A B) (hr : r ≠ 0) :
    (attrs.length < p.y.length → ∃ l, delegate level attrs vk sk p r = .ok l ∧ l.level = level + 1 ∧ l.attributes = attrs ++ [vk] ∧
      LinkValid e l vk (keygen p sk).2 p) ∧
    (p.y.length ≤ attrs.length →
      delegate level attrs vk sk p r = .err (.moreAttributesThanExpected p.y.length attrs.length)) := by
  constructor
  · intro h
    have hy : p.y ≠ [] := by intro h0; rw [h0] at h; simp at h
    have hl : (attrs ++ [vk]).length ≤ p.y.length := by simp; omega
    obtain ⟨s, hs, hv⟩ := groth_sign_verify e (attrs ++ [vk]) sk p r hr hl hy
    refine ⟨⟨level + 1, attrs ++ [vk], s⟩, ?_, rfl, rfl, hl, by simp, ((groth_verify_true_iff e _ _ _ _).1 hv).2⟩
    unfold delegate
    rw [if_neg (by omega), show sign (attrs ++ [vk]) sk p r = .ok s from hs]
    rfl
  · intro h
    simp [delegate, h]

/-- **C90** The root issuer's link is of level 1. -/
theorem rootDelegate_eq (attrs : List A) (vk : A) (sk r : F) (p : Setup A B) :
    rootDelegate attrs vk sk p r = delegate 0 attrs vk sk p r := rfl

/-- **C90** Issuers of even level are made for even levels only, those of odd level for odd levels only. -/
theorem newIssuer_iff (level : Nat) :
    (newIssuer 0 level = if level % 2 = 0 then .ok level else .err (.expectedEvenLevel level)) ∧
    (newIssuer 1 level = if level % 2 = 1 then .ok level else .err (.expectedOddLevel level)) := by
  unfold newIssuer
  rcases Nat.mod_two_eq_zero_or_one level with h | h <;> simp [h]

/-- **C90** A link presented for another delegatee is refused before its signature is looked at. -/
theorem link_wrong_delegatee (batch : Sig A B → List A → B → Setup A B → Res Error Bool) (l : Link A B) (d a : A) (k : B)
    (p : Setup A B) (hl : l.attributes.length ≤ p.y.length) (ha : l.attributes.getLast? = some a) (hne : a ≠ d) :
    l.verify batch d k p = .err .verkeyNotFoundInDelegationLink := by
  simp [Link.verify, Link.validate, Link.hasVerkey, ha, hne, Nat.not_lt.mpr hl]

/-- **C93** A link without attributes crashes the verifier. -/
theorem link_empty_panics (batch : Sig A B → List A → B → Setup A B → Res Error Bool) (l : Link A B) (d : A) (k : B) (p : Setup A B)
    (h : l.attributes = []) : l.verify batch d k p = .panic := by
  simp [Link.verify, Link.validate, Link.hasVerkey, h]

end LinkSec

section ChainSec
variable {F G1 G2 GT : Type} [Field F] [AddCommGroup G1] [Module F G1] [AddCommGroup G2] [Module F G2]
  [AddCommGroup GT] [Module F GT] [DecidableEq F] [DecidableEq G1] [DecidableEq G2] [DecidableEq GT]
variable (e : G1 →ₗ[F] G2 →ₗ[F] GT)

/-- **C90, odd levels** A valid link is accepted whatever value is drawn; one accepted for more values than it has attributes is
valid. -/
theorem link_verify_odd (l : Link G1 G2) (d : G1) (k : G2) (p : Setup G1 G2) :
    (LinkValid e l d k p → ∀ r, l.verify (verifyBatch1 e r) d k p = .ok true) ∧
    (∀ rs : List F, rs.Nodup → l.attributes.length < rs.length → (∀ r ∈ rs, l.verify (verifyBatch1 e r) d k p = .ok true) →
      LinkValid e l d k p) := by
  constructor
  · rintro ⟨h1, h2, h3⟩ r
    unfold Link.verify
    rw [(validate_ok_iff l d p).2 ⟨h1, h2⟩, Res.ok_bind]
    exact groth1_batch_complete e _ _ _ _ ((groth_verify_true_iff e _ _ _ _).2 ⟨h1, h3⟩) r
  · intro rs hnd hlen h
    have key : ∀ r ∈ rs, l.validate d p = .ok () ∧ verifyBatch1 e r l.signature l.attributes k p = .ok true := by
      intro r hr
      have := h r hr
      unfold Link.verify at this
      rw [Res.bind_eq_ok] at this
      obtain ⟨⟨⟩, h1, h2⟩ := this
      exact ⟨h1, h2⟩
    have hne : rs ≠ [] := by intro h0; rw [h0] at hlen; simp at hlen
    obtain ⟨r0, hr0⟩ := List.exists_mem_of_ne_nil rs hne
    obtain ⟨hc, hd⟩ := (validate_ok_iff l d p).1 (key r0 hr0).1
    exact ⟨hc, hd, ((groth_verify_true_iff e _ _ _ _).1
      (groth1_batch_sound e _ _ _ _ rs hnd hlen fun r hr => (key r hr).2)).2⟩

theorem link_verify_flip (r : F) (l : Link G2 G1) (d : G2) (k : G1) (p : Setup G2 G1) :
    l.verify (verifyBatch2 e r) d k p = l.verify (verifyBatch1 e.flip r) d k p := by
  unfold Link.verify
  rw [batch2_eq]

/-- **C90, even levels** -/
theorem link_verify_even (l : Link G2 G1) (d : G2) (k : G1) (p : Setup G2 G1) :
    (LinkValid e.flip l d k p → ∀ r, l.verify (verifyBatch2 e r) d k p = .ok true) ∧
    (∀ rs : List F, rs.Nodup → l.attributes.length < rs.length → (∀ r ∈ rs, l.verify (verifyBatch2 e r) d k p = .ok true) →
      LinkValid e.flip l d k p) := by
  simp only [link_verify_flip]
  exact link_verify_odd e.flip l d k p

/-! ## Chains -/

/-- The `i`-th link of the chain (from 1 on; odd ones of the first scheme, even ones of the second) is there, has level `i`, and is valid
for the `i`-th key as delegatee and the one before as delegator.  Even keys are numbered 0, 2, 4, …, odd ones 1, 3, 5, …. -/
def LinkOK (c : Chain G1 G2) (evenVks : List G2) (oddVks : List G1) (p1 : Setup G1 G2) (p2 : Setup G2 G1) (i : Nat) : Prop :=
  (i % 2 = 1 → ∃ l d k, c.odd[i / 2]? = some l ∧ l.level = i ∧ oddVks[i / 2]? = some d ∧ evenVks[i / 2]? = some k ∧
    LinkValid e l d k p1) ∧
  (i % 2 = 0 → ∃ l d k, c.even[i / 2 - 1]? = some l ∧ l.level = i ∧ evenVks[i / 2]? = some d ∧ oddVks[i / 2 - 1]? = some k ∧
    LinkValid e.flip l d k p2)

/-- All the links are valid, for one key more than there are links. -/
structure ChainValid (c : Chain G1 G2) (evenVks : List G2) (oddVks : List G1) (p1 : Setup G1 G2) (p2 : Setup G2 G1) : Prop where
  nonempty : 1 ≤ c.size
  evens : evenVks.length = c.size / 2 + 1
  odds : oddVks.length = (c.size + 1) / 2
  links : ∀ i, 1 ≤ i → i ≤ c.size → LinkOK e c evenVks oddVks p1 p2 i

/-- the checks on the numbers of keys -/
theorem chain_validate_iff (c : Chain G1 G2) (ev : List G2) (od : List G1) :
    c.validate ev od = .ok () ↔ 1 ≤ c.size ∧ ev.length = c.size / 2 + 1 ∧ od.length = (c.size + 1) / 2 := by
  unfold Chain.validate
  generalize c.size = n
  by_cases h0 : n = 0
  · rw [if_pos h0]; simp [h0]
  rw [if_neg h0]
  by_cases h1 : ev.length + od.length ≠ n + 1
  · rw [if_pos h1]; simp; omega
  rw [if_neg h1]
  by_cases h2 : ev.length ≠ n / 2 + 1
  · rw [if_pos h2]; simp; omega
  rw [if_neg h2]
  by_cases h3 : n % 2 = 1
  · rw [if_pos h3]
    by_cases h4 : od.length ≠ n / 2 + 1
    · rw [if_pos h4]; simp; omega
    · rw [if_neg h4]; simp; omega
  · rw [if_neg h3]
    by_cases h4 : od.length ≠ n / 2
    · rw [if_pos h4]; simp; omega
    · rw [if_neg h4]; simp; omega

/-- **C91** The errors about the numbers of keys, in their order. -/
theorem chain_validate_errors (c : Chain G1 G2) (ev : List G2) (od : List G1) :
    (c.size = 0 → c.validate ev od = .err .chainEmpty) ∧
    (c.size ≠ 0 → ev.length + od.length ≠ c.size + 1 →
      c.validate ev od = .err (.incorrectNumberOfVerkeys (c.size + 1) (ev.length + od.length))) ∧
    (c.size ≠ 0 → ev.length + od.length = c.size + 1 → ev.length ≠ c.size / 2 + 1 →
      c.validate ev od = .err (.incorrectNumberOfEvenLevelVerkeys (c.size / 2 + 1) ev.length)) := by
  unfold Chain.validate
  refine ⟨fun h => by rw [if_pos h], fun h h1 => by rw [if_neg h, if_pos h1], fun h h1 h2 => by
    rw [if_neg h, if_neg (by omega), if_pos h2]⟩

variable (c : Chain G1 G2) (ev : List G2) (od : List G1) (p1 : Setup G1 G2) (p2 : Setup G2 G1)

theorem checkLink_true_iff (rnd : Nat → F) (i : Nat) :
    checkLink e c ev od p1 p2 rnd i = .ok true ↔
      (i % 2 = 1 → ∃ l d k, c.odd[i / 2]? = some l ∧ l.level = i ∧ od[i / 2]? = some d ∧ ev[i / 2]? = some k ∧
        l.verify (verifyBatch1 e (rnd i)) d k p1 = .ok true) ∧
      (i % 2 = 0 → ∃ l d k, c.even[i / 2 - 1]? = some l ∧ l.level = i ∧ ev[i / 2]? = some d ∧ od[i / 2 - 1]? = some k ∧
        l.verify (verifyBatch2 e (rnd i)) d k p2 = .ok true) := by
  unfold checkLink
  rcases Nat.mod_two_eq_zero_or_one i with hi | hi
  · rw [if_neg (by omega)]
    simp only [hi, Nat.zero_ne_one, IsEmpty.forall_iff, true_and, forall_const]
    cases h1 : c.even[i / 2 - 1]? with
    | none => simp
    | some l =>
      simp only [Res.unwrap_some, Res.ok_bind, Option.some.injEq, exists_eq_left', exists_and_left]
      by_cases hl : l.level ≠ i
      · rw [if_pos hl]; simp [hl]
      · rw [if_neg hl]
        cases h2 : ev[i / 2]? <;> cases h3 : od[i / 2 - 1]? <;> simp_all
  · rw [if_pos hi]
    simp only [hi, forall_const, Nat.one_ne_zero, IsEmpty.forall_iff, and_true]
    cases h1 : c.odd[i / 2]? with
    | none => simp
    | some l =>
      simp only [Res.unwrap_some, Res.ok_bind, Option.some.injEq, exists_eq_left', exists_and_left]
      by_cases hl : l.level ≠ i
      · rw [if_pos hl]; simp [hl]
      · rw [if_neg hl]
        cases h2 : od[i / 2]? <;> cases h3 : ev[i / 2]? <;> simp_all

theorem delegationLoop_true_iff (rnd : Nat → F) : ∀ (n i : Nat),
    delegationLoop e c ev od p1 p2 rnd n i = .ok true ↔
      ∀ j, i ≤ j → j < i + n → checkLink e c ev od p1 p2 rnd j = .ok true
  | 0, i => by
    simp only [delegationLoop, true_iff]
    intro j h1 h2; omega
  | n + 1, i => by
    simp only [delegationLoop, Res.bind_eq_ok]
    constructor
    · rintro ⟨b, hb, h⟩ j h1 h2
      cases b with
      | false => simp at h
      | true =>
        rw [if_pos rfl, delegationLoop_true_iff rnd n (i + 1)] at h
        rcases Nat.lt_or_ge i j with hj | hj
        · exact h j (by omega) (by omega)
        · obtain rfl : i = j := by omega
          exact hb
    · intro h
      refine ⟨true, h i (by omega) (by omega), ?_⟩
      rw [if_pos rfl, delegationLoop_true_iff rnd n (i + 1)]
      exact fun j h1 h2 => h j (by omega) (by omega)

/-- One run of `verify_delegations` accepts exactly if the numbers of keys fit and every link is accepted, link by link. -/
theorem verifyDelegations_true_iff (rnd : Nat → F) :
    c.verifyDelegations e ev od p1 p2 rnd = .ok true ↔
      (1 ≤ c.size ∧ ev.length = c.size / 2 + 1 ∧ od.length = (c.size + 1) / 2) ∧
      ∀ i, 1 ≤ i → i ≤ c.size → checkLink e c ev od p1 p2 rnd i = .ok true := by
  unfold Chain.verifyDelegations
  rw [Res.bind_eq_ok]
  constructor
  · rintro ⟨⟨⟩, h1, h2⟩
    exact ⟨(chain_validate_iff c ev od).1 h1, fun i h3 h4 => (delegationLoop_true_iff e c ev od p1 p2 rnd _ _).1 h2 i h3 (by omega)⟩
  · rintro ⟨h1, h2⟩
    exact ⟨(), (chain_validate_iff c ev od).2 h1,
      (delegationLoop_true_iff e c ev od p1 p2 rnd _ _).2 fun j h3 h4 => h2 j h3 (by omega)⟩

theorem checkLink_of_ok (rnd : Nat → F) (i : Nat) (h : LinkOK e c ev od p1 p2 i) : checkLink e c ev od p1 p2 rnd i = .ok true := by
  rw [checkLink_true_iff]
  refine ⟨fun hi => ?_, fun hi => ?_⟩
  · obtain ⟨l, d, k, h1, h2, h3, h4, h5⟩ := h.1 hi
    exact ⟨l, d, k, h1, h2, h3, h4, (link_verify_odd e l d k p1).1 h5 _⟩
  · obtain ⟨l, d, k, h1, h2, h3, h4, h5⟩ := h.2 hi
    exact ⟨l, d, k, h1, h2, h3, h4, (link_verify_even e l d k p2).1 h5 _⟩

/-- **C91, completeness** A valid chain, of any length, is accepted whatever values are drawn. -/
theorem verifyDelegations_complete (h : ChainValid e c ev od p1 p2) (rnd : Nat → F) :
    c.verifyDelegations e ev od p1 p2 rnd = .ok true :=
  (verifyDelegations_true_iff e c ev od p1 p2 rnd).2
    ⟨⟨h.nonempty, h.evens, h.odds⟩, fun i h1 h2 => checkLink_of_ok e c ev od p1 p2 rnd i (h.links i h1 h2)⟩

/-- **C91, soundness** A chain accepted for every draw from a set with more elements than any link has attributes is valid: every link is
signed by the holder of the key before, up to the root key, for the attributes it shows. -/
theorem verifyDelegations_sound (rs : List F) (hne : rs ≠ []) (hnd : rs.Nodup) (hodd : ∀ l ∈ c.odd, l.attributes.length < rs.length)
    (heven : ∀ l ∈ c.even, l.attributes.length < rs.length)
    (h : ∀ rnd : Nat → F, (∀ i, rnd i ∈ rs) → c.verifyDelegations e ev od p1 p2 rnd = .ok true) :
    ChainValid e c ev od p1 p2 := by
  obtain ⟨r0, hr0⟩ := List.exists_mem_of_ne_nil rs hne
  have h0 := (verifyDelegations_true_iff e c ev od p1 p2 _).1 (h (fun _ => r0) (fun _ => hr0))
  refine ⟨h0.1.1, h0.1.2.1, h0.1.2.2, fun i h1 h2 => ⟨fun hi => ?_, fun hi => ?_⟩⟩
  · have hc := ((checkLink_true_iff e c ev od p1 p2 _ i).1 (h0.2 i h1 h2)).1 hi
    obtain ⟨l, d, k, e1, e2, e3, e4, -⟩ := hc
    refine ⟨l, d, k, e1, e2, e3, e4, (link_verify_odd e l d k p1).2 rs hnd (hodd l (List.mem_of_getElem? e1)) fun r hr => ?_⟩
    have hr' := ((checkLink_true_iff e c ev od p1 p2 _ i).1
      (((verifyDelegations_true_iff e c ev od p1 p2 _).1 (h (fun _ => r) (fun _ => hr))).2 i h1 h2)).1 hi
    obtain ⟨l', d', k', f1, f2, f3, f4, f5⟩ := hr'
    rw [e1] at f1; rw [e3] at f3; rw [e4] at f4
    obtain rfl : l = l' := by simpa using f1
    obtain rfl : d = d' := by simpa using f3
    obtain rfl : k = k' := by simpa using f4
    exact f5
  · have hc := ((checkLink_true_iff e c ev od p1 p2 _ i).1 (h0.2 i h1 h2)).2 hi
    obtain ⟨l, d, k, e1, e2, e3, e4, -⟩ := hc
    refine ⟨l, d, k, e1, e2, e3, e4, (link_verify_even e l d k p2).2 rs hnd (heven l (List.mem_of_getElem? e1)) fun r hr => ?_⟩
    have hr' := ((checkLink_true_iff e c ev od p1 p2 _ i).1
      (((verifyDelegations_true_iff e c ev od p1 p2 _).1 (h (fun _ => r) (fun _ => hr))).2 i h1 h2)).2 hi
    obtain ⟨l', d', k', f1, f2, f3, f4, f5⟩ := hr'
    rw [e1] at f1; rw [e3] at f3; rw [e4] at f4
    obtain rfl : l = l' := by simpa using f1
    obtain rfl : d = d' := by simpa using f3
    obtain rfl : k = k' := by simpa using f4
    exact f5

/-! ## C92: the batched check of a whole chain -/

theorem validate_of_valid {A B : Type} [AddCommGroup A] [Module F A] [AddCommGroup B] [Module F B] [DecidableEq A] [DecidableEq B]
    {e : A →ₗ[F] B →ₗ[F] GT} {l : Link A B} {d : A} {k : B} {p : Setup A B} (h : LinkValid e l d k p) :
    l.validate d p = .ok () := (validate_ok_iff l d p).2 ⟨h.count, h.delegatee⟩

theorem valid_y_ne {A B : Type} [AddCommGroup A] [Module F A] [AddCommGroup B] [Module F B]
    {e : A →ₗ[F] B →ₗ[F] GT} {s : Sig A B} {ms : List A} {vk : B} {p : Setup A B} (h : Valid e s ms vk p) : p.y ≠ [] := by
  obtain ⟨y0, h0, -⟩ := h.first
  intro h; rw [h] at h0; cases h0

/-- the links from `i` on are valid: their pairs contribute nothing to the product -/
theorem batchLoop_zero (r : F) (n : Nat) : ∀ (m i off rest : Nat), 1 ≤ i → (∀ j, i ≤ j → j < i + m → LinkOK e c ev od p1 p2 j) →
    countLoop c m i = .ok rest → off + rest ≤ n →
    ∃ l, batchLoop c ev od p1 p2 (vandermonde r n) m i off = .ok l ∧ multiPairing e l = 0
  | 0, i, off, rest, _, _, _, _ => ⟨[], rfl, by simp [multiPairing]⟩
  | m + 1, i, off, rest, hi1, hok, hcount, hn => by
    simp only [countLoop, Res.bind_eq_ok] at hcount
    obtain ⟨k, hk, rest', hrest, hsum⟩ := hcount
    simp only [Res.pure_eq, Res.ok.injEq] at hsum
    unfold countLink at hk
    have hstep : ∃ l, batchLink c ev od p1 p2 (vandermonde r n) i off = .ok (l, off + k) ∧ multiPairing e l = 0 := by
      unfold batchLink
      rcases Nat.mod_two_eq_zero_or_one i with hi | hi
      · obtain ⟨l, d, kk, h1, h2, h3, h4, h5⟩ := (hok i (by omega) (by omega)).2 hi
        rw [if_neg (by omega), h1, Res.unwrap_some, Res.ok_bind] at hk
        simp only [Res.pure_eq, Res.ok.injEq] at hk
        obtain ⟨q, hq, hs⟩ := prepare2_ok e r n off l.signature l.attributes kk p2 (valid_y_ne h5.signature) (by omega) h5.count
          (valid_T_length h5.signature)
        refine ⟨q, ?_, ?_⟩
        · rw [if_neg (by omega), h1, Res.unwrap_some, Res.ok_bind, if_neg (by simpa using h2), h3, Res.unwrap_some, Res.ok_bind,
            validate_of_valid h5, Res.ok_bind, h4, Res.unwrap_some, Res.ok_bind, hq, Res.ok_bind, hk]
          rfl
        · have := (allDefects_zero_iff e.flip l.signature l.attributes kk p2 (valid_y_ne h5.signature) h5.count
            (valid_T_length h5.signature)).2 h5.signature
          unfold allDefects at this
          rw [List.forall_mem_cons] at this
          rw [hs, this.1, combine_zeros _ _ this.2]
          simp
      · obtain ⟨l, d, kk, h1, h2, h3, h4, h5⟩ := (hok i (by omega) (by omega)).1 hi
        rw [if_pos hi, h1, Res.unwrap_some, Res.ok_bind] at hk
        simp only [Res.pure_eq, Res.ok.injEq] at hk
        obtain ⟨q, hq, hs⟩ := prepare1_ok e r n off l.signature l.attributes kk p1 (valid_y_ne h5.signature) (by omega) h5.count
          (valid_T_length h5.signature)
        refine ⟨q, ?_, ?_⟩
        · rw [if_pos hi, h1, Res.unwrap_some, Res.ok_bind, if_neg (by simpa using h2), h3, Res.unwrap_some, Res.ok_bind,
            validate_of_valid h5, Res.ok_bind, h4, Res.unwrap_some, Res.ok_bind, hq, Res.ok_bind, hk]
          rfl
        · rw [hs, combine_zeros _ _ ((allDefects_zero_iff e l.signature l.attributes kk p1 (valid_y_ne h5.signature) h5.count
            (valid_T_length h5.signature)).2 h5.signature)]
          simp
    obtain ⟨l, hl, hl0⟩ := hstep
    obtain ⟨l', hl', hl0'⟩ := batchLoop_zero r n m (i + 1) (off + k) rest' (by omega) (fun j h1 h2 => hok j (by omega) (by omega))
      hrest (by omega)
    refine ⟨l ++ l', ?_, by rw [multiPairing_append, hl0, hl0', add_zero]⟩
    simp only [batchLoop, hl, Res.ok_bind, hl', Res.pure_eq]

theorem countLoop_ok : ∀ (m i : Nat), 1 ≤ i → (∀ j, i ≤ j → j < i + m → LinkOK e c ev od p1 p2 j) →
    ∃ rest, countLoop c m i = .ok rest
  | 0, i, _, _ => ⟨0, rfl⟩
  | m + 1, i, hi1, hok => by
    obtain ⟨rest, hrest⟩ := countLoop_ok m (i + 1) (by omega) (fun j h1 h2 => hok j (by omega) (by omega))
    rcases Nat.mod_two_eq_zero_or_one i with hi | hi
    · obtain ⟨l, d, kk, h1, -⟩ := (hok i (by omega) (by omega)).2 hi
      exact ⟨l.attributes.length + 1 + rest, by simp only [countLoop, countLink, hrest, h1, if_neg (show ¬ i % 2 = 1 by omega), Res.unwrap_some, Res.ok_bind, Res.pure_eq]⟩
    · obtain ⟨l, d, kk, h1, -⟩ := (hok i (by omega) (by omega)).1 hi
      exact ⟨l.attributes.length + 1 + rest, by simp only [countLoop, countLink, hrest, h1, if_pos hi, Res.unwrap_some, Res.ok_bind, Res.pure_eq]⟩

/-- **C92, completeness** A valid chain is accepted by the batched check, whatever value it draws. -/
theorem batched_complete (h : ChainValid e c ev od p1 p2) (r : F) :
    c.verifyDelegationsBatched e ev od p1 p2 r = .ok true := by
  have hok : ∀ j, 1 ≤ j → j < 1 + c.size → LinkOK e c ev od p1 p2 j := fun j h1 h2 => h.links j h1 (by omega)
  obtain ⟨n, hn⟩ := countLoop_ok e c ev od p1 p2 c.size 1 (le_refl _) hok
  obtain ⟨l, hl, hl0⟩ := batchLoop_zero e c ev od p1 p2 r n c.size 1 0 n (le_refl _) hok hn (by omega)
  unfold Chain.verifyDelegationsBatched
  rw [(chain_validate_iff c ev od).2 ⟨h.nonempty, h.evens, h.odds⟩, Res.ok_bind, hn, Res.ok_bind, hl, Res.ok_bind, hl0]
  simp

/-- **C92, refuted** Take any valid chain of two links or more whose first link has an attribute besides the delegatee's key.  Add any
multiple `k` of the second link's `R` to the first attribute of the first link, and the same multiple of the generator to the first
`T` of the second link.  The batched check accepts the result for EVERY value it can draw, although the first link is no longer signed:
`verify_delegations` refuses it for every non-zero draw.  (The code multiplies the equations of a link of the second scheme with the
powers of `r` from 1 on, whatever the offset: the powers already used for the first link.) -/
theorem batched_accepts_forged (o : Link G1 G2) (os : List (Link G1 G2)) (v : Link G2 G1) (vs : List (Link G2 G1)) (m0 m1 : G1)
    (ms : List G1) (t0 : G2) (ts : List G2) (k : F)
    (h : ChainValid e ⟨o :: os, v :: vs⟩ ev od p1 p2) (ho : o.attributes = m0 :: m1 :: ms) (hv : v.signature.T = t0 :: ts)
    (hk : k ≠ 0) (hR : e v.signature.R p1.gb ≠ 0) (c' : Chain G1 G2)
    (hc' : c' = ⟨⟨o.level, (m0 + k • v.signature.R) :: m1 :: ms, o.signature⟩ :: os,
      ⟨v.level, v.attributes, ⟨v.signature.R, v.signature.S, (t0 + k • p1.gb) :: ts⟩⟩ :: vs⟩) :
    (∀ r, c'.verifyDelegationsBatched e ev od p1 p2 r = .ok true) ∧
    (∀ rnd : Nat → F, rnd 1 ≠ 0 → c'.verifyDelegations e ev od p1 p2 rnd = .ok false) ∧
    (m0 + k • v.signature.R ≠ m0) := by
  have hsz : c'.size = os.length + vs.length + 2 := by rw [hc']; simp [Chain.size]; omega
  have hsz0 : (⟨o :: os, v :: vs⟩ : Chain G1 G2).size = os.length + vs.length + 2 := by simp [Chain.size]; omega
  have hval : c'.validate ev od = .ok () := by
    rw [chain_validate_iff, hsz, ← hsz0]; exact ⟨h.nonempty, h.evens, h.odds⟩
  -- the two changed links
  obtain ⟨l, d, kk, h1, h2, h3, h4, h5⟩ := (h.links 1 (le_refl _) (by omega)).1 rfl
  obtain rfl : o = l := by simpa using h1
  obtain ⟨l, d2, kk2, g1, g2, g3, g4, g5⟩ := (h.links 2 (by omega) (by omega)).2 rfl
  obtain rfl : v = l := by simpa using g1
  -- the links from the third on are untouched
  have hrest : ∀ j, 3 ≤ j → j < 3 + (os.length + vs.length) → LinkOK e c' ev od p1 p2 j := by
    intro j hj1 hj2
    obtain ⟨ha, hb⟩ := h.links j (by omega) (by omega)
    have e1 : c'.odd[j / 2]? = (o :: os)[j / 2]? := by
      rw [hc']
      obtain ⟨q, hq⟩ : ∃ q, j / 2 = q + 1 := ⟨j / 2 - 1, by omega⟩
      rw [hq]; rfl
    have e2 : j % 2 = 0 → c'.even[j / 2 - 1]? = (v :: vs)[j / 2 - 1]? := by
      intro hj0
      rw [hc']
      obtain ⟨q, hq⟩ : ∃ q, j / 2 - 1 = q + 1 := ⟨j / 2 - 2, by omega⟩
      rw [hq]; rfl
    exact ⟨fun hj => by rw [e1]; exact ha hj, fun hj => by rw [e2 hj]; exact hb hj⟩
  obtain ⟨rest, hcnt⟩ := countLoop_ok e c' ev od p1 p2 (os.length + vs.length) 3 (by omega) hrest
  -- shapes
  obtain ⟨y0, ys, hy⟩ : ∃ y0 ys, p1.y = y0 :: ys := List.exists_cons_of_ne_nil (valid_y_ne h5.signature)
  obtain ⟨z0, zs, hz⟩ : ∃ z0 zs, p2.y = z0 :: zs := List.exists_cons_of_ne_nil (valid_y_ne g5.signature)
  have hTl := valid_T_length h5.signature
  obtain ⟨u0, us, hu⟩ : ∃ u0 us, o.signature.T = u0 :: us := by
    refine List.exists_cons_of_ne_nil fun h0 => ?_
    rw [h0, ho] at hTl; simp at hTl
  have hvl := valid_T_length g5.signature
  obtain ⟨w0, ws, hw⟩ : ∃ w0 ws, v.attributes = w0 :: ws := by
    refine List.exists_cons_of_ne_nil fun h0 => ?_
    have := g5.delegatee
    rw [h0] at this; cases this
  have D1 := (allDefects_zero_iff e o.signature o.attributes kk p1 (valid_y_ne h5.signature) h5.count hTl).2 h5.signature
  have D2 := (allDefects_zero_iff e.flip v.signature v.attributes kk2 p2 (valid_y_ne g5.signature) g5.count hvl).2 g5.signature
  simp only [allDefects, ho, hy, hu, List.headD_cons, defects, List.forall_mem_cons] at D1
  simp only [allDefects, hw, hz, hv, List.headD_cons, defects, List.forall_mem_cons] at D2
  obtain ⟨D1a, D1b, D1c⟩ := D1
  obtain ⟨D2a, D2b, D2c⟩ := D2
  -- the first changed link
  have C1 : ∀ r : F, combine r (allDefects e o.signature ((m0 + k • v.signature.R) :: m1 :: ms) kk p1) =
      r • k • e v.signature.R p1.gb := by
    intro r
    simp only [allDefects, hy, hu, List.headD_cons]
    rw [show defects e p1.gb kk o.signature.R ((m0 + k • v.signature.R) :: m1 :: ms) (y0 :: ys) (u0 :: us) =
      (k • e v.signature.R p1.gb + (e m0 p1.gb + e y0 kk - e u0 o.signature.R)) ::
        defects e p1.gb kk o.signature.R (m1 :: ms) ys us by
      simp only [defects, map_add, LinearMap.add_apply, map_smul, LinearMap.smul_apply]
      congr 1
      abel]
    rw [combine, combine, D1a, D1b, combine_zeros r _ D1c]
    simp
  have C2 : ∀ r : F, combine r (defects e.flip p2.gb kk2 v.signature.R v.attributes p2.y ((t0 + k • p1.gb) :: ts)) =
      - (k • e v.signature.R p1.gb) := by
    intro r
    rw [hw, hz]
    rw [show defects e.flip p2.gb kk2 v.signature.R (w0 :: ws) (z0 :: zs) ((t0 + k • p1.gb) :: ts) =
      (-(k • e v.signature.R p1.gb) + (e.flip w0 p2.gb + e.flip z0 kk2 - e.flip t0 v.signature.R)) ::
        defects e.flip p2.gb kk2 v.signature.R ws zs ts by
      simp only [defects, map_add, LinearMap.add_apply, map_smul, LinearMap.smul_apply, LinearMap.flip_apply]
      congr 1
      abel]
    rw [combine, D2b, combine_zeros r _ D2c]
    simp
  have hlast : ((m0 + k • v.signature.R) :: m1 :: ms).getLast? = some d := by
    have := h5.delegatee
    rw [ho] at this
    simpa using this
  have hlen : ((m0 + k • v.signature.R) :: m1 :: ms).length = o.attributes.length := by rw [ho]; rfl
  have V1 : (⟨o.level, (m0 + k • v.signature.R) :: m1 :: ms, o.signature⟩ : Link G1 G2).validate d p1 = .ok () :=
    (validate_ok_iff _ _ _).2 ⟨by show List.length _ ≤ _; rw [hlen]; exact h5.count, hlast⟩
  have V2 : (⟨v.level, v.attributes, ⟨v.signature.R, v.signature.S, (t0 + k • p1.gb) :: ts⟩⟩ : Link G2 G1).validate d2 p2 = .ok () :=
    (validate_ok_iff _ _ _).2 ⟨g5.count, g5.delegatee⟩
  have o1 : c'.odd[1 / 2]? = some ⟨o.level, (m0 + k • v.signature.R) :: m1 :: ms, o.signature⟩ := by rw [hc']; rfl
  have o2 : c'.even[2 / 2 - 1]? = some ⟨v.level, v.attributes, ⟨v.signature.R, v.signature.S, (t0 + k • p1.gb) :: ts⟩⟩ := by
    rw [hc']; rfl
  have hTl2 : v.attributes.length ≤ ((t0 + k • p1.gb) :: ts).length := by rw [hv] at hvl; simpa using hvl
  refine ⟨fun r => ?_, fun rnd hr => ?_, ?_⟩
  · -- the batched check
    obtain ⟨q1, hq1, hs1⟩ := prepare1_ok e r (o.attributes.length + 1 + (v.attributes.length + 1 + rest)) 0 o.signature
      ((m0 + k • v.signature.R) :: m1 :: ms) kk p1 (valid_y_ne h5.signature) (by rw [hlen]; omega) (by rw [hlen]; exact h5.count)
      (by rw [hlen]; exact hTl)
    obtain ⟨q2, hq2, hs2⟩ := prepare2_ok e r (o.attributes.length + 1 + (v.attributes.length + 1 + rest))
      (0 + (o.attributes.length + 1)) ⟨v.signature.R, v.signature.S, (t0 + k • p1.gb) :: ts⟩ v.attributes kk2 p2
      (valid_y_ne g5.signature) (by omega) g5.count hTl2
    obtain ⟨q3, hq3, hs3⟩ := batchLoop_zero e c' ev od p1 p2 r (o.attributes.length + 1 + (v.attributes.length + 1 + rest))
      (os.length + vs.length) 3 (0 + (o.attributes.length + 1) + (v.attributes.length + 1)) rest (by omega) hrest hcnt (by omega)
    have B1 : batchLink c' ev od p1 p2 (vandermonde r (o.attributes.length + 1 + (v.attributes.length + 1 + rest))) 1 0 =
        .ok (q1, 0 + (o.attributes.length + 1)) := by
      unfold batchLink
      rw [if_pos (by rfl), o1, Res.unwrap_some, Res.ok_bind, if_neg (by simpa using h2), h3, Res.unwrap_some, Res.ok_bind, V1,
        Res.ok_bind, h4, Res.unwrap_some, Res.ok_bind, hq1, Res.ok_bind, hlen]
      rfl
    have B2 : batchLink c' ev od p1 p2 (vandermonde r (o.attributes.length + 1 + (v.attributes.length + 1 + rest))) 2
        (0 + (o.attributes.length + 1)) = .ok (q2, 0 + (o.attributes.length + 1) + (v.attributes.length + 1)) := by
      unfold batchLink
      rw [if_neg (by decide), o2, Res.unwrap_some, Res.ok_bind, if_neg (by simpa using g2), g3, Res.unwrap_some, Res.ok_bind, V2,
        Res.ok_bind, g4, Res.unwrap_some, Res.ok_bind, hq2, Res.ok_bind]
      rfl
    have K1 : countLink c' 1 = .ok (o.attributes.length + 1) := by
      unfold countLink
      rw [if_pos (by rfl), o1, Res.unwrap_some, Res.ok_bind, hlen]; rfl
    have K2 : countLink c' 2 = .ok (v.attributes.length + 1) := by
      unfold countLink
      rw [if_neg (by decide), o2, Res.unwrap_some, Res.ok_bind]; rfl
    unfold Chain.verifyDelegationsBatched
    rw [hval, Res.ok_bind, hsz]
    simp only [countLoop, K1, K2, hcnt, Res.ok_bind, Res.pure_eq, batchLoop, B1, B2, hq3]
    rw [multiPairing_append, multiPairing_append, hs1, hs2, hs3, C1, C2]
    simp only [hz, List.headD_cons, D2a]
    simp
  · -- link by link
    unfold Chain.verifyDelegations
    rw [hval, Res.ok_bind, hsz]
    have K : checkLink e c' ev od p1 p2 rnd 1 = .ok false := by
      unfold checkLink
      rw [if_pos (by rfl), o1, Res.unwrap_some, Res.ok_bind, if_neg (by simpa using h2), h3, Res.unwrap_some, Res.ok_bind, h4,
        Res.unwrap_some, Res.ok_bind]
      unfold Link.verify
      rw [V1, Res.ok_bind, batch1_eq, if_neg (by rw [hlen]; exact Nat.not_lt.mpr h5.count),
        if_neg (by rw [hlen]; simp only [not_or, not_lt]; exact ⟨valid_y_ne h5.signature, hTl⟩), C1]
      simp [hr, hk, hR]
    simp only [delegationLoop, K, Res.ok_bind]
    simp
  · intro h0
    have : k • v.signature.R = 0 := by simpa using h0
    rcases smul_eq_zero.mp this with h0 | h0
    · exact hk h0
    · exact hR (by rw [h0]; simp)

/-! ## C94: building and truncating chains -/

/-- chains made by the two `extend` functions from the empty one -/
inductive Built : Chain G1 G2 → Prop
  | empty : Built Chain.empty
  | odd {c c' : Chain G1 G2} (l : Link G1 G2) : Built c → c.extendOdd l = .ok c' → Built c'
  | even {c c' : Chain G1 G2} (l : Link G2 G1) : Built c → c.extendEven l = .ok c' → Built c'

theorem extendOdd_ok_iff (c c' : Chain G1 G2) (l : Link G1 G2) :
    c.extendOdd l = .ok c' ↔ c' = ⟨c.odd ++ [l], c.even⟩ ∧ l.level % 2 = 1 ∧
      (c.odd = [] → l.level = 1) ∧ (∀ last, c.odd.getLast? = some last → l.level = last.level + 2) := by
  unfold Chain.extendOdd
  rcases Nat.mod_two_eq_zero_or_one l.level with hl | hl
  · rw [if_pos hl]; simp [hl]
  · rw [if_neg (by omega)]
    cases hc : c.odd.getLast? with
    | none =>
      have : c.odd = [] := by simpa using hc
      by_cases h1 : l.level ≠ 1
      · simp [h1, this]
      · simp only [this, h1, if_false, Res.ok.injEq, hl, true_and, forall_const, reduceCtorEq, IsEmpty.forall_iff, implies_true, and_true]
        simp only [ne_eq, not_not] at h1
        constructor
        · rintro rfl; exact ⟨rfl, h1⟩
        · rintro ⟨rfl, -⟩; rfl
    | some last =>
      have hne : c.odd ≠ [] := by intro h; rw [h] at hc; cases hc
      simp only [hne, IsEmpty.forall_iff, true_and, hl, Option.some.injEq, forall_eq']
      by_cases h1 : l.level < last.level
      · rw [if_pos h1]; simp; omega
      · rw [if_neg h1]
        by_cases h2 : l.level - last.level ≠ 2
        · rw [if_pos h2]; simp; omega
        · rw [if_neg h2]
          constructor
          · intro h; exact ⟨by simpa using h.symm, by omega⟩
          · rintro ⟨rfl, -⟩; rfl

theorem extendEven_ok_iff (c c' : Chain G1 G2) (l : Link G2 G1) :
    c.extendEven l = .ok c' ↔ c' = ⟨c.odd, c.even ++ [l]⟩ ∧ l.level % 2 = 0 ∧
      (c.even = [] → l.level = 2) ∧ (∀ last, c.even.getLast? = some last → l.level = last.level + 2) := by
  unfold Chain.extendEven
  rcases Nat.mod_two_eq_zero_or_one l.level with hl | hl
  · rw [if_neg (by omega)]
    cases hc : c.even.getLast? with
    | none =>
      have : c.even = [] := by simpa using hc
      by_cases h1 : l.level ≠ 2
      · simp [h1, this]
      · simp only [this, h1, if_false, Res.ok.injEq, hl, true_and, forall_const, reduceCtorEq, IsEmpty.forall_iff, implies_true, and_true]
        simp only [ne_eq, not_not] at h1
        constructor
        · rintro rfl; exact ⟨rfl, h1⟩
        · rintro ⟨rfl, -⟩; rfl
    | some last =>
      have hne : c.even ≠ [] := by intro h; rw [h] at hc; cases hc
      simp only [hne, IsEmpty.forall_iff, true_and, hl, Option.some.injEq, forall_eq']
      by_cases h1 : l.level < last.level
      · rw [if_pos h1]; simp; omega
      · rw [if_neg h1]
        by_cases h2 : l.level - last.level ≠ 2
        · rw [if_pos h2]; simp; omega
        · rw [if_neg h2]
          constructor
          · intro h; exact ⟨by simpa using h.symm, by omega⟩
          · rintro ⟨rfl, -⟩; rfl
  · rw [if_pos (by omega)]; simp [hl]

theorem levels_append {A B : Type} (L : List (Link A B)) (l : Link A B) (a : Nat)
    (h : ∀ (j : Nat) x, L[j]? = some x → x.level = 2 * j + a) (h0 : L = [] → l.level = a)
    (h1 : ∀ last, L.getLast? = some last → l.level = last.level + 2) :
    ∀ (j : Nat) x, (L ++ [l])[j]? = some x → x.level = 2 * j + a := by
  intro j x hx
  rcases Nat.lt_trichotomy j L.length with hj | hj | hj
  · rw [List.getElem?_append_left hj] at hx; exact h j x hx
  · subst hj
    simp at hx
    subst hx
    cases hL : L.getLast? with
    | none =>
      have : L = [] := by simpa using hL
      rw [h0 this, this]; simp
    | some last =>
      have h2 := h1 last hL
      rw [List.getLast?_eq_getElem?] at hL
      have h3 := h _ last hL
      have : L.length ≠ 0 := by intro h4; rw [List.length_eq_zero_iff] at h4; rw [h4] at hL; cases hL
      omega
  · rw [List.getElem?_eq_none (by simp; omega)] at hx; cases hx

/-- **C94** In a chain made by extending, the odd links have the levels 1, 3, 5, … and the even links 2, 4, 6, … . -/
theorem built_levels {c : Chain G1 G2} (h : Built c) :
    (∀ (j : Nat) l, c.odd[j]? = some l → l.level = 2 * j + 1) ∧ (∀ (j : Nat) l, c.even[j]? = some l → l.level = 2 * j + 2) := by
  induction h with
  | empty => simp [Chain.empty]
  | odd l _ hx ih =>
    obtain ⟨rfl, -, h1, h2⟩ := (extendOdd_ok_iff _ _ l).1 hx
    exact ⟨levels_append _ l 1 ih.1 h1 h2, ih.2⟩
  | even l _ hx ih =>
    obtain ⟨rfl, -, h1, h2⟩ := (extendEven_ok_iff _ _ l).1 hx
    exact ⟨ih.1, levels_append _ l 2 ih.2 h1 h2⟩

/-- **C93, crash** Extending with a link of a lower level than the last one crashes (in a build with overflow checks). -/
theorem extend_lower_panics (c : Chain G1 G2) (l last : Link G1 G2) (hl : l.level % 2 = 1) (hc : c.odd.getLast? = some last)
    (h : l.level < last.level) : c.extendOdd l = .panic := by
  unfold Chain.extendOdd
  rw [if_neg (by omega), hc]
  simp [h]

/-- **C93, crash** Nothing keeps the two kinds of links in step: a chain with even links only can be built, and then checking it (either
way) and truncating it crash. -/
theorem unbalanced_panics (vs : List (Link G2 G1)) (hvs : vs ≠ []) (rnd : Nat → F) (r : F)
    (he : ev.length = vs.length / 2 + 1) (ho : od.length = (vs.length + 1) / 2) :
    (⟨[], vs⟩ : Chain G1 G2).verifyDelegations e ev od p1 p2 rnd = .panic ∧
    (⟨[], vs⟩ : Chain G1 G2).verifyDelegationsBatched e ev od p1 p2 r = .panic ∧
    (∀ k, 1 ≤ k → k ≤ vs.length → (⟨[], vs⟩ : Chain G1 G2).truncated k = .panic) := by
  obtain ⟨n, hn⟩ : ∃ n, vs.length = n + 1 := ⟨vs.length - 1, by
    have : vs.length ≠ 0 := by simpa using hvs
    omega⟩
  have hs : (⟨[], vs⟩ : Chain G1 G2).size = n + 1 := by simp [Chain.size, hn]
  have hval : (⟨[], vs⟩ : Chain G1 G2).validate ev od = .ok () := by
    rw [chain_validate_iff, hs]; omega
  refine ⟨?_, ?_, ?_⟩
  · unfold Chain.verifyDelegations
    rw [hval, Res.ok_bind, hs]
    simp [delegationLoop, checkLink]
  · unfold Chain.verifyDelegationsBatched
    rw [hval, Res.ok_bind, hs]
    simp [countLoop, countLink]
  · intro k h1 h2
    obtain ⟨q, rfl⟩ : ∃ q, k = q + 1 := ⟨k - 1, by omega⟩
    unfold Chain.truncated
    rw [if_neg (by rw [hs]; omega)]
    simp [truncLoop]

theorem truncLoop_eq (c : Chain G1 G2) (ho : c.odd.length = (c.size + 1) / 2) (he : c.even.length = c.size / 2) :
    ∀ (n i : Nat), 1 ≤ i → i + n ≤ c.size + 1 →
    truncLoop c n i ⟨c.odd.take (i / 2), c.even.take ((i - 1) / 2)⟩ =
      .ok ⟨c.odd.take ((i + n) / 2), c.even.take ((i + n - 1) / 2)⟩
  | 0, i, _, _ => rfl
  | n + 1, i, h1, h2 => by
    have ih := truncLoop_eq c ho he n (i + 1) (by omega) (by omega)
    rw [show i + 1 + n = i + (n + 1) by omega] at ih
    simp only [truncLoop]
    rcases Nat.mod_two_eq_zero_or_one i with hi | hi
    · have hlt : i / 2 - 1 < c.even.length := by omega
      rw [if_neg (by omega), List.getElem?_eq_getElem hlt, Res.unwrap_some, Res.ok_bind, ← ih]
      have e1 : (i + 1) / 2 = i / 2 := by omega
      have e2 : (i + 1 - 1) / 2 = (i - 1) / 2 + 1 := by omega
      have e3 : i / 2 - 1 = (i - 1) / 2 := by omega
      simp only [e1, e2, e3]
      rw [List.take_add_one, List.getElem?_eq_getElem (by omega)]
      rfl
    · have hlt : i / 2 < c.odd.length := by omega
      rw [if_pos hi, List.getElem?_eq_getElem hlt, Res.unwrap_some, Res.ok_bind, ← ih]
      have e1 : (i + 1) / 2 = i / 2 + 1 := by omega
      have e2 : (i + 1 - 1) / 2 = (i - 1) / 2 := by omega
      simp only [e1, e2]
      rw [List.take_add_one, List.getElem?_eq_getElem hlt]
      rfl

/-- **C94** Truncating a chain with the two kinds of links in step gives its first `k` links; asking for more than there are is an
error. -/
theorem truncated_spec (c : Chain G1 G2) (k : Nat) :
    (k > c.size → c.truncated k = .err (.chainIsShorterThanExpected c.size k)) ∧
    (k ≤ c.size → c.odd.length = (c.size + 1) / 2 → c.even.length = c.size / 2 →
      c.truncated k = .ok ⟨c.odd.take ((k + 1) / 2), c.even.take (k / 2)⟩) := by
  unfold Chain.truncated
  constructor
  · intro h; rw [if_pos h]
  · intro h ho he
    rw [if_neg (by omega)]
    have := truncLoop_eq c ho he k 1 (le_refl _) (by omega)
    rw [show 1 + k - 1 = k by omega, show 1 + k = k + 1 by omega] at this
    simpa [Chain.empty] using this

theorem chainValid_balanced {c : Chain G1 G2} {ev : List G2} {od : List G1} {p1 : Setup G1 G2} {p2 : Setup G2 G1}
    (h : ChainValid e c ev od p1 p2) : c.odd.length = (c.size + 1) / 2 ∧ c.even.length = c.size / 2 := by
  have hs : c.size = c.odd.length + c.even.length := rfl
  have h1 : (c.size + 1) / 2 ≤ c.odd.length := by
    have hne := h.nonempty
    have hlast : LinkOK e c ev od p1 p2 (2 * ((c.size - 1) / 2) + 1) := h.links _ (by omega) (by omega)
    obtain ⟨l, d, k, hl, -⟩ := hlast.1 (by omega)
    have := (List.getElem?_eq_some_iff.mp hl).1
    omega
  have h2 : c.size / 2 ≤ c.even.length := by
    by_cases h0 : c.size / 2 = 0
    · omega
    have hlast : LinkOK e c ev od p1 p2 (2 * (c.size / 2)) := h.links _ (by omega) (by omega)
    obtain ⟨l, d, k, hl, -⟩ := hlast.2 (by omega)
    have := (List.getElem?_eq_some_iff.mp hl).1
    omega
  omega

/-- **C94** The truncation of a valid chain is valid, for the first keys. -/
theorem truncated_valid (h : ChainValid e c ev od p1 p2) (k : Nat) (hk : 1 ≤ k) (hk' : k ≤ c.size) :
    ∃ c', c.truncated k = .ok c' ∧ c'.size = k ∧
      ChainValid e c' (ev.take (k / 2 + 1)) (od.take ((k + 1) / 2)) p1 p2 := by
  obtain ⟨hb1, hb2⟩ := chainValid_balanced e h
  refine ⟨_, (truncated_spec c k).2 hk' hb1 hb2, ?_, ?_⟩
  · show (c.odd.take _).length + (c.even.take _).length = k
    rw [List.length_take, List.length_take, hb1, hb2]; omega
  have hsz : (⟨c.odd.take ((k + 1) / 2), c.even.take (k / 2)⟩ : Chain G1 G2).size = k := by
    show (c.odd.take _).length + (c.even.take _).length = k
    rw [List.length_take, List.length_take, hb1, hb2]; omega
  have he := h.evens
  have ho := h.odds
  refine ⟨by rw [hsz]; exact hk, by rw [hsz]; simp; omega, by rw [hsz]; simp; omega, ?_⟩
  rw [hsz]
  intro i hi1 hi2
  obtain ⟨ha, hb⟩ := h.links i hi1 (by omega)
  refine ⟨fun hi => ?_, fun hi => ?_⟩
  · obtain ⟨l, d, kk, g1, g2, g3, g4, g5⟩ := ha hi
    refine ⟨l, d, kk, ?_, g2, ?_, ?_, g5⟩ <;> rw [List.getElem?_take_of_lt (by omega)] <;> assumption
  · obtain ⟨l, d, kk, g1, g2, g3, g4, g5⟩ := hb hi
    refine ⟨l, d, kk, ?_, g2, ?_, ?_, g5⟩ <;> rw [List.getElem?_take_of_lt (by omega)] <;> assumption

/-- the accessors -/
theorem chain_get (c : Chain G1 G2) (i : Nat) :
    (∀ l, c.getOdd i = .ok l ↔ c.odd[i]? = some l) ∧ (∀ l, c.getEven i = .ok l ↔ c.even[i]? = some l) ∧
    (c.odd.length ≤ i → c.getOdd i = .err (.noOddLinkInChainAtGivenIndex i c.odd.length)) ∧
    (c.even.length ≤ i → c.getEven i = .err (.noEvenLinkInChainAtGivenIndex i c.even.length)) := by
  unfold Chain.getOdd Chain.getEven
  refine ⟨fun l => ?_, fun l => ?_, fun h => ?_, fun h => ?_⟩
  · cases c.odd[i]? <;> simp
  · cases c.even[i]? <;> simp
  · rw [List.getElem?_eq_none h]
  · rw [List.getElem?_eq_none h]

/-- **C91** Checking the last link alone is checking that link. -/
theorem verify_last (c : Chain G1 G2) (d : G1) (k : G2) (d' : G2) (k' : G1) (r : F) :
    (c.odd = [] → c.verifyLastOdd e d k p1 r = .err .noOddLinksInChain) ∧
    (∀ L l, c.odd = L ++ [l] → c.verifyLastOdd e d k p1 r = l.verify (verifyBatch1 e r) d k p1) ∧
    (c.even = [] → c.verifyLastEven e d' k' p2 r = .err .noEvenLinksInChain) ∧
    (∀ L l, c.even = L ++ [l] → c.verifyLastEven e d' k' p2 r = l.verify (verifyBatch2 e r) d' k' p2) := by
  unfold Chain.verifyLastOdd Chain.verifyLastEven
  refine ⟨fun h => by rw [h]; rfl, fun L l h => by rw [h]; simp, fun h => by rw [h]; rfl, fun L l h => by rw [h]; simp⟩

/-! ## Honest chains -/

/-- A chain made as the API intends, with the keys along it and the signing key of its last member: the root key first, then each
holder of the last key delegates to the next, with any attributes and non-zero random values, and the chain is extended. -/
inductive Honest (p1 : Setup G1 G2) (p2 : Setup G2 G1) : Chain G1 G2 → List G2 → List G1 → F → Prop
  | root (sk : F) : Honest p1 p2 Chain.empty [(keygen p1 sk).2] [] (keygen p1 sk).1
  | odd {c c' : Chain G1 G2} {ev : List G2} {od : List G1} {sk : F} (sk' r : F) (attrs : List G1) (l : Link G1 G2) :
      Honest p1 p2 c ev od sk → newIssuer 0 c.size = .ok c.size → r ≠ 0 →
      delegate c.size attrs (keygen p2 sk').2 sk p1 r = .ok l → c.extendOdd l = .ok c' →
      Honest p1 p2 c' ev (od ++ [(keygen p2 sk').2]) (keygen p2 sk').1
  | even {c c' : Chain G1 G2} {ev : List G2} {od : List G1} {sk : F} (sk' r : F) (attrs : List G2) (l : Link G2 G1) :
      Honest p1 p2 c ev od sk → newIssuer 1 c.size = .ok c.size → r ≠ 0 →
      delegate c.size attrs (keygen p1 sk').2 sk p2 r = .ok l → c.extendEven l = .ok c' →
      Honest p1 p2 c' (ev ++ [(keygen p1 sk').2]) od (keygen p1 sk').1

theorem newIssuer_level (odd n : Nat) (ho : odd < 2) (h : newIssuer odd n = .ok n) : n % 2 = odd := by
  unfold newIssuer at h
  by_contra hne
  rw [if_pos hne] at h
  cases h

theorem honest_inv {p1 : Setup G1 G2} {p2 : Setup G2 G1} {c : Chain G1 G2} {ev : List G2} {od : List G1} {sk : F}
    (h : Honest p1 p2 c ev od sk) :
    ev.length = c.size / 2 + 1 ∧ od.length = (c.size + 1) / 2 ∧ c.odd.length = (c.size + 1) / 2 ∧ c.even.length = c.size / 2 ∧
    (∀ i, 1 ≤ i → i ≤ c.size → LinkOK e c ev od p1 p2 i) ∧
    (c.size % 2 = 0 → ev[c.size / 2]? = some (keygen p1 sk).2) ∧ (c.size % 2 = 1 → od[c.size / 2]? = some (keygen p2 sk).2) := by
  induction h with
  | root sk =>
    refine ⟨by simp [Chain.empty, Chain.size], by simp [Chain.empty, Chain.size], by simp [Chain.empty, Chain.size], by simp [Chain.empty, Chain.size], ?_, fun _ => by simp [Chain.empty, Chain.size, keygen], fun h => ?_⟩
    · intro i h1 h2
      have : i ≤ 0 := h2
      omega
    · cases h
  | @odd c c' ev od sk sk' r attrs l _ hp hr hd hx ih =>
    obtain ⟨h1, h2, h3, h4, h5, h6, h7⟩ := ih
    obtain ⟨rfl, -, -⟩ := (extendOdd_ok_iff _ _ l).1 hx
    have hpar := newIssuer_level 0 _ (by omega) hp
    have hsz : (⟨c.odd ++ [l], c.even⟩ : Chain G1 G2).size = c.size + 1 := by simp [Chain.size]; omega
    have hroom : attrs.length < p1.y.length := by
      by_contra hne
      rw [(delegate_spec e c.size attrs _ sk r p1 hr).2 (by omega)] at hd
      cases hd
    obtain ⟨l', hd', hlev, hat, hval⟩ := (delegate_spec e c.size attrs (keygen p2 sk').2 sk r p1 hr).1 hroom
    rw [hd] at hd'
    obtain rfl : l = l' := by simpa using hd'
    rw [hsz]
    refine ⟨by omega, by simp; omega, by simp; omega, by simp only []; omega, ?_, by omega, ?_⟩
    · intro i hi1 hi2
      rcases Nat.lt_or_ge c.size i with hi | hi
      · obtain rfl : i = c.size + 1 := by omega
        refine ⟨fun _ => ⟨l, (keygen p2 sk').2, (keygen p1 sk).2, ?_, hlev, ?_, ?_, hval⟩, fun h => by omega⟩
        · show (c.odd ++ [l])[(c.size + 1) / 2]? = some l
          rw [show (c.size + 1) / 2 = c.odd.length by omega]; simp
        · rw [show (c.size + 1) / 2 = od.length by omega]; simp
        · rw [show (c.size + 1) / 2 = c.size / 2 by omega]; exact h6 hpar
      · obtain ⟨ha, hb⟩ := h5 i hi1 hi
        refine ⟨fun hi' => ?_, fun hi' => ?_⟩
        · obtain ⟨x, d, k, g1, g2, g3, g4, g5⟩ := ha hi'
          refine ⟨x, d, k, ?_, g2, ?_, g4, g5⟩
          · show (c.odd ++ [l])[i / 2]? = some x
            rw [List.getElem?_append_left (by omega)]; exact g1
          · rw [List.getElem?_append_left (by omega)]; exact g3
        · obtain ⟨x, d, k, g1, g2, g3, g4, g5⟩ := hb hi'
          refine ⟨x, d, k, g1, g2, g3, ?_, g5⟩
          rw [List.getElem?_append_left (by omega)]; exact g4
    · intro _
      rw [show (c.size + 1) / 2 = od.length by omega]; simp [keygen]
  | @even c c' ev od sk sk' r attrs l _ hp hr hd hx ih =>
    obtain ⟨h1, h2, h3, h4, h5, h6, h7⟩ := ih
    obtain ⟨rfl, -, -⟩ := (extendEven_ok_iff _ _ l).1 hx
    have hpar := newIssuer_level 1 _ (by omega) hp
    have hsz : (⟨c.odd, c.even ++ [l]⟩ : Chain G1 G2).size = c.size + 1 := by simp [Chain.size]; omega
    have hroom : attrs.length < p2.y.length := by
      by_contra hne
      rw [(delegate_spec e.flip c.size attrs _ sk r p2 hr).2 (by omega)] at hd
      cases hd
    obtain ⟨l', hd', hlev, hat, hval⟩ := (delegate_spec e.flip c.size attrs (keygen p1 sk').2 sk r p2 hr).1 hroom
    rw [hd] at hd'
    obtain rfl : l = l' := by simpa using hd'
    rw [hsz]
    refine ⟨by simp; omega, by omega, by simp only []; omega, by simp; omega, ?_, ?_, by omega⟩
    · intro i hi1 hi2
      rcases Nat.lt_or_ge c.size i with hi | hi
      · obtain rfl : i = c.size + 1 := by omega
        refine ⟨fun h => by omega, fun _ => ⟨l, (keygen p1 sk').2, (keygen p2 sk).2, ?_, hlev, ?_, ?_, hval⟩⟩
        · show (c.even ++ [l])[(c.size + 1) / 2 - 1]? = some l
          rw [show (c.size + 1) / 2 - 1 = c.even.length by omega]; simp
        · rw [show (c.size + 1) / 2 = ev.length by omega]; simp
        · rw [show (c.size + 1) / 2 - 1 = c.size / 2 by omega]; exact h7 hpar
      · obtain ⟨ha, hb⟩ := h5 i hi1 hi
        refine ⟨fun hi' => ?_, fun hi' => ?_⟩
        · obtain ⟨x, d, k, g1, g2, g3, g4, g5⟩ := ha hi'
          refine ⟨x, d, k, g1, g2, g3, ?_, g5⟩
          rw [List.getElem?_append_left (by omega)]; exact g4
        · obtain ⟨x, d, k, g1, g2, g3, g4, g5⟩ := hb hi'
          refine ⟨x, d, k, ?_, g2, ?_, g4, g5⟩
          · show (c.even ++ [l])[i / 2 - 1]? = some x
            rw [List.getElem?_append_left (by omega)]; exact g1
          · rw [List.getElem?_append_left (by omega)]; exact g3
    · intro _
      rw [show (c.size + 1) / 2 = ev.length by omega]; simp [keygen]

/-- **C91** Every honestly made chain of one link or more is accepted, by both checks and for every value they draw. -/
theorem honest_accepted {p1 : Setup G1 G2} {p2 : Setup G2 G1} {c : Chain G1 G2} {ev : List G2} {od : List G1} {sk : F}
    (h : Honest p1 p2 c ev od sk) (hne : c.size ≠ 0) (rnd : Nat → F) (r : F) :
    c.verifyDelegations e ev od p1 p2 rnd = .ok true ∧ c.verifyDelegationsBatched e ev od p1 p2 r = .ok true := by
  obtain ⟨h1, h2, h3, h4, h5, -⟩ := honest_inv e h
  have hv : ChainValid e c ev od p1 p2 := ⟨by omega, h1, h2, h5⟩
  exact ⟨verifyDelegations_complete e c ev od p1 p2 hv rnd, batched_complete e c ev od p1 p2 hv r⟩

/-- **C91** The holder of the last key of an honest chain can always delegate further, as long as there is room for the attributes. -/
theorem honest_progress {p1 : Setup G1 G2} {p2 : Setup G2 G1} {c : Chain G1 G2} {ev : List G2} {od : List G1} {sk : F}
    (h : Honest p1 p2 c ev od sk) (sk' r : F) (hr : r ≠ 0) :
    (c.size % 2 = 0 → ∀ attrs : List G1, attrs.length < p1.y.length →
      ∃ l c', delegate c.size attrs (keygen p2 sk').2 sk p1 r = .ok l ∧ c.extendOdd l = .ok c' ∧
        Honest p1 p2 c' ev (od ++ [(keygen p2 sk').2]) (keygen p2 sk').1) ∧
    (c.size % 2 = 1 → ∀ attrs : List G2, attrs.length < p2.y.length →
      ∃ l c', delegate c.size attrs (keygen p1 sk').2 sk p2 r = .ok l ∧ c.extendEven l = .ok c' ∧
        Honest p1 p2 c' (ev ++ [(keygen p1 sk').2]) od (keygen p1 sk').1) := by
  obtain ⟨h1, h2, h3, h4, h5, -⟩ := honest_inv (0 : G1 →ₗ[F] G2 →ₗ[F] F) h
  constructor
  · intro hp attrs ha
    obtain ⟨l, hd, hlev, -⟩ := (delegate_spec (0 : G1 →ₗ[F] G2 →ₗ[F] F) c.size attrs (keygen p2 sk').2 sk r p1 hr).1 ha
    have hx : c.extendOdd l = .ok ⟨c.odd ++ [l], c.even⟩ := by
      refine (extendOdd_ok_iff _ _ l).2 ⟨rfl, by omega, fun h0 => ?_, fun last hl => ?_⟩
      · rw [h0] at h3; simp at h3; omega
      · have hne : c.odd.length ≠ 0 := by intro h0; rw [List.length_eq_zero_iff] at h0; rw [h0] at hl; cases hl
        obtain ⟨x, d, k, g1, g2, -⟩ := (h5 (c.size - 1) (by omega) (by omega)).1 (by omega)
        rw [List.getLast?_eq_getElem?, show c.odd.length - 1 = (c.size - 1) / 2 by omega, g1] at hl
        obtain rfl : x = last := by simpa using hl
        omega
    exact ⟨l, _, hd, hx, .odd sk' r attrs l h (by rw [(newIssuer_iff _).1, if_pos hp]) hr hd hx⟩
  · intro hp attrs ha
    obtain ⟨l, hd, hlev, -⟩ := (delegate_spec (0 : G2 →ₗ[F] G1 →ₗ[F] F) c.size attrs (keygen p1 sk').2 sk r p2 hr).1 ha
    have hx : c.extendEven l = .ok ⟨c.odd, c.even ++ [l]⟩ := by
      refine (extendEven_ok_iff _ _ l).2 ⟨rfl, by omega, fun h0 => ?_, fun last hl => ?_⟩
      · rw [h0] at h4; simp at h4; omega
      · have hne : c.even.length ≠ 0 := by intro h0; rw [List.length_eq_zero_iff] at h0; rw [h0] at hl; cases hl
        obtain ⟨x, d, k, g1, g2, -⟩ := (h5 (c.size - 1) (by omega) (by omega)).2 (by omega)
        rw [List.getLast?_eq_getElem?, show c.even.length - 1 = (c.size - 1) / 2 - 1 by omega, g1] at hl
        obtain rfl : x = last := by simpa using hl
        omega
    exact ⟨l, _, hd, hx, .even sk' r attrs l h (by rw [(newIssuer_iff _).2, if_pos hp]) hr hd hx⟩

end ChainSec

/-! ## Concrete cases -/

section Examples
open Verif.Toy
local instance : Fact (Nat.Prime 101) := fact101

/-- parameters of the two schemes, with shared generators -/
def cs1 : Setup (ZMod 101) (ZMod 101) := ⟨5, 7, [2, 3, 11]⟩
def cs2 : Setup (ZMod 101) (ZMod 101) := ⟨7, 5, [4, 6, 9]⟩

/-- a chain of two links: the root (key 13) delegates to key 17, which delegates to key 19 -/
def honestLink1 : Link (ZMod 101) (ZMod 101) :=
  match delegate (F := ZMod 101) 0 [20, 30] (17 * 5) 13 cs1 4 with | .ok l => l | _ => ⟨0, [], ⟨0, 0, []⟩⟩
def honestLink2 : Link (ZMod 101) (ZMod 101) :=
  match delegate (F := ZMod 101) 1 [40] (19 * 7) 17 cs2 6 with | .ok l => l | _ => ⟨0, [], ⟨0, 0, []⟩⟩
def honestChain : Chain (ZMod 101) (ZMod 101) := ⟨[honestLink1], [honestLink2]⟩

theorem honestChain_honest : Honest cs1 cs2 honestChain [(keygen cs1 (13 : ZMod 101)).2, (keygen cs1 (19 : ZMod 101)).2]
    [(keygen cs2 (17 : ZMod 101)).2] (19 : ZMod 101) := by
  have h1 : Honest cs1 cs2 ⟨[honestLink1], []⟩ [(keygen cs1 (13 : ZMod 101)).2] ([] ++ [(keygen cs2 (17 : ZMod 101)).2])
      (17 : ZMod 101) :=
    Honest.odd (F := ZMod 101) (c := Chain.empty) (sk := 13) 17 4 [20, 30] honestLink1 (Honest.root 13) rfl (by decide) (by decide +kernel) (by decide +kernel)
  exact Honest.even (F := ZMod 101) (c := ⟨[honestLink1], []⟩) (ev := [(keygen cs1 (13 : ZMod 101)).2]) (sk := 17) 19 6 [40] honestLink2 h1 rfl (by decide)
    (by decide +kernel) (by decide +kernel)

example := honest_accepted toyE honestChain_honest (by decide) (fun _ => 3) 8

theorem honestChain_valid : ChainValid toyE honestChain [(keygen cs1 (13 : ZMod 101)).2, (keygen cs1 (19 : ZMod 101)).2]
    [(keygen cs2 (17 : ZMod 101)).2] cs1 cs2 := by
  obtain ⟨h1, h2, h3, h4, h5, -⟩ := honest_inv toyE honestChain_honest
  exact ⟨by decide, h1, h2, h5⟩

/-- the forged chain of `batched_accepts_forged`, for this chain -/
example : ∃ c' : Chain (ZMod 101) (ZMod 101), c'.odd.map (fun l => l.attributes) ≠ honestChain.odd.map (fun l => l.attributes) ∧
    (∀ r : ZMod 101, c'.verifyDelegationsBatched toyE [13 * 7, 19 * 7] [17 * 5] cs1 cs2 r = .ok true) ∧
    c'.verifyDelegations toyE [13 * 7, 19 * 7] [17 * 5] cs1 cs2 (fun _ => (3 : ZMod 101)) = .ok false := by
  have := batched_accepts_forged toyE _ _ cs1 cs2 honestLink1 [] honestLink2 [] 20 30 [17 * 5] (honestLink2.signature.T.headD 0)
    honestLink2.signature.T.tail (1 : ZMod 101) honestChain_valid (by decide +kernel) (by decide +kernel) (by decide)
    (by decide +kernel) _ rfl
  refine ⟨_, ?_, this.1, this.2.1 _ (by decide)⟩
  decide +kernel

example : honestChain.truncated 1 = .ok ⟨[honestLink1], []⟩ := rfl
example : Built (G1 := ZMod 101) (G2 := ZMod 101) honestChain :=
  .even (c := ⟨[honestLink1], []⟩) honestLink2 (.odd honestLink1 .empty rfl) rfl
/-- even links only: buildable, and crashes the verifier -/
example : Built (G1 := ZMod 101) (G2 := ZMod 101) ⟨[], [honestLink2]⟩ := .even honestLink2 .empty rfl
example := unbalanced_panics toyE [13 * 7] [17 * 5] cs1 cs2 [honestLink2] (by simp) (fun _ => (3 : ZMod 101)) 5 (by decide) (by decide)

end Examples
end Verif.Groth
