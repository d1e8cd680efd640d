import Verif.CL.Presentation
import Verif.Props.CLHelpers
import Verif.Props.CLPresentation
/-!
# C194, C195: nobody crashes a verifier or a holder of CL credentials
-/
set_option linter.unusedSectionVars false
set_option linter.unusedSimpArgs false
set_option linter.unusedVariables false
namespace Verif.CL.Panic

open Verif BN

section
variable {ε α β : Type}

theorem np_ok (a : α) : (Res.ok a : Res ε α) ≠ .panic := by intro h; cases h
theorem np_err (e : ε) : (Res.err e : Res ε α) ≠ .panic := by intro h; cases h
theorem np_pure (a : α) : (pure a : Res ε α) ≠ .panic := np_ok a

theorem np_bind {x : Res ε α} {f : α → Res ε β} (hx : x ≠ .panic) (hf : ∀ a, x = .ok a → f a ≠ .panic) :
    (x >>= f) ≠ .panic := by
  cases x with
  | ok a => exact hf a rfl
  | err e => exact np_err e
  | panic => exact absurd rfl hx

theorem np_ofOption (e : ε) (o : Option α) : Res.ofOption e o ≠ .panic := by
  cases o
  · exact np_err e
  · exact np_ok _

theorem np_unwrap {o : Option α} (h : o ≠ none) : (Res.unwrap o : Res ε α) ≠ .panic := by
  cases o
  · exact absurd rfl h
  · exact np_ok _

theorem np_mapM (f : α → Res ε β) : ∀ l : List α, (∀ a ∈ l, f a ≠ .panic) → l.mapM f ≠ .panic
  | [], _ => np_ok _
  | a :: l, h => by
    rw [List.mapM_cons]
    refine np_bind (h a (by simp)) fun b _ => np_bind (np_mapM f l fun x hx => h x (by simp [hx])) fun _ _ => np_pure _

theorem mapM_mem {f : α → Res ε β} : ∀ {l : List α} {bs : List β}, l.mapM f = .ok bs → ∀ a ∈ l, ∃ b ∈ bs, f a = .ok b
  | [], _, _, _, h => absurd h (by simp)
  | a :: l, bs, h, x, hx => by
    rw [List.mapM_cons] at h
    obtain ⟨b, hb, h⟩ := Res.bind_eq_ok.1 h
    obtain ⟨bs', hbs, h⟩ := Res.bind_eq_ok.1 h
    cases h
    rcases List.mem_cons.1 hx with rfl | hx
    · exact ⟨b, by simp, hb⟩
    · obtain ⟨y, hy, h'⟩ := mapM_mem hbs x hx
      exact ⟨y, by simp [hy], h'⟩

theorem mapM_mem_right {f : α → Res ε β} : ∀ {l : List α} {bs : List β}, l.mapM f = .ok bs → ∀ b ∈ bs, ∃ a ∈ l, f a = .ok b
  | [], _, h, b, hb => by
    rw [List.mapM_nil] at h
    cases h; cases hb
  | a :: l, bs, h, x, hx => by
    rw [List.mapM_cons] at h
    obtain ⟨b, hb, h⟩ := Res.bind_eq_ok.1 h
    obtain ⟨bs', hbs, h⟩ := Res.bind_eq_ok.1 h
    cases h
    rcases List.mem_cons.1 hx with rfl | hx
    · exact ⟨a, by simp, hb⟩
    · obtain ⟨y, hy, h'⟩ := mapM_mem_right hbs x hx
      exact ⟨y, by simp [hy], h'⟩

theorem np_foldlM (f : β → α → Res ε β) : ∀ (l : List α) (b : β), (∀ b, ∀ a ∈ l, f b a ≠ .panic) → l.foldlM f b ≠ .panic
  | [], b, _ => np_ok _
  | a :: l, b, h => by
    rw [List.foldlM_cons]
    exact np_bind (h b a (by simp)) fun c _ => np_foldlM f l c fun b x hx => h b x (by simp [hx])

theorem np_foldl (f : Res ε β → α → Res ε β) : ∀ (l : List α) (b : Res ε β), b ≠ .panic →
    (∀ b, b ≠ .panic → ∀ a ∈ l, f b a ≠ .panic) → l.foldl f b ≠ .panic
  | [], b, hb, _ => hb
  | a :: l, b, hb, h => by
    rw [List.foldl_cons]
    exact np_foldl f l _ (h b hb a (by simp)) fun b hb x hx => h b hb x (by simp [hx])

end

theorem np_modulus (a n : Int) : modulus a n ≠ .panic := by
  unfold modulus
  split
  · exact np_err _
  · exact np_ok _

theorem np_modMul (a b n : Int) : modMul a b n ≠ .panic := np_modulus _ _

theorem np_inverse (a n : Int) : inverse a n ≠ .panic := by
  unfold inverse
  split
  · exact np_err _
  · show (if _ then _ else _) ≠ _
    split
    · exact np_err _
    · exact np_ok _

theorem np_modDiv (a b n : Int) : modDiv a b n ≠ .panic := by
  unfold modDiv
  exact np_bind (np_inverse _ _) fun _ _ => np_modulus _ _

/-- `mod_exp` panics exactly for the modulus zero with an exponent that is not negative -/
theorem modExp_panics_iff (a e n : Int) : modExp a e n = .panic ↔ n = 0 ∧ 0 ≤ e := by
  unfold modExp
  by_cases h1 : n = 1
  · rw [if_pos h1]; simp [h1]
  · rw [if_neg h1]
    by_cases he : e < 0
    · rw [if_pos he]
      constructor
      · intro h
        cases hi : inverse a n with
        | panic => exact absurd hi (np_inverse _ _)
        | err m => rw [hi] at h; cases h
        | ok x =>
          rw [hi, Res.ok_bind] at h
          exfalso
          unfold modpow at h
          have hn : n ≠ 0 := by
            intro h0; subst h0
            rw [inverse_bad_modulus _ _ (Or.inl rfl)] at hi; cases hi
          rw [if_neg] at h
          · cases h
          · have hs := (set_negative_spec e false)
            rw [getModulus_eq, not_or, abs_eq_zero]
            refine ⟨?_, hn⟩
            have : BN.setNegative e false = -e := by unfold BN.setNegative; simp [he]
            omega
      · intro h; omega
    · rw [if_neg he]
      unfold modpow
      rw [getModulus_eq]
      by_cases hn : n = 0
      · simp [hn, he]; omega
      · rw [if_neg (by simp [hn, he])]
        simp [hn]

theorem np_modExp {n : Int} (hn : n ≠ 0) (a e : Int) : modExp a e n ≠ .panic := by
  intro h
  exact hn ((modExp_panics_iff a e n).1 h).1

theorem np_pedersen {n : Int} (hn : n ≠ 0) (a b c d : Int) : pedersen a b c d n ≠ .panic := by
  unfold pedersen
  exact np_bind (np_modExp hn _ _) fun _ _ => np_bind (np_modExp hn _ _) fun _ _ => np_modMul _ _ _

/-- the bound `value + 1` (for `>`) or `value - 1` (for `<`) still fits `i32` -/
def BoundFits (p : Predicate) : Prop :=
  match p.pType with
  | .GE | .LE => True
  | .GT => InI32 (p.value + 1)
  | .LT => InI32 (p.value - 1)

/-- for a bound of type `i32` only `> i32::MAX` and `< i32::MIN` do not fit -/
theorem boundFits_iff (p : Predicate) (hv : InI32 p.value) :
    BoundFits p ↔ ¬ (p.pType = .GT ∧ p.value = 2147483647) ∧ ¬ (p.pType = .LT ∧ p.value = -2147483648) := by
  obtain ⟨n, t, v⟩ := p
  unfold InI32 at hv
  simp only at hv
  cases t <;> simp [BoundFits, InI32] <;> omega

theorem np_i32 {x : Int} {mode : Overflow} (h : mode = .wrapping ∨ InI32 x) : i32 mode x ≠ .panic := by
  unfold i32
  by_cases hx : InI32 x
  · rw [if_pos hx]; exact np_ok _
  · rw [if_neg hx]
    rcases h with rfl | h
    · exact np_ok _
    · exact absurd h hx

theorem i32_panics_iff (x : Int) (mode : Overflow) : i32 mode x = .panic ↔ mode = .checked ∧ ¬ InI32 x := by
  unfold i32
  by_cases hx : InI32 x
  · rw [if_pos hx]; simp [hx]
  · rw [if_neg hx]; cases mode <;> simp [hx]

theorem getDeltaPrime_panics_iff (p : Predicate) (mode : Overflow) :
    p.getDeltaPrime mode = .panic ↔ mode = .checked ∧ ¬ BoundFits p := by
  obtain ⟨n, t, v⟩ := p
  cases t <;> simp [BoundFits, Predicate.getDeltaPrime, i32_panics_iff]

theorem np_calcTeq {pk : PrimaryPubKey} (hn : pk.n ≠ 0) (a e v : Int) (m : Map Int) (m2 : Int) (l : List String) :
    calcTeq pk a e v m m2 l ≠ .panic := by
  unfold calcTeq
  refine np_bind (np_modExp hn _ _) fun _ _ => np_bind (np_foldlM _ _ _ fun b k _ => ?_) fun _ _ =>
    np_bind (np_modExp hn _ _) fun _ _ => np_bind (np_modMul _ _ _) fun _ _ => np_bind (np_modExp hn _ _) fun _ _ => np_modMul _ _ _
  exact np_bind (np_ofOption _ _) fun _ _ => np_bind (np_ofOption _ _) fun _ _ => np_bind (np_modExp hn _ _) fun _ _ => np_modMul _ _ _

theorem np_calcTne {pk : PrimaryPubKey} (hn : pk.n ≠ 0) (u r : Map Int) (mj al : Int) (t : Map Int) (b : Bool) :
    calcTne pk u r mj al t b ≠ .panic := by
  unfold calcTne
  refine np_bind (np_mapM _ _ fun k _ => ?_) fun _ _ => np_bind (np_ofOption _ _) fun _ _ =>
    np_bind (np_pedersen hn _ _ _ _) fun _ _ => np_bind (np_foldlM _ _ _ fun b k _ => ?_) fun _ _ =>
    np_bind (np_modExp hn _ _) fun _ _ => np_bind (np_modMul _ _ _) fun _ _ => np_pure _
  · exact np_bind (np_ofOption _ _) fun _ _ => np_bind (np_ofOption _ _) fun _ _ => np_pedersen hn _ _ _ _
  · exact np_bind (np_ofOption _ _) fun _ _ => np_bind (np_ofOption _ _) fun _ _ => np_bind (np_modExp hn _ _) fun _ _ => np_pure _

theorem calcTne_length {pk : PrimaryPubKey} {u r : Map Int} {mj al : Int} {t : Map Int} {b : Bool} {l : List Int}
    (h : calcTne pk u r mj al t b = .ok l) : l.length = 6 := by
  unfold calcTne at h
  obtain ⟨ts, hts, h⟩ := Res.bind_eq_ok.1 h
  obtain ⟨_, _, h⟩ := Res.bind_eq_ok.1 h
  obtain ⟨_, _, h⟩ := Res.bind_eq_ok.1 h
  obtain ⟨_, _, h⟩ := Res.bind_eq_ok.1 h
  obtain ⟨_, _, h⟩ := Res.bind_eq_ok.1 h
  obtain ⟨_, _, h⟩ := Res.bind_eq_ok.1 h
  cases h
  have : ts.length = 4 := by
    have := (mapM_ok_inv _ _ _ hts).length_eq
    simpa [iterKeys] using this.symm
  simp [this]

theorem np_verifyEquality {pk : PrimaryPubKey} (hn : pk.n ≠ 0) (ordV : SetOrder) (p : EqProof) (c : Int) (schema nonSchema : Finset String)
    (req : SubProofRequest) : verifyEquality ordV pk p c schema nonSchema req ≠ .panic := by
  unfold verifyEquality
  refine np_bind (np_calcTeq hn _ _ _ _ _ _) fun _ _ => np_bind (np_modExp hn _ _) fun _ _ =>
    np_bind (np_foldlM _ _ _ fun b k _ => ?_) fun _ _ => np_bind (np_modDiv _ _ _) fun _ _ => np_bind (np_inverse _ _) fun _ _ =>
    np_bind (np_modExp hn _ _) fun _ _ => np_modMul _ _ _
  exact np_bind (np_ofOption _ _) fun _ _ => np_bind (np_modExp hn _ _) fun _ _ => np_modMul _ _ _

theorem np_tauFix {n : Int} (hn : n ≠ 0) (c t tau : Int) : tauFix n c t tau ≠ .panic := by
  unfold tauFix
  exact np_bind (np_modExp hn _ _) fun _ _ => np_bind (np_inverse _ _) fun _ _ => np_modMul _ _ _

theorem np_verifyNe {pk : PrimaryPubKey} (hn : pk.n ≠ 0) (mode : Overflow) (p : NeProof) (c : Int)
    (hp : mode = .wrapping ∨ BoundFits p.predicate) : verifyNePredicate mode pk p c ≠ .panic := by
  unfold verifyNePredicate
  refine np_bind (np_calcTne hn _ _ _ _ _ _) fun tau htau => ?_
  have hl := calcTne_length htau
  refine np_bind (np_mapM _ _ fun k _ => np_bind (np_ofOption _ _) fun _ _ => np_tauFix hn _ _ _) fun _ _ =>
    np_bind (np_ofOption _ _) fun _ _ => np_bind ?_ fun _ _ => np_bind ?_ fun _ _ => np_bind (np_modExp hn _ _) fun _ _ =>
    np_bind (np_unwrap ?_) fun _ _ => np_bind (np_tauFix hn _ _ _) fun _ _ => np_bind (np_unwrap ?_) fun _ _ =>
    np_bind (np_tauFix hn _ _ _) fun _ _ => np_pure _
  · unfold signedDeltaCommitment
    split
    · exact np_inverse _ _
    · exact np_pure _
  · intro h
    have := (getDeltaPrime_panics_iff _ _).1 h
    rcases hp with rfl | hp
    · exact absurd this.1 (by decide)
    · exact this.2 hp
  · rw [Ne, List.getElem?_eq_none_iff]; omega
  · rw [Ne, List.getElem?_eq_none_iff]; omega

theorem np_checkCommon (m : Map Int) : ∀ cm, (checkCommon m cm).2 ≠ .panic
  | [] => np_ok _
  | (k, stored) :: rest => by
    unfold checkCommon
    cases m.lookup k with
    | none => exact np_err _
    | some x =>
      cases stored with
      | none => exact np_checkCommon m rest
      | some v =>
        simp only
        split
        · exact np_err _
        · exact np_checkCommon m rest

section
variable {F G1 G2 GT : Type} [Field F] [AddCommGroup G1] [Module F G1] [AddCommGroup G2] [Module F G2]
  [AddCommGroup GT] [Module F GT]

theorem np_checkShape (p : PrimaryProof) (req : SubProofRequest) : checkShape p req ≠ .panic := by
  unfold checkShape
  split
  · exact np_err _
  · split
    · exact np_err _
    · exact np_ok _

theorem np_verifyLoop (e : G1 →ₗ[F] G2 →ₗ[F] GT) (cv : Conv F G1 G2 GT) (mode : Overflow) (ordV : SetOrder) (c : Int) :
    ∀ (l : List (SubProof F G1 G2 × VCred G1 G2 GT)) (common : Map (Option Int)),
    (∀ x ∈ l, x.2.pk.pKey.n ≠ 0 ∧ (mode = .wrapping ∨ ∀ p ∈ x.1.primary.ne, BoundFits p.predicate)) →
    (verifyLoop e cv mode ordV c l common).2 ≠ .panic
  | [], common, _ => np_ok _
  | (p, cred) :: rest, common, h => by
    unfold verifyLoop
    obtain ⟨hn, hp⟩ := h _ (List.mem_cons_self)
    have hc := np_checkCommon p.primary.eq.m common
    simp only
    rcases hcc : checkCommon p.primary.eq.m common with ⟨common', r⟩
    rw [hcc] at hc
    cases r with
    | panic => exact absurd rfl hc
    | err m => exact np_err _
    | ok u =>
      simp only
      have hv : verifyPrimaryProof mode ordV cred.pk.pKey c p.primary cred.schema cred.nonSchema cred.req ≠ .panic := by
        unfold verifyPrimaryProof
        refine np_bind (np_verifyEquality hn _ _ _ _ _ _) fun _ _ => np_bind (np_mapM _ _ fun x hx => ?_) fun _ _ => np_pure _
        exact np_verifyNe hn _ _ _ (hp.imp id fun h => h x hx)
      cases hvv : verifyPrimaryProof mode ordV cred.pk.pKey c p.primary cred.schema cred.nonSchema cred.req with
      | panic => exact absurd hvv hv
      | err m => exact np_err _
      | ok pt =>
        simp only
        have ih := np_verifyLoop e cv mode ordV c rest common' fun x hx => h x (List.mem_cons_of_mem _ hx)
        rcases hll : verifyLoop e cv mode ordV c rest common' with ⟨cm, r⟩
        rw [hll] at ih
        cases r with
        | panic => exact absurd rfl ih
        | err m => exact np_err _
        | ok t => exact np_ok _

/-- **C194** Whatever proof a holder sends, `verify` returns: it panics for no proof and no nonce if the moduli of the
issuers' keys are not zero and - in builds with overflow checks - the verifier itself did not ask for `> i32::MAX` or
`< i32::MIN`. -/
theorem verify_never_panics (e : G1 →ₗ[F] G2 →ₗ[F] GT) (cv : Conv F G1 G2 GT) (mode : Overflow) (sha : Bytes → Bytes)
    (ordV : SetOrder) (v : PVerifier G1 G2 GT) (hn : ∀ cred ∈ v.creds, cred.pk.pKey.n ≠ 0)
    (hp : mode = .wrapping ∨ ∀ cred ∈ v.creds, ∀ p ∈ cred.req.predicates, BoundFits p)
    (proof : Proof F G1 G2) (nonce : Int) : (v.verify e cv mode sha ordV proof nonce).2 ≠ .panic := by
  unfold PVerifier.verify
  cases hc : checkVerifyParams v.creds proof with
  | panic =>
    exfalso
    unfold checkVerifyParams at hc
    split at hc
    · cases hc
    · exact np_bind (np_mapM _ _ fun x _ => np_checkShape _ _) (fun _ _ => np_pure _) hc
  | err m => exact np_err _
  | ok u =>
    simp only
    have hsh : ∀ x ∈ proof.proofs.zip v.creds, checkShape x.1.primary x.2.req = .ok () := by
      unfold checkVerifyParams at hc
      split at hc
      · cases hc
      · obtain ⟨us, hus, -⟩ := Res.bind_eq_ok.1 hc
        intro x hx
        obtain ⟨u, -, hu⟩ := mapM_mem hus x hx
        simpa using hu
    have hl := np_verifyLoop e cv mode ordV proof.cHash (proof.proofs.zip v.creds) v.common (by
      intro x hx
      have hm : x.2 ∈ v.creds := (List.of_mem_zip hx).2
      refine ⟨hn _ hm, hp.imp id fun h p hpm => h _ hm _ ?_⟩
      have := hsh x hx
      unfold checkShape at this
      split at this
      · cases this
      · split at this
        · cases this
        · rename_i _ h2
          simp only [ne_eq, not_not] at h2
          have h3 : p.predicate ∈ (x.1.primary.ne.map (·.predicate)).toFinset := by
            rw [List.mem_toFinset]; exact List.mem_map_of_mem hpm
          rw [h2, List.mem_toFinset] at h3
          exact h3)
    rcases hll : verifyLoop e cv mode ordV proof.cHash (proof.proofs.zip v.creds) v.common with ⟨cm, r⟩
    rw [hll] at hl
    cases r with
    | panic => exact absurd rfl hl
    | err m => exact np_err _
    | ok t => exact np_ok _


/-! ### C195: the holder -/

theorem np_checkKeyNames (pk : PrimaryPubKey) (pr : KeyProof) : checkKeyNames pk pr ≠ .panic := by
  unfold checkKeyNames
  split
  · exact np_err _
  · split
    · exact np_err _
    · exact np_ok _

theorem np_checkKeyProof (sha : Bytes → Bytes) (pk : PrimaryPubKey) (pr : KeyProof) : checkKeyProof sha pk pr ≠ .panic := by
  unfold checkKeyProof
  refine np_bind (np_checkKeyNames pk pr) fun u hu => np_bind ?_ fun r _ => ?_
  · unfold keyProofCaps
    refine np_bind (np_inverse _ _) fun zi hz => ?_
    have hn : pk.n ≠ 0 := by
      intro h0
      rw [h0, inverse_bad_modulus _ _ (Or.inl rfl)] at hz
      cases hz
    refine np_bind (np_pedersen hn _ _ _ _) fun _ _ => np_bind (np_mapM _ _ fun x hx => ?_) fun _ _ => np_pure _
    refine np_bind (np_unwrap ?_) fun _ _ => np_bind (np_inverse _ _) fun _ _ => np_bind (np_pedersen hn _ _ _ _) fun _ _ => np_pure _
    unfold checkKeyNames at hu
    split at hu
    · cases hu
    · split at hu
      · cases hu
      · rename_i _ h2
        intro hnone
        apply h2
        rw [List.any_eq_true]
        refine ⟨x, hx, ?_⟩
        simp only [Bool.not_eq_true', Bool.eq_false_iff, ne_eq]
        intro hk
        obtain ⟨y, hy⟩ := hasKey_iff.1 hk
        rw [hy] at hnone; cases hnone
  · obtain ⟨z, rs⟩ := r
    show (if _ then _ else _) ≠ _
    split
    · exact np_pure _
    · exact np_err _

/-- a key that passes the check has a modulus other than zero -/
theorem checked_key_modulus {sha : Bytes → Bytes} {pk : PrimaryPubKey} {pr : KeyProof} (h : checkKeyProof sha pk pr = .ok ()) :
    pk.n ≠ 0 := by
  unfold checkKeyProof at h
  obtain ⟨_, _, h⟩ := Res.bind_eq_ok.1 h
  obtain ⟨_, hk, h⟩ := Res.bind_eq_ok.1 h
  unfold keyProofCaps at hk
  obtain ⟨zi, hz, _⟩ := Res.bind_eq_ok.1 hk
  intro h0
  rw [h0, inverse_bad_modulus _ _ (Or.inl rfl)] at hz
  cases hz

theorem lookup_ne_none {V : Type} (m : Map V) (k : String) (h : k ∈ m.map (·.1)) : m.lookup k ≠ none := by
  intro hn
  rw [List.lookup_eq_none_iff] at hn
  obtain ⟨e, he, rfl⟩ := List.mem_map.1 h
  have := hn e he
  simp at this

theorem np_blindedFactors {pk : PrimaryPubKey} (hn : pk.n ≠ 0) (vals : Map CredentialValue) (v : Int) :
    blindedFactors pk vals v ≠ .panic := by
  unfold blindedFactors
  refine np_bind (np_foldl _ _ _ (np_modExp hn _ _) fun b hb k hk => ?_) fun _ _ => np_bind (np_mapM _ _ fun x hx => ?_) fun _ _ => np_pure _
  · refine np_bind (np_ofOption _ _) fun _ _ => np_bind (np_unwrap (lookup_ne_none _ _ ?_)) fun _ _ => np_bind hb fun _ _ =>
      np_bind (np_modExp hn _ _) fun _ _ => np_modMul _ _ _
    unfold hiddenNames at hk
    obtain ⟨e, he, rfl⟩ := List.mem_map.1 hk
    exact List.mem_map_of_mem (List.mem_filter.1 he).1
  · have hx2 := (List.mem_filter.1 hx).2
    obtain ⟨k, cv⟩ := x
    cases cv with
    | known _ => simp [CredentialValue.isCommitment] at hx2
    | hidden _ => simp [CredentialValue.isCommitment] at hx2
    | commitment a b => exact np_bind (np_pedersen hn _ _ _ _) fun _ _ => np_pure _

theorem np_newBlindedProof {pk : PrimaryPubKey} (hn : pk.n ≠ 0) (sha : Bytes → Bytes) (b : BlindedFactors) (nonce : Int)
    (vals : Map CredentialValue) (vT : Int) (mT rT : String → Int) : newBlindedProof sha pk b nonce vals vT mT rT ≠ .panic := by
  unfold newBlindedProof
  refine np_bind (np_modExp hn _ _) fun _ _ => np_bind (np_foldlM _ _ _ fun st e _ => ?_) fun r _ => ?_
  · unfold blindedProofStep
    refine np_bind (np_ofOption _ _) fun _ _ => ?_
    obtain ⟨k, cv⟩ := e
    cases cv with
    | known _ => exact np_pure _
    | hidden _ => exact np_bind (np_modExp hn _ _) fun _ _ => np_bind (np_modMul _ _ _) fun _ _ => np_pure _
    | commitment a b => exact np_bind (np_pedersen hn _ _ _ _) fun _ _ => np_bind (np_ofOption _ _) fun _ _ => np_pure _
  · obtain ⟨a, c⟩ := r
    exact np_pure _

/-- **C195** Whatever key, key correctness proof and nonce an issuer sends, `blind_credential_secrets` returns. -/
theorem blind_never_panics (sha : Bytes → Bytes) (pk : CredPubKey G1 G2) (kp : KeyProof) (vals : Map CredentialValue)
    (nonce vPrime vT : Int) (mT rT : String → Int) (vrPrime : F) :
    blindCredentialSecrets sha pk kp vals nonce vPrime vT mT rT vrPrime ≠ .panic := by
  unfold blindCredentialSecrets
  refine np_bind (np_checkKeyProof _ _ _) fun u hu => ?_
  have hn := checked_key_modulus hu
  exact np_bind (np_blindedFactors hn _ _) fun _ _ => np_bind (np_newBlindedProof hn _ _ _ _ _ _ _) fun _ _ => np_pure _

theorem np_recomputeQ {pk : PrimaryPubKey} (hn : pk.n ≠ 0) (sig : PrimarySig) (vals : Map CredentialValue) :
    recomputeQ pk sig vals ≠ .panic := by
  unfold recomputeQ
  split
  · exact np_err _
  · refine np_bind (np_foldl _ _ _ (np_pedersen hn _ _ _ _) fun b hb e he => ?_) fun _ _ => np_modDiv _ _ _
    refine np_bind hb fun _ _ => np_bind (np_unwrap ?_) fun _ _ => np_bind (np_modExp hn _ _) fun _ _ => np_modMul _ _ _
    have := (List.mem_filter.1 he).2
    simp only [Bool.and_eq_true] at this
    obtain ⟨y, hy⟩ := hasKey_iff.1 this.2
    rw [hy]; simp

theorem np_checkSigProof {pk : PrimaryPubKey} (hn : pk.n ≠ 0) (sha : Bytes → Bytes) (isPrime : Int → Bool) (sig : PrimarySig)
    (vals : Map CredentialValue) (sp : SigProof) (nonce : Int) : checkSigProof sha isPrime sig vals sp pk nonce ≠ .panic := by
  unfold checkSigProof
  split
  · exact np_err _
  · refine np_bind (np_recomputeQ hn _ _) fun _ _ => np_bind (np_modExp hn _ _) fun _ _ => ?_
    split
    · exact np_err _
    · refine np_bind (np_modExp hn _ _) fun _ _ => ?_
      show (if _ then _ else _) ≠ _
      split
      · exact np_pure _
      · exact np_err _

/-- **C195** A holder who has blinded his secrets for a key does not crash on anything the issuer answers. -/
theorem process_never_panics [DecidableEq GT] (e : G1 →ₗ[F] G2 →ₗ[F] GT) (sha : Bytes → Bytes) (isPrime : Int → Bool)
    (pk : CredPubKey G1 G2) (kp : KeyProof) (vals : Map CredentialValue) (nonce vPrime vT : Int) (mT rT : String → Int) (vrPrime : F)
    (out : Blinded G1 × BlindingFactors F × BlindedProof)
    (hb : blindCredentialSecrets sha pk kp vals nonce vPrime vT mT rT vrPrime = .ok out)
    (sig : CredSig F G1 G2) (vals' : Map CredentialValue) (sp : SigProof) (bf : BlindingFactors F) (nonce' : Int)
    (revKeyPub : Option GT) (reg witness : Option G2) :
    (processCredentialSignature e sha isPrime sig vals' sp bf pk nonce' revKeyPub reg witness).2 ≠ .panic := by
  have hn : pk.pKey.n ≠ 0 := by
    unfold blindCredentialSecrets at hb
    obtain ⟨u, hu, _⟩ := Res.bind_eq_ok.1 hb
    exact checked_key_modulus hu
  unfold processCredentialSignature
  simp only
  have hc := np_checkSigProof hn sha isPrime { sig.p with v := bf.vPrime + sig.p.v } vals' sp nonce'
  cases hcs : checkSigProof sha isPrime { sig.p with v := bf.vPrime + sig.p.v } vals' sp pk.pKey nonce' with
  | panic => exact absurd hcs hc
  | err m => exact np_err _
  | ok u =>
    simp only
    split
    · unfold Rev.processNonRevocationCredential
      simp only
      unfold Rev.testWitnessSignature
      repeat' split
      all_goals first | exact np_err _ | exact np_ok _
    · exact np_ok _

/-- the exact value of the difference an inequality proof is about, and of the intermediate result, fit `i32` -/
def DeltaFits (p : Predicate) (attr : Int) : Prop :=
  match p.pType with
  | .GE => InI32 (attr - p.value)
  | .GT => InI32 (attr - p.value) ∧ InI32 (attr - p.value - 1)
  | .LE => InI32 (p.value - attr)
  | .LT => InI32 (p.value - attr) ∧ InI32 (p.value - attr - 1)

theorem getDelta_panics_iff (p : Predicate) (mode : Overflow) (attr : Int) :
    p.getDelta mode attr = .panic ↔ mode = .checked ∧ ¬ DeltaFits p attr := by
  obtain ⟨n, t, v⟩ := p
  have key : ∀ x : Int, (i32 mode x >>= fun d => i32 mode (d - 1)) = .panic ↔ mode = .checked ∧ ¬ (InI32 x ∧ InI32 (x - 1)) := by
    intro x
    by_cases hx : InI32 x
    · have h1 : i32 mode x = .ok x := by unfold i32; rw [if_pos hx]
      rw [h1, Res.ok_bind, i32_panics_iff]; simp [hx]
    · cases mode with
      | checked =>
        have h1 : i32 .checked x = .panic := (i32_panics_iff _ _).2 ⟨rfl, hx⟩
        rw [h1]; simp [hx]
      | wrapping =>
        simp only [reduceCtorEq, false_and, iff_false]
        exact np_bind (np_i32 (.inl rfl)) fun _ _ => np_i32 (.inl rfl)
  cases t
  · exact i32_panics_iff _ _
  · exact i32_panics_iff _ _
  · exact key _
  · exact key _

theorem np_fourSquares (d : Int) : fourSquares d ≠ .panic := by
  rcases lt_or_ge d 0 with h | h
  · rw [(four_squares_spec d).1 h]; exact np_err _
  · obtain ⟨a, b, c, e, hf, -⟩ := (four_squares_spec d).2 h
    rw [hf]; exact np_ok _

theorem np_initNe {pk : PrimaryPubKey} (hn : pk.n ≠ 0) (mode : Overflow) (mT : Map Int) (vals : Map CredentialValue) (p : Predicate)
    (rnd : NeRand) (hp : mode = .wrapping ∨ ∀ cv, vals.lookup p.attrName = some cv → InI32 cv.value → DeltaFits p cv.value) :
    initNeProof mode pk mT vals p rnd ≠ .panic := by
  unfold initNeProof
  refine np_bind (np_ofOption _ _) fun cv hcv => ?_
  split
  · exact np_err _
  · rename_i hi
    rw [not_not] at hi
    refine np_bind ?_ fun d _ => ?_
    · intro h
      have := (getDelta_panics_iff _ _ _).1 h
      rcases hp with rfl | hp
      · exact absurd this.1 (by decide)
      · refine this.2 (hp cv ?_ hi)
        cases hl : vals.lookup p.attrName with
        | none => rw [hl] at hcv; cases hcv
        | some y => rw [hl] at hcv; cases hcv; rfl
    · split
      · exact np_err _
      · refine np_bind (np_fourSquares _) fun _ _ => np_bind (np_mapM _ _ fun k _ => ?_) fun _ _ =>
          np_bind (np_pedersen hn _ _ _ _) fun _ _ => ?_
        · exact np_bind (np_ofOption _ _) fun _ _ => np_bind (np_pedersen hn _ _ _ _) fun _ _ => np_pure _
        · exact np_bind (np_ofOption _ _) fun _ _ => np_bind (np_calcTne hn _ _ _ _ _ _) fun _ _ => np_pure _

/-- **C195** Whatever a verifier asks for, `add_sub_proof_request` of the holder returns - in builds with overflow checks if
the differences between the holder's attributes and the verifier's bounds fit `i32`. -/
theorem add_never_panics (e : G1 →ₗ[F] G2 →ₗ[F] GT) (cv : Conv F G1 G2 GT) (mode : Overflow) (ord : SetOrder)
    (b : Builder F G1 G2 GT) (req : SubProofRequest) (schema nonSchema : Finset String) (sig : CredSig F G1 G2)
    (vals : Map CredentialValue) (pk : CredPubKey G1 G2) (reg witness : Option G2) (x : NonRevRand F) (rnd : EqRand)
    (nrnd : Predicate → NeRand) (hn : pk.pKey.n ≠ 0)
    (hp : mode = .wrapping ∨ ∀ p ∈ req.predicates, ∀ cv, vals.lookup p.attrName = some cv → InI32 cv.value → DeltaFits p cv.value) :
    b.addSubProofRequest e cv mode ord req schema nonSchema sig vals pk reg witness x rnd nrnd ≠ .panic := by
  unfold Builder.addSubProofRequest
  refine np_bind ?_ fun _ _ => ?_
  · unfold checkBuilderParams
    simp only
    repeat' split
    all_goals first | exact np_err _ | exact np_ok _
  · refine np_bind ?_ fun _ _ => np_pure _
    unfold initPrimaryProof
    refine np_bind ?_ fun _ _ => np_bind (np_mapM _ _ fun p hpm => np_initNe hn _ _ _ _ _ (hp.imp id fun h => h p hpm)) fun _ _ => np_pure _
    unfold initEqProof
    exact np_bind (np_modExp hn _ _) fun _ _ => np_bind (np_modMul _ _ _) fun _ _ => np_bind (np_calcTeq hn _ _ _ _ _ _) fun _ _ => np_pure _

/-- the proof builders that can be made: a new one, with common attributes and sub proofs added in any order and with any
arguments -/
inductive Made (e : G1 →ₗ[F] G2 →ₗ[F] GT) (cv : Conv F G1 G2 GT) (mode : Overflow) (ord : SetOrder) : Builder F G1 G2 GT → Prop
  | new : Made e cv mode ord Builder.new
  | common {b} (name : String) (rnd : Int) : Made e cv mode ord b → Made e cv mode ord (b.addCommonAttribute name rnd)
  | added {b b'} (req : SubProofRequest) (schema nonSchema : Finset String) (sig : CredSig F G1 G2) (vals : Map CredentialValue)
      (pk : CredPubKey G1 G2) (reg witness : Option G2) (x : NonRevRand F) (rnd : EqRand) (nrnd : Predicate → NeRand) :
      Made e cv mode ord b → b.addSubProofRequest e cv mode ord req schema nonSchema sig vals pk reg witness x rnd nrnd = .ok b' →
      Made e cv mode ord b'

/-- what `finalize` looks up is there -/
def NeReady (i : NeInit) : Prop :=
  i.r.lookup "DELTA" ≠ none ∧ i.rT.lookup "DELTA" ≠ none ∧
    ∀ k ∈ iterKeys, i.uT.lookup k ≠ none ∧ i.u.lookup k ≠ none ∧ i.rT.lookup k ≠ none ∧ i.r.lookup k ≠ none

def Ready (i : InitProof F G1 G2 GT) : Prop :=
  ∀ x ∈ i.primary.ne, NeReady x ∧ x.predicate.attrName ∈ unrevealedAttrs i.schema i.nonSchema i.req

theorem initNe_ready {mode : Overflow} {pk : PrimaryPubKey} {mT : Map Int} {vals : Map CredentialValue} {p : Predicate}
    {rnd : NeRand} {i : NeInit} (h : initNeProof mode pk mT vals p rnd = .ok i) : NeReady i ∧ i.predicate = p := by
  unfold initNeProof at h
  obtain ⟨cv, _, h⟩ := Res.bind_eq_ok.1 h
  split at h
  · cases h
  · obtain ⟨d, _, h⟩ := Res.bind_eq_ok.1 h
    split at h
    · cases h
    · obtain ⟨q, _, h⟩ := Res.bind_eq_ok.1 h
      obtain ⟨ts, _, h⟩ := Res.bind_eq_ok.1 h
      obtain ⟨_, _, h⟩ := Res.bind_eq_ok.1 h
      obtain ⟨_, _, h⟩ := Res.bind_eq_ok.1 h
      obtain ⟨_, _, h⟩ := Res.bind_eq_ok.1 h
      cases h
      refine ⟨⟨?_, ?_, ?_⟩, rfl⟩
      · exact lookup_ne_none _ _ (by simp)
      · exact lookup_ne_none _ _ (by simp)
      · intro k hk
        refine ⟨lookup_ne_none _ _ ?_, lookup_ne_none _ _ ?_, lookup_ne_none _ _ ?_, lookup_ne_none _ _ ?_⟩
        all_goals simp only [iterKeys, List.mem_cons, List.not_mem_nil, or_false] at hk
        all_goals rcases hk with h | h | h | h <;> subst h <;> simp [iterKeys, squaresMap]

theorem made_ready {e : G1 →ₗ[F] G2 →ₗ[F] GT} {cv : Conv F G1 G2 GT} {mode : Overflow} {ord : SetOrder} {b : Builder F G1 G2 GT}
    (h : Made e cv mode ord b) : ∀ i ∈ b.inits, Ready i := by
  induction h with
  | new => intro i hi; cases hi
  | common name rnd _ ih => exact ih
  | added req schema nonSchema sig vals pk reg witness x rnd nrnd _ hadd ih =>
    unfold Builder.addSubProofRequest at hadd
    obtain ⟨u, hu, hadd⟩ := Res.bind_eq_ok.1 hadd
    obtain ⟨pi, hpi, hadd⟩ := Res.bind_eq_ok.1 hadd
    cases hadd
    intro i hi
    rcases List.mem_append.1 hi with hi | hi
    · exact ih i hi
    · rw [List.mem_singleton] at hi
      subst hi
      intro x' hx'
      unfold initPrimaryProof at hpi
      obtain ⟨eq, _, hpi⟩ := Res.bind_eq_ok.1 hpi
      obtain ⟨ne, hne, hpi⟩ := Res.bind_eq_ok.1 hpi
      cases hpi
      obtain ⟨p, hp, hpx⟩ := mapM_mem_right hne x' hx'
      obtain ⟨h1, h2⟩ := initNe_ready hpx
      refine ⟨h1, ?_⟩
      rw [h2]
      unfold checkBuilderParams at hu
      simp only at hu
      split at hu
      · cases hu
      · split at hu
        · cases hu
        · split at hu
          · cases hu
          · split at hu
            · cases hu
            · rename_i a1 a2 a3 a4
              simp only [ne_eq, not_not] at a1 a3 a4
              have hm : p.attrName ∈ (req.predicates.map (·.attrName)).toFinset := by
                rw [List.mem_toFinset]; exact List.mem_map_of_mem hp
              unfold unrevealedAttrs
              rw [Finset.mem_sdiff, a1]
              constructor
              · exact (Finset.sdiff_eq_empty_iff_subset.1 a3) hm
              · intro hr
                have : p.attrName ∈ (req.predicates.map (·.attrName)).toFinset ∩ req.revealed := Finset.mem_inter.2 ⟨hm, hr⟩
                rw [a4] at this
                simp at this

/-- **C195** `finalize` panics for no proof builder that can be made, whatever the calls before and the nonce. -/
theorem finalize_never_panics {e : G1 →ₗ[F] G2 →ₗ[F] GT} {cv : Conv F G1 G2 GT} {mode : Overflow} {ord : SetOrder}
    {b : Builder F G1 G2 GT} (h : Made e cv mode ord b) (sha : Bytes → Bytes) (ordF : SetOrder) (nonce : Int) :
    b.finalize cv sha ordF nonce ≠ .panic := by
  have hr := made_ready h
  unfold Builder.finalize
  refine np_bind (np_mapM _ _ fun i hi => ?_) fun _ _ => np_pure _
  unfold finalizeSubProof
  refine np_bind ?_ fun _ _ => np_bind ?_ fun _ _ => np_pure _
  · unfold finalizeNonRevocOpt
    split
    · refine np_bind ?_ fun _ _ => np_pure _
      unfold Rev.finalizeNonRevocProof
      refine np_bind ?_ fun _ _ => np_pure _
      intro hp
      simp [Rev.XList.fromList, Rev.XList.asList] at hp
    · exact np_pure _
  · unfold finalizePrimaryProof
    refine np_bind ?_ fun eq heq => np_bind (np_mapM _ _ fun x hx => ?_) fun _ _ => np_pure _
    · unfold finalizeEqProof
      refine np_bind (np_mapM _ _ fun k _ => ?_) fun _ _ => np_bind (np_mapM _ _ fun k _ => ?_) fun _ _ => np_pure _
      · exact np_bind (np_ofOption _ _) fun _ _ => np_bind (np_ofOption _ _) fun _ _ => np_pure _
      · exact np_bind (np_ofOption _ _) fun _ _ => np_pure _
    · obtain ⟨⟨h1, h2, h3⟩, h4⟩ := hr i hi x hx
      unfold finalizeNeProof
      refine np_bind (np_unwrap h1) fun _ _ => np_bind (np_unwrap h2) fun _ _ => np_bind (np_mapM _ _ fun k hk => ?_) fun _ _ =>
        np_bind (np_unwrap ?_) fun _ _ => np_pure _
      · obtain ⟨k1, k2, k3, k4⟩ := h3 k hk
        exact np_bind (np_unwrap k1) fun _ _ => np_bind (np_unwrap k2) fun _ _ => np_bind (np_unwrap k3) fun _ _ =>
          np_bind (np_unwrap k4) fun _ _ => np_pure _
      · unfold finalizeEqProof at heq
        obtain ⟨m, hm, heq⟩ := Res.bind_eq_ok.1 heq
        obtain ⟨rv, _, heq⟩ := Res.bind_eq_ok.1 heq
        cases heq
        apply lookup_ne_none
        have hmem := (ordF.mem _ _).2 h4
        obtain ⟨y, hy, hf⟩ := mapM_mem hm _ hmem
        obtain ⟨_, _, hf⟩ := Res.bind_eq_ok.1 hf
        obtain ⟨_, _, hf⟩ := Res.bind_eq_ok.1 hf
        cases hf
        exact List.mem_map.2 ⟨_, hy, rfl⟩

/-! ### The exceptions are real, and the hypotheses are met -/

/-- **C194, limits** with a key whose modulus is zero every proof of the right shape with a response `e ≥ 0` makes `verify`
panic (in builds with the native big numbers) -/
theorem verify_panics_zero_modulus (e : G1 →ₗ[F] G2 →ₗ[F] GT) (cv : Conv F G1 G2 GT) (mode : Overflow) (sha : Bytes → Bytes)
    (ordV : SetOrder) (cred : VCred G1 G2 GT) (h0 : cred.pk.pKey.n = 0) (p : SubProof F G1 G2)
    (hs : checkShape p.primary cred.req = .ok ()) (he : 0 ≤ p.primary.eq.e) (c : Int) (cl : List Bytes) (nonce : Int) :
    (PVerifier.verify e cv mode sha ordV ⟨[cred], []⟩ ⟨[p], c, cl⟩ nonce).2 = .panic := by
  have hp : modExp p.primary.eq.aPrime p.primary.eq.e cred.pk.pKey.n = .panic := (modExp_panics_iff _ _ _).2 ⟨h0, he⟩
  have hv : verifyPrimaryProof mode ordV cred.pk.pKey c p.primary cred.schema cred.nonSchema cred.req = .panic := by
    unfold verifyPrimaryProof verifyEquality calcTeq
    rw [hp]
    rfl
  unfold PVerifier.verify checkVerifyParams
  simp [hs, verifyLoop, checkCommon, hv]

end

/-- a request for `age > 2147483647` -/
def crazy : Predicate := ⟨"age", .GT, 2147483647⟩

/-- a public key and a proof with all responses 1 -/
def crazyProof : NeProof :=
  ⟨iterKeys.map (fun k => (k, 1)), iterKeys.map (fun k => (k, 1)) ++ [("DELTA", 1)], 1, 1,
    iterKeys.map (fun k => (k, 1)) ++ [("DELTA", 1)], crazy⟩

/-- **C194, limits** with overflow checks the verifier's own request for `> i32::MAX` crashes it -/
theorem verifyNe_panics_overflow : verifyNePredicate .checked Toy77.pk crazyProof 1 = .panic ∧
    verifyNePredicate .wrapping Toy77.pk crazyProof 1 ≠ .panic := by
  exact ⟨by decide +kernel, np_verifyNe (by decide) _ _ _ (.inl rfl)⟩

/-- **C195, limits** with overflow checks a verifier can crash a holder by asking for `age ≥ -2147483648`, which holds of
every attribute -/
theorem initNe_panics_overflow (rnd : NeRand) :
    initNeProof .checked Toy77.pk [] Toy77.vals ⟨"age", .GE, -2147483648⟩ rnd = .panic := by
  unfold initNeProof
  have h1 : Toy77.vals.lookup "age" = some (.known 28) := by decide
  have h2 : Predicate.getDelta .checked ⟨"age", .GE, -2147483648⟩ 28 = .panic := by decide
  have h3 : InI32 28 := by decide
  simp [h1, h2, h3, CredentialValue.value]

/-- the hypotheses of `verify_never_panics` and `add_never_panics` are met by an ordinary request -/
example : (Toy77.pk.n ≠ 0 ∧ ∀ p ∈ [(⟨"age", .GE, 18⟩ : Predicate), ⟨"age", .LT, 65⟩], BoundFits p) ∧
    ∀ p ∈ [(⟨"age", .GE, 18⟩ : Predicate), ⟨"age", .LT, 65⟩], DeltaFits p 28 := by
  refine ⟨⟨by decide, ?_⟩, ?_⟩ <;> intro p hp <;> fin_cases hp <;> simp [BoundFits, DeltaFits, InI32]

end Verif.CL.Panic
