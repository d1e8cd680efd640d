import Verif.Sig.Secp256k1
import Mathlib.Tactic.Abel
import Mathlib.Tactic.NormNum.Prime
import Mathlib.Tactic.Module
import Mathlib.Tactic.FieldSimp
import Mathlib.Tactic.LinearCombination

/-!
# C150–C157: ECDSA and ECDH on secp256k1

C150: signatures verify.  C151: what verification accepts.  C152: signatures with a high second number.  C153: formats of
public keys.  C154: keys from seeds.  C155: both sides compute the same secret.  C156: the two builds.  C157: malformed
private keys in the pure build.
-/

set_option linter.unusedSectionVars false

namespace Verif.Sig

variable {n : Nat} [Fact n.Prime] {G : Type} [AddCommGroup G] [Module (ZMod n) G] (S : Secp n G)

/-! ## Specification -/

/-- A private key: 32 bytes, big endian a number from 1 to n - 1. -/
def IsSecret (n : Nat) (sk : Bytes) : Prop := sk.length = 32 ∧ 0 < ofBe sk ∧ ofBe sk < n

/-- The equation of ECDSA for the numbers `r` and `s` and the public key `Q`: the x-coordinate of
`(h / s) B + (r / s) Q`, which is not zero, is `r` modulo n. -/
def Secp.Equation (message : Bytes) (r s : ZMod n) (Q : G) : Prop :=
  r ≠ 0 ∧ s ≠ 0 ∧ ∃ R, R = (((ofBe (S.sha256 message) : Nat) : ZMod n) / s) • S.base + (r / s) • Q ∧ R ≠ 0 ∧
    ((ofBe (S.xBytes R) : Nat) : ZMod n) = r

/-- The two numbers of a signature of 64 bytes, big endian. -/
def sigR (sig : Bytes) : Nat := ofBe (sig.take 32)
/-- see `sigR` -/
def sigS (sig : Bytes) : Nat := ofBe (sig.drop 32)

/-! ## Numbers -/

theorem val_lt_pow (S : Secp n G) (x : ZMod n) : x.val < 256 ^ 32 := by
  have h := ZMod.val_lt x
  have h2 := S.n_lt
  have : (2 : Nat) ^ 256 = 256 ^ 32 := by norm_num
  omega

theorem secretFromSlice_eq (b : Bytes) :
    (IsSecret n b → ∃ d : ZMod n, secretFromSlice n b = some d ∧ d ≠ 0 ∧ d = ((ofBe b : Nat) : ZMod n) ∧ toBe 32 d.val = b) ∧
    (¬ IsSecret n b → secretFromSlice n b = none) := by
  unfold secretFromSlice IsSecret
  constructor
  · rintro ⟨h1, h2, h3⟩
    refine ⟨_, if_pos ⟨h1, h2, h3⟩, ?_, rfl, ?_⟩
    · intro h
      have := (ZMod.natCast_eq_zero_iff _ _).mp h
      exact absurd (Nat.le_of_dvd h2 this) (by omega)
    · rw [ZMod.val_natCast_of_lt h3, ← h1, toBe_ofBe]
  · intro h
    exact if_neg h

theorem isSecret_toBe (S : Secp n G) (d : ZMod n) (hd : d ≠ 0) : IsSecret n (toBe 32 d.val) := by
  refine ⟨toBe_length _ _, ?_, ?_⟩
  · rw [ofBe_toBe _ _ (val_lt_pow S d)]
    exact Nat.pos_of_ne_zero (fun h => hd ((ZMod.val_eq_zero d).mp h))
  · rw [ofBe_toBe _ _ (val_lt_pow S d)]
    exact ZMod.val_lt d

theorem sigFromCompact_compact (S : Secp n G) (r s : ZMod n) : sigFromCompact n (sigToCompact r s) = some (r, s) := by
  have h1 : (sigToCompact r s).take 32 = toBe 32 r.val := List.take_left' (toBe_length _ _)
  have h2 : (sigToCompact r s).drop 32 = toBe 32 s.val := List.drop_left' (toBe_length _ _)
  unfold sigFromCompact
  rw [h1, h2, ofBe_toBe _ _ (val_lt_pow S r), ofBe_toBe _ _ (val_lt_pow S s),
    if_pos ⟨by simp [sigToCompact], ZMod.val_lt r, ZMod.val_lt s⟩, ZMod.natCast_zmod_val, ZMod.natCast_zmod_val]

theorem compact_fromCompact (sig : Bytes) (r s : ZMod n) (h : sigFromCompact n sig = some (r, s)) :
    sigToCompact r s = sig ∧ sig.length = 64 ∧ r.val = sigR sig ∧ s.val = sigS sig ∧ r = ((sigR sig : Nat) : ZMod n) ∧
      s = ((sigS sig : Nat) : ZMod n) := by
  unfold sigFromCompact at h
  by_cases hc : sig.length = 64 ∧ ofBe (sig.take 32) < n ∧ ofBe (sig.drop 32) < n
  · rw [if_pos hc] at h
    obtain ⟨hl, h1, h2⟩ := hc
    simp only [Option.some.injEq, Prod.mk.injEq] at h
    obtain ⟨rfl, rfl⟩ := h
    refine ⟨?_, hl, ZMod.val_natCast_of_lt h1, ZMod.val_natCast_of_lt h2, rfl, rfl⟩
    unfold sigToCompact
    rw [ZMod.val_natCast_of_lt h1, ZMod.val_natCast_of_lt h2]
    have e1 := toBe_ofBe (sig.take 32)
    have e2 := toBe_ofBe (sig.drop 32)
    rw [show (sig.take 32).length = 32 by simp [hl]] at e1
    rw [show (sig.drop 32).length = 32 by simp [hl]] at e2
    rw [e1, e2, List.take_append_drop]
  · rw [if_neg hc] at h
    cases h

theorem neg_val (S : Secp n G) (s : ZMod n) (hs : s ≠ 0) : (-s).val = n - s.val := by
  haveI : NeZero n := ⟨(Fact.out : n.Prime).ne_zero⟩
  rw [ZMod.neg_val, if_neg hs]

theorem n_half (S : Secp n G) : n = 2 * (n / 2) + 1 := by
  have hp : n.Prime := Fact.out
  have := hp.eq_two_or_odd
  have h2 := S.n_odd
  omega

theorem lowS_low (S : Secp n G) (s : ZMod n) : (lowS s).val ≤ n / 2 := by
  unfold lowS
  by_cases h : n / 2 < s.val
  · rw [if_pos h]
    have hs : s ≠ 0 := by
      rintro rfl
      rw [ZMod.val_zero] at h
      omega
    rw [neg_val S s hs]
    have := n_half S
    omega
  · rw [if_neg h]
    omega

theorem lowS_cases (s : ZMod n) : lowS s = s ∨ lowS s = -s := by
  unfold lowS
  split
  · exact Or.inr rfl
  · exact Or.inl rfl

theorem lowS_of_low (s : ZMod n) (h : s.val ≤ n / 2) : lowS s = s := if_neg (by omega)

theorem lowS_ne (s : ZMod n) (h : s ≠ 0) : lowS s ≠ 0 := by
  rcases lowS_cases s with e | e <;> rw [e]
  · exact h
  · exact neg_ne_zero.mpr h

/-! ## C151 -/

variable [DecidableEq G]

theorem ecdsaVerify_iff (message : Bytes) (r s : ZMod n) (Q : G) :
    S.ecdsaVerify (S.sha256 message) r s Q = true ↔ s.val ≤ n / 2 ∧ S.Equation message r s Q := by
  unfold Secp.ecdsaVerify Secp.Equation
  simp only [Bool.and_eq_true, decide_eq_true_eq, div_eq_mul_inv, exists_eq_left]
  tauto

/-- C151: verification returns `Ok(true)` or `Ok(false)` exactly if the public key can be parsed and the signature is 64
bytes with two numbers below n, and `Ok(true)` exactly if moreover the second number is at most n / 2 and the equation
holds; otherwise a parse error. It never panics. -/
theorem ecdsa_verify_iff (message sig pk : Bytes) :
    (∀ Q, S.parse pk = some Q → sig.length = 64 → sigR sig < n → sigS sig < n →
      (S.verify message sig pk = .ok true ↔
        sigS sig ≤ n / 2 ∧ S.Equation message ((sigR sig : Nat) : ZMod n) ((sigS sig : Nat) : ZMod n) Q) ∧
      (S.verify message sig pk = .ok true ∨ S.verify message sig pk = .ok false)) ∧
    (S.parse pk = none ∨ sig.length ≠ 64 ∨ n ≤ sigR sig ∨ n ≤ sigS sig → S.verify message sig pk = .err .parseError) := by
  constructor
  · intro Q hQ hl hr hs
    have hp : sigFromCompact n sig = some (((sigR sig : Nat) : ZMod n), ((sigS sig : Nat) : ZMod n)) := if_pos ⟨hl, hr, hs⟩
    have e : S.verify message sig pk =
        .ok (S.ecdsaVerify (S.sha256 message) ((sigR sig : Nat) : ZMod n) ((sigS sig : Nat) : ZMod n) Q) := by
      unfold Secp.verify
      rw [hQ, hp]
      rfl
    rw [e]
    constructor
    · rw [Res.ok.injEq, ecdsaVerify_iff, ZMod.val_natCast_of_lt hs]
    · cases S.ecdsaVerify (S.sha256 message) ((sigR sig : Nat) : ZMod n) ((sigS sig : Nat) : ZMod n) Q <;> simp
  · intro h
    unfold Secp.verify
    cases hQ : S.parse pk with
    | none => rfl
    | some Q =>
      have hn : sigFromCompact n sig = none := by
        apply if_neg
        rw [hQ] at h
        unfold sigR sigS at h
        simp only [reduceCtorEq, false_or] at h
        rintro ⟨a, b, c⟩
        rcases h with h | h | h
        · exact h a
        · omega
        · omega
      rw [hn]
      rfl

/-- C151: an accepted signature, with its parts. -/
theorem ecdsa_accepted (message sig pk : Bytes) (h : S.verify message sig pk = .ok true) :
    ∃ Q, S.parse pk = some Q ∧ sig.length = 64 ∧ sigR sig < n ∧ sigS sig ≤ n / 2 ∧
      S.Equation message ((sigR sig : Nat) : ZMod n) ((sigS sig : Nat) : ZMod n) Q := by
  obtain ⟨h1, h2⟩ := ecdsa_verify_iff S message sig pk
  by_cases hb : S.parse pk = none ∨ sig.length ≠ 64 ∨ n ≤ sigR sig ∨ n ≤ sigS sig
  · rw [h2 hb] at h
    cases h
  · rw [not_or, not_or, not_or] at hb
    obtain ⟨hb1, hb2, hb3, hb4⟩ := hb
    obtain ⟨Q, hQ⟩ := Option.ne_none_iff_exists'.mp hb1
    have := (h1 Q hQ (not_not.mp hb2) (not_le.mp hb3) (not_le.mp hb4)).1.mp h
    exact ⟨Q, hQ, not_not.mp hb2, not_le.mp hb3, this.1, this.2⟩

/-- C151, signing: a signature exactly for private keys, otherwise a parse error. -/
theorem ecdsa_sign_iff (message sk : Bytes) :
    (IsSecret n sk → ∃ sig, S.sign message sk = .ok sig) ∧ (¬ IsSecret n sk → S.sign message sk = .err .parseError) := by
  unfold Secp.sign
  constructor
  · intro h
    obtain ⟨d, hd, -⟩ := (secretFromSlice_eq sk).1 h
    rw [hd]
    exact ⟨_, rfl⟩
  · intro h
    rw [(secretFromSlice_eq sk).2 h]
    rfl

/-! ## C150 -/

/-- The signature made with the private key `d` satisfies the equation. -/
theorem ecdsaSign_equation (message : Bytes) (d : ZMod n) (hd : d ≠ 0) :
    S.Equation message (S.ecdsaSign (S.sha256 message) d).1 (S.ecdsaSign (S.sha256 message) d).2 (d • S.base) ∧
    (S.ecdsaSign (S.sha256 message) d).2.val ≤ n / 2 := by
  refine ⟨?_, lowS_low S _⟩
  have hk := S.nonce_ne (S.sha256 message) d hd
  have hr := S.nonce_r (S.sha256 message) d hd
  have hs := S.nonce_s (S.sha256 message) d hd
  unfold Secp.ecdsaSign Secp.Equation
  simp only
  generalize hkk : S.nonce (S.sha256 message) d = k at *
  generalize hrr : ((ofBe (S.xBytes (k • S.base)) : Nat) : ZMod n) = r at *
  generalize ((ofBe (S.sha256 message) : Nat) : ZMod n) = m at *
  have hs0 : k⁻¹ * (m + r * d) ≠ 0 := mul_ne_zero (inv_ne_zero hk) hs
  have hkb : k • S.base ≠ 0 := smul_ne_zero hk S.base_ne
  have hpt : ∀ s : ZMod n, (m / s) • S.base + (r / s) • d • S.base = ((m + r * d) / s) • S.base := by
    intro s
    rw [← mul_smul, ← add_smul]
    congr 1
    ring
  have hq : (m + r * d) / (k⁻¹ * (m + r * d)) = k := by field_simp
  refine ⟨hr, lowS_ne _ hs0, _, rfl, ?_⟩
  rw [hpt]
  rcases lowS_cases (k⁻¹ * (m + r * d)) with e | e
  · rw [e, hq]
    exact ⟨hkb, hrr⟩
  · rw [e, div_neg, hq, neg_smul, S.xBytes_neg]
    exact ⟨neg_ne_zero.mpr hkb, hrr⟩

/-- The key pair of a private key `d`: what is returned is `d` itself and `d B`. -/
theorem keypair_shape (os : Bytes) (o : Option KeyGenOption) (pk sk : Bytes) (h : S.keypair os o = .ok (pk, sk)) :
    ∃ d : ZMod n, d ≠ 0 ∧ secretFromSlice n sk = some d ∧ pk = S.ser (d • S.base) ∧ sk = toBe 32 d.val ∧
      S.parse pk = some (d • S.base) ∧ IsSecret n sk := by
  unfold Secp.keypair at h
  rw [Res.bind_eq_ok] at h
  obtain ⟨k, -, h⟩ := h
  by_cases hk : IsSecret n k
  · obtain ⟨d, hd, hd0, -, hb⟩ := (secretFromSlice_eq k).1 hk
    rw [hd, Res.ofOption_some, Res.ok_bind, hb] at h
    simp only [Res.ok.injEq, Prod.mk.injEq] at h
    obtain ⟨rfl, rfl⟩ := h
    exact ⟨d, hd0, hd, rfl, hb.symm, S.parse_ser _ (smul_ne_zero hd0 S.base_ne), hk⟩
  · rw [(secretFromSlice_eq k).2 hk] at h
    cases h

/-- C150: for every key pair, generated, from a seed or loaded, and every message, signing succeeds, the signature has 64
bytes, its second number is at most n / 2, and it verifies. -/
theorem ecdsa_sign_verify (os : Bytes) (o : Option KeyGenOption) (message pk sk : Bytes)
    (hk : S.keypair os o = .ok (pk, sk)) :
    ∃ sig, S.sign message sk = .ok sig ∧ sig.length = 64 ∧ sigS sig ≤ n / 2 ∧ S.verify message sig pk = .ok true := by
  obtain ⟨d, hd0, hd, -, -, hp, -⟩ := keypair_shape S os o pk sk hk
  obtain ⟨he, hlow⟩ := ecdsaSign_equation S message d hd0
  refine ⟨sigToCompact (S.ecdsaSign (S.sha256 message) d).1 (S.ecdsaSign (S.sha256 message) d).2, ?_, ?_, ?_, ?_⟩
  · unfold Secp.sign
    rw [hd]
    rfl
  · simp [sigToCompact]
  · obtain ⟨-, -, -, hs, -⟩ := compact_fromCompact _ _ _ (sigFromCompact_compact S _ _)
    rw [← hs]
    exact hlow
  · unfold Secp.verify
    rw [hp, sigFromCompact_compact S, Res.ofOption_some, Res.ok_bind, Res.ofOption_some, Res.ok_bind, Res.ok.injEq,
      ecdsaVerify_iff]
    exact ⟨hlow, he⟩

/-- C150, loading: the public key has 33 bytes and the private key 32, and loading the private key gives the same pair;
loading succeeds exactly for private keys, otherwise it is a parse error. -/
theorem ecdsa_reload (os os' : Bytes) (o : Option KeyGenOption) (pk sk : Bytes) (hk : S.keypair os o = .ok (pk, sk)) :
    pk.length = 33 ∧ sk.length = 32 ∧ S.keypair os' (some (.fromSecretKey sk)) = .ok (pk, sk) := by
  obtain ⟨d, hd0, hd, hpk, hsk, -, hs⟩ := keypair_shape S os o pk sk hk
  refine ⟨by rw [hpk, S.ser_length], hs.1, ?_⟩
  unfold Secp.keypair Secp.keyBytes
  simp only [Res.ok_bind, hd, Res.ofOption_some]
  rw [← hsk, hpk]

theorem ecdsa_load_iff (os sk : Bytes) :
    (IsSecret n sk → ∃ pk, S.keypair os (some (.fromSecretKey sk)) = .ok (pk, sk)) ∧
    (¬ IsSecret n sk → S.keypair os (some (.fromSecretKey sk)) = .err .parseError) := by
  constructor
  · intro h
    obtain ⟨d, hd, -, -, hb⟩ := (secretFromSlice_eq sk).1 h
    refine ⟨S.ser (d • S.base), ?_⟩
    unfold Secp.keypair Secp.keyBytes
    simp only [Res.ok_bind, hd, Res.ofOption_some, hb]
  · intro h
    unfold Secp.keypair Secp.keyBytes
    simp only [Res.ok_bind, (secretFromSlice_eq sk).2 h, Res.ofOption_none, Res.err_bind]

/-! ## C152 -/

/-- The equation does not distinguish `s` and `-s`. -/
theorem equation_neg (message : Bytes) (r s : ZMod n) (Q : G) :
    S.Equation message r (-s) Q ↔ S.Equation message r s Q := by
  have key : ∀ s : ZMod n, S.Equation message r s Q → S.Equation message r (-s) Q := by
    rintro s ⟨hr, hs, R, hR, hR0, hx⟩
    refine ⟨hr, neg_ne_zero.mpr hs, -R, ?_, neg_ne_zero.mpr hR0, ?_⟩
    · rw [hR, div_neg, div_neg, neg_smul, neg_smul, neg_add]
    · rw [S.xBytes_neg, hx]
  refine ⟨fun h => ?_, key s⟩
  have := key _ h
  rwa [neg_neg] at this

/-- C152: a signature with a second number above n / 2 is not accepted, whatever the message and the key. -/
theorem ecdsa_high_s_refused (message sig pk : Bytes) (h : n / 2 < sigS sig) : S.verify message sig pk ≠ .ok true := by
  intro hv
  obtain ⟨Q, -, -, -, hs, -⟩ := ecdsa_accepted S message sig pk hv
  omega

/-- C152: normalizing keeps the first number, gives a second number of at most n / 2 that is the old one or n minus it,
and changes nothing the second time or if the number was already small; it succeeds exactly for 64 bytes with two numbers
below n and otherwise returns a parse error. -/
theorem normalize_spec (S : Secp n G) (sig : Bytes) :
    (sig.length = 64 ∧ sigR sig < n ∧ sigS sig < n → ∃ sig', normalizeS n sig = .ok sig' ∧ sig'.length = 64 ∧
      sig'.take 32 = sig.take 32 ∧ sigS sig' ≤ n / 2 ∧ (sigS sig' = sigS sig ∨ sigS sig' = n - sigS sig) ∧
      normalizeS n sig' = .ok sig' ∧ (sigS sig ≤ n / 2 → sig' = sig)) ∧
    (¬ (sig.length = 64 ∧ sigR sig < n ∧ sigS sig < n) → normalizeS n sig = .err .parseError) := by
  constructor
  · rintro ⟨hl, hr, hs⟩
    have hp : sigFromCompact n sig = some (((sigR sig : Nat) : ZMod n), ((sigS sig : Nat) : ZMod n)) := if_pos ⟨hl, hr, hs⟩
    obtain ⟨hc, -, hrv, hsv, -, -⟩ := compact_fromCompact sig _ _ hp
    generalize ((sigR sig : Nat) : ZMod n) = r at *
    generalize ((sigS sig : Nat) : ZMod n) = s at *
    obtain ⟨-, hl', -, hsv', -, -⟩ := compact_fromCompact _ _ _ (sigFromCompact_compact S r (lowS s))
    have hlow := lowS_low S s
    refine ⟨sigToCompact r (lowS s), ?_, hl', ?_, ?_, ?_, ?_, ?_⟩
    · unfold normalizeS
      rw [hp]
      rfl
    · rw [← hc]
      unfold sigToCompact
      rw [List.take_left' (toBe_length _ _), List.take_left' (toBe_length _ _)]
    · rw [← hsv']
      exact hlow
    · rw [← hsv', ← hsv]
      rcases lowS_cases s with e | e
      · exact Or.inl (by rw [e])
      · by_cases h0 : s = 0
        · exact Or.inl (by rw [e, h0, neg_zero])
        · exact Or.inr (by rw [e, neg_val S s h0])
    · unfold normalizeS
      rw [sigFromCompact_compact S, Res.ofOption_some, Res.ok_bind, lowS_of_low _ hlow]
    · intro h
      rw [lowS_of_low s (by omega), hc]
  · intro h
    unfold normalizeS
    have : sigFromCompact n sig = none := if_neg h
    rw [this]
    rfl

/-- C152: after normalizing, a signature is accepted exactly if the equation holds for it, whichever of the two second
numbers it had. -/
theorem normalized_accepted (message sig sig' pk : Bytes) (Q : G) (hQ : S.parse pk = some Q)
    (h : normalizeS n sig = .ok sig') :
    S.verify message sig' pk = .ok true ↔
      S.Equation message ((sigR sig : Nat) : ZMod n) ((sigS sig : Nat) : ZMod n) Q := by
  unfold normalizeS at h
  rw [Res.bind_eq_ok] at h
  obtain ⟨⟨r, s⟩, hp, h⟩ := h
  cases hp' : sigFromCompact n sig with
  | none =>
    rw [hp'] at hp
    cases hp
  | some rs =>
    rw [hp'] at hp
    cases hp
    cases h
    obtain ⟨-, -, -, -, hr, hs⟩ := compact_fromCompact sig r s hp'
    rw [← hr, ← hs]
    unfold Secp.verify
    rw [hQ, sigFromCompact_compact S, Res.ofOption_some, Res.ok_bind, Res.ofOption_some, Res.ok_bind, Res.ok.injEq,
      ecdsaVerify_iff]
    simp only [lowS_low S s, true_and]
    rcases lowS_cases s with e | e
    · rw [e]
    · rw [e, equation_neg]

/-- C152: of the two signatures that differ in the sign of the second number exactly one is accepted, if the equation
holds. -/
theorem exactly_one_twin (message pk : Bytes) (r s : ZMod n) (Q : G) (hQ : S.parse pk = some Q)
    (h : S.Equation message r s Q) :
    (S.verify message (sigToCompact r s) pk = .ok true ∧ S.verify message (sigToCompact r (-s)) pk = .ok false) ∨
    (S.verify message (sigToCompact r s) pk = .ok false ∧ S.verify message (sigToCompact r (-s)) pk = .ok true) := by
  have e : ∀ s : ZMod n, S.verify message (sigToCompact r s) pk = .ok (S.ecdsaVerify (S.sha256 message) r s Q) := by
    intro s
    unfold Secp.verify
    rw [hQ, sigFromCompact_compact S, Res.ofOption_some, Res.ok_bind, Res.ofOption_some, Res.ok_bind]
  have hv := ecdsaVerify_iff S message r
  rw [e, e]
  have hs0 : s ≠ 0 := h.2.1
  have hneg := neg_val S s hs0
  have hh := n_half S
  have hlt := ZMod.val_lt s
  have hpos : 0 < s.val := Nat.pos_of_ne_zero (fun h => hs0 ((ZMod.val_eq_zero s).mp h))
  by_cases hl : s.val ≤ n / 2
  · left
    have h1 : S.ecdsaVerify (S.sha256 message) r s Q = true := (hv s Q).mpr ⟨hl, h⟩
    have h2 : S.ecdsaVerify (S.sha256 message) r (-s) Q = false := by
      rw [Bool.eq_false_iff]
      intro hc
      have := ((hv (-s) Q).mp hc).1
      omega
    rw [h1, h2]
    exact ⟨rfl, rfl⟩
  · right
    have h1 : S.ecdsaVerify (S.sha256 message) r (-s) Q = true :=
      (hv (-s) Q).mpr ⟨by omega, (equation_neg S message r s Q).mpr h⟩
    have h2 : S.ecdsaVerify (S.sha256 message) r s Q = false := by
      rw [Bool.eq_false_iff]
      intro hc
      exact hl ((hv s Q).mp hc).1
    rw [h1, h2]
    exact ⟨rfl, rfl⟩

/-! ## C153 -/

/-- C153: for every key that can be parsed, the three functions give the same key in the compressed form of 33 bytes or
the long form of 65, and going back and forth gives the compressed form. -/
theorem key_formats_partial (data : Bytes) (P : G) (h : S.parse data = some P) :
    ∃ short long, S.parseKey data = .ok short ∧ S.publicKeyCompressed data = .ok short ∧
      S.publicKeyUncompressed data = .ok long ∧ short.length = 33 ∧ long.length = 65 ∧
      S.parse short = some P ∧ S.parse long = some P ∧ S.parseKey long = .ok short ∧ S.parseKey short = .ok short ∧
      S.publicKeyCompressed long = .ok short ∧ S.publicKeyUncompressed short = .ok long := by
  have h0 := S.parse_ne _ _ h
  have h1 := S.parse_ser P h0
  have h2 := S.parse_serLong P h0
  refine ⟨S.ser P, S.serLong P, ?_, ?_, ?_, S.ser_length P, S.serLong_length P, h1, h2, ?_, ?_, ?_, ?_⟩ <;>
    simp [Secp.parseKey, Secp.publicKeyCompressed, Secp.publicKeyUncompressed, h, h1, h2]

/-- C153: all forms of a key verify the same signatures. -/
theorem key_form_irrelevant (message sig pk pk' : Bytes) (h : S.parse pk = S.parse pk') :
    S.verify message sig pk = S.verify message sig pk' := by
  unfold Secp.verify
  rw [h]

/-- C153 fails for malformed keys: `parse` returns an error, but the other two functions panic. -/
theorem malformed_key_panics (data : Bytes) (h : S.parse data = none) :
    S.parseKey data = .err .parseError ∧ S.publicKeyCompressed data = .panic ∧ S.publicKeyUncompressed data = .panic := by
  simp [Secp.parseKey, Secp.publicKeyCompressed, Secp.publicKeyUncompressed, h]

/-! ## C154 -/

/-- C154 fails: a seed is not hashed; below 32 bytes the call panics, in both builds of the key exchange and in the
signatures, and exactly then. -/
theorem short_seed_panics (os seed : Bytes) :
    (S.keypair os (some (.useSeed seed)) = .panic ↔ seed.length < 32) ∧
    (S.keypairPure os (some (.useSeed seed)) = .panic ↔ seed.length < 32) := by
  unfold Secp.keypair Secp.keypairPure Secp.keyBytes Secp.keyBytesPure arrayRef32
  simp only
  by_cases h : 32 ≤ seed.length
  · rw [if_pos h]
    simp only [Res.ok_bind]
    cases secretFromSlice n (S.sha256 (S.chacha (seed.take 32))) <;> simp [h]
  · rw [if_neg h]
    simp only [Res.panic_bind, true_iff]
    omega

/-- C154 fails: what follows the first 32 bytes of a seed has no influence. -/
theorem long_seed_cut (os seed x : Bytes) (h : seed.length = 32) :
    S.keypair os (some (.useSeed (seed ++ x))) = S.keypair os (some (.useSeed seed)) ∧
    S.keypairPure os (some (.useSeed (seed ++ x))) = S.keypairPure os (some (.useSeed seed)) := by
  have e : (arrayRef32 (seed ++ x) : Res CryptoError Bytes) = arrayRef32 seed := by
    unfold arrayRef32
    rw [if_pos (by simp [h]), if_pos (by omega), List.take_left' h, List.take_of_length_le (by omega)]
  unfold Secp.keypair Secp.keypairPure Secp.keyBytes Secp.keyBytesPure
  simp only
  rw [e]
  exact ⟨rfl, rfl⟩

/-- C154, what holds: the private key of a seed of at least 32 bytes is the hash of the generator's output for its first
32 bytes, and the call fails only if this is not a private key. -/
theorem seed_key_partial (os seed : Bytes) (h : 32 ≤ seed.length) (hs : IsSecret n (S.sha256 (S.chacha (seed.take 32)))) :
    ∃ pk, S.keypair os (some (.useSeed seed)) = .ok (pk, S.sha256 (S.chacha (seed.take 32))) ∧
      S.keypairPure os (some (.useSeed seed)) = .ok (pk, S.sha256 (S.chacha (seed.take 32))) := by
  obtain ⟨d, hd, -, -, hb⟩ := (secretFromSlice_eq _).1 hs
  refine ⟨S.ser (d • S.base), ?_, ?_⟩
  · unfold Secp.keypair Secp.keyBytes arrayRef32
    simp only
    rw [if_pos h]
    simp only [Res.ok_bind, hd, Res.ofOption_some, hb]
  · unfold Secp.keypairPure Secp.keyBytesPure arrayRef32
    simp only
    rw [if_pos h]
    simp only [Res.ok_bind, hd, Res.ofOption_some]

/-! ## C155 -/

theorem keypairPure_shape (os : Bytes) (o : Option KeyGenOption) (pk sk : Bytes) (h : S.keypairPure os o = .ok (pk, sk)) :
    ∃ d : ZMod n, d ≠ 0 ∧ secretFromSlice n sk = some d ∧ pk = S.ser (d • S.base) ∧ sk = toBe 32 d.val ∧
      S.parse pk = some (d • S.base) ∧ IsSecret n sk := by
  unfold Secp.keypairPure at h
  rw [Res.bind_eq_ok] at h
  obtain ⟨k, -, h⟩ := h
  by_cases hk : IsSecret n k
  · obtain ⟨d, hd, hd0, -, hb⟩ := (secretFromSlice_eq k).1 hk
    rw [hd, Res.ofOption_some, Res.ok_bind] at h
    simp only [Res.ok.injEq, Prod.mk.injEq] at h
    obtain ⟨rfl, rfl⟩ := h
    exact ⟨d, hd0, hd, rfl, hb.symm, S.parse_ser _ (smul_ne_zero hd0 S.base_ne), hk⟩
  · rw [(secretFromSlice_eq k).2 hk] at h
    cases h

/-- C155: in both builds, for all key pairs, generated, from a seed or loaded, both sides get the same 32 bytes; the key
pairs may come from either build. -/
theorem ecdh_agree (os os' : Bytes) (o o' : Option KeyGenOption) (pk sk pk' sk' : Bytes)
    (h : S.keypair os o = .ok (pk, sk) ∨ S.keypairPure os o = .ok (pk, sk))
    (h' : S.keypair os' o' = .ok (pk', sk') ∨ S.keypairPure os' o' = .ok (pk', sk')) :
    (∃ key, S.sharedNative sk pk' = .ok key ∧ S.sharedNative sk' pk = .ok key ∧ key.length = 32) ∧
    (∃ key, S.sharedPure sk pk' = .ok key ∧ S.sharedPure sk' pk = .ok key ∧ key.length = 32) := by
  obtain ⟨d, hd0, hd, -, -, hp, -⟩ := h.elim (keypair_shape S os o pk sk) (keypairPure_shape S os o pk sk)
  obtain ⟨d', hd0', hd', -, -, hp', -⟩ := h'.elim (keypair_shape S os' o' pk' sk') (keypairPure_shape S os' o' pk' sk')
  have hc : d' • d • S.base = d • d' • S.base := smul_comm _ _ _
  constructor
  · refine ⟨S.sha256 (S.ser (d • d' • S.base)), ?_, ?_, S.sha256_length _⟩
    · simp [Secp.sharedNative, hd, hp']
    · simp [Secp.sharedNative, hd', hp, hc]
  · refine ⟨S.xBytes (d • d' • S.base), ?_, ?_, S.xBytes_length _⟩
    · simp [Secp.sharedPure, hd, hp']
    · simp [Secp.sharedPure, hd', hp, hc]

/-- C155: with a malformed private or public key both builds return a parse error, and never panic; with well-formed ones
they succeed. -/
theorem ecdh_errors (sk pk : Bytes) :
    (IsSecret n sk ∧ S.parse pk ≠ none → (∃ key, S.sharedNative sk pk = .ok key) ∧ ∃ key, S.sharedPure sk pk = .ok key) ∧
    (¬ (IsSecret n sk ∧ S.parse pk ≠ none) → S.sharedNative sk pk = .err .parseError ∧
      S.sharedPure sk pk = .err .parseError) := by
  unfold Secp.sharedNative Secp.sharedPure
  by_cases hs : IsSecret n sk
  · obtain ⟨d, hd, -⟩ := (secretFromSlice_eq sk).1 hs
    rw [hd]
    cases hp : S.parse pk with
    | none => simp
    | some P => simp [hs]
  · rw [(secretFromSlice_eq sk).2 hs]
    simp [hs]

/-! ## C156 -/

/-- C156 fails: the native build returns the hash of the compressed point, the pure build the x-coordinate as it is; they
agree only if this is its own point's hash. -/
theorem builds_agree_iff (os os' : Bytes) (o o' : Option KeyGenOption) (pk sk pk' sk' : Bytes)
    (h : S.keypair os o = .ok (pk, sk)) (h' : S.keypair os' o' = .ok (pk', sk')) :
    ∃ P : G, S.sharedNative sk pk' = .ok (S.sha256 (S.ser P)) ∧ S.sharedPure sk' pk = .ok (S.xBytes P) ∧
      (S.sharedNative sk pk' = S.sharedPure sk' pk ↔ S.sha256 (S.ser P) = S.xBytes P) := by
  obtain ⟨d, hd0, hd, -, -, hp, -⟩ := keypair_shape S os o pk sk h
  obtain ⟨d', hd0', hd', -, -, hp', -⟩ := keypair_shape S os' o' pk' sk' h'
  have hc : d' • d • S.base = d • d' • S.base := smul_comm _ _ _
  have e1 : S.sharedNative sk pk' = .ok (S.sha256 (S.ser (d • d' • S.base))) := by simp [Secp.sharedNative, hd, hp']
  have e2 : S.sharedPure sk' pk = .ok (S.xBytes (d • d' • S.base)) := by simp [Secp.sharedPure, hd', hp, hc]
  refine ⟨_, e1, e2, ?_⟩
  rw [e1, e2, Res.ok.injEq]

/-- C156: the pure build does not distinguish a remote public key from its negative. -/
theorem pure_sign_ignored (sk pk pk' : Bytes) (P : G) (h : S.parse pk = some P) (h' : S.parse pk' = some (-P)) :
    S.sharedPure sk pk = S.sharedPure sk pk' := by
  unfold Secp.sharedPure
  rw [h, h']
  cases secretFromSlice n sk with
  | none => rfl
  | some d => simp [smul_neg, S.xBytes_neg]

/-! ## C157 -/

/-- C157 fails: loading a private key in the pure build panics below 32 bytes and uses the first 32 bytes of longer ones;
the native build returns an error in both cases. -/
theorem pure_load (os sk : Bytes) :
    (S.keypairPure os (some (.fromSecretKey sk)) = .panic ↔ sk.length < 32) ∧
    (32 ≤ sk.length → S.keypairPure os (some (.fromSecretKey sk)) = S.keypairPure os (some (.fromSecretKey (sk.take 32)))) ∧
    (sk.length ≠ 32 → S.keypair os (some (.fromSecretKey sk)) = .err .parseError) := by
  refine ⟨?_, ?_, ?_⟩
  · unfold Secp.keypairPure Secp.keyBytesPure arrayRef32
    simp only
    by_cases h : 32 ≤ sk.length
    · rw [if_pos h]
      simp only [Res.ok_bind]
      cases secretFromSlice n (sk.take 32) <;> simp [h]
    · rw [if_neg h]
      simp only [Res.panic_bind, true_iff]
      omega
  · intro h
    unfold Secp.keypairPure Secp.keyBytesPure arrayRef32
    simp only
    rw [if_pos h, if_pos (by simp [h]), List.take_take, min_self]
  · intro h
    exact (ecdsa_load_iff S os sk).2 (fun hs => h hs.1)

/-- C157, what holds: for private keys of 32 bytes the builds agree. -/
theorem builds_load_alike_partial (os sk : Bytes) (h : sk.length = 32) :
    S.keypairPure os (some (.fromSecretKey sk)) = S.keypair os (some (.fromSecretKey sk)) := by
  by_cases hs : IsSecret n sk
  · obtain ⟨d, hd, -, -, hb⟩ := (secretFromSlice_eq sk).1 hs
    unfold Secp.keypairPure Secp.keypair Secp.keyBytes Secp.keyBytesPure arrayRef32
    simp only
    rw [if_pos (by omega), List.take_of_length_le (by omega)]
    simp only [Res.ok_bind, hd, Res.ofOption_some, hb]
  · rw [(ecdsa_load_iff S os sk).2 hs]
    unfold Secp.keypairPure Secp.keyBytesPure arrayRef32
    simp only
    rw [if_pos (by omega), List.take_of_length_le (by omega)]
    simp only [Res.ok_bind, (secretFromSlice_eq sk).2 hs, Res.ofOption_none, Res.err_bind]

/-! ## Examples -/

/-- A toy instance: the group of order 101, the x-coordinate of a point is its square. -/
def toySecp : @Secp 101 ⟨by norm_num⟩ (ZMod 101) _ _ :=
  letI : Fact (Nat.Prime 101) := ⟨by norm_num⟩
  have hv : ∀ (P : ZMod 101) (k : Nat), 1 ≤ k → ofBe (toBe k P.val) = P.val := fun P k hk =>
    ofBe_toBe _ _ (lt_of_lt_of_le (ZMod.val_lt P)
      (le_trans (by norm_num : 101 ≤ 256 ^ 1) (Nat.pow_le_pow_right (by norm_num) hk)))
  { n_lt := by norm_num
    n_odd := by norm_num
    base := 1
    base_ne := by decide +kernel
    ser := fun P => 2 :: toBe 32 P.val
    serLong := fun P => 4 :: toBe 64 P.val
    parse := fun b =>
      if (b.length = 33 ∨ b.length = 65) ∧ 0 < ofBe (b.drop 1) ∧ ofBe (b.drop 1) < 101 then
        some ((ofBe (b.drop 1) : Nat) : ZMod 101) else none
    ser_length := fun P => by simp
    serLong_length := fun P => by simp
    parse_ser := fun P h => by
      have h0 : 0 < P.val := Nat.pos_of_ne_zero (fun h' => h ((ZMod.val_eq_zero P).mp h'))
      simp only [List.drop_succ_cons, List.drop_zero, hv P 32 (by norm_num), List.length_cons, toBe_length]
      rw [if_pos ⟨by simp, h0, ZMod.val_lt P⟩, ZMod.natCast_zmod_val]
    parse_serLong := fun P h => by
      have h0 : 0 < P.val := Nat.pos_of_ne_zero (fun h' => h ((ZMod.val_eq_zero P).mp h'))
      simp only [List.drop_succ_cons, List.drop_zero, hv P 64 (by norm_num), List.length_cons, toBe_length]
      rw [if_pos ⟨by simp, h0, ZMod.val_lt P⟩, ZMod.natCast_zmod_val]
    parse_ne := fun b P h => by
      by_cases hc : (b.length = 33 ∨ b.length = 65) ∧ 0 < ofBe (b.drop 1) ∧ ofBe (b.drop 1) < 101
      · rw [if_pos hc] at h
        cases h
        intro h0
        have := (ZMod.natCast_eq_zero_iff _ _).mp h0
        exact absurd (Nat.le_of_dvd hc.2.1 this) (by omega)
      · rw [if_neg hc] at h
        cases h
    xBytes := fun P => toBe 32 (P * P).val
    xBytes_length := fun P => by simp
    xBytes_neg := fun P => by rw [neg_mul_neg]
    sha256 := fun b => toBe 32 (b.sum.toNat % 101)
    sha256_length := fun b => by simp
    chacha := fun b => (b ++ List.replicate 32 3).take 32
    chacha_length := fun b => by simp
    nonce := fun h d => if ((ofBe h : Nat) : ZMod 101) + d = 0 then 2 else 1
    nonce_ne := fun h d _ => by split <;> decide +kernel
    nonce_r := fun h d _ => by
      rw [hv _ 32 (by norm_num), ZMod.natCast_zmod_val]
      split <;> decide +kernel
    nonce_s := fun h d hd => by
      rw [hv _ 32 (by norm_num), ZMod.natCast_zmod_val]
      by_cases hc : ((ofBe h : Nat) : ZMod 101) + d = 0
      · rw [if_pos hc]
        have e : ((ofBe h : Nat) : ZMod 101) + (2 : ZMod 101) • (1 : ZMod 101) * (2 : ZMod 101) • (1 : ZMod 101) * d =
            (((ofBe h : Nat) : ZMod 101) + d) + 3 * d := by
          simp only [smul_eq_mul]
          ring
        rw [e, hc, zero_add]
        exact mul_ne_zero (by decide +kernel) hd
      · rw [if_neg hc]
        simpa using hc }

instance : Fact (Nat.Prime 101) := ⟨by norm_num⟩

/-- C150: a concrete key signs, and the signature is refused for another message. -/
example : (do
    let k ← toySecp.keypair (List.replicate 32 1) none
    let sig ← toySecp.sign [9] k.2
    let a ← toySecp.verify [9] sig k.1
    let b ← toySecp.verify [11] sig k.1
    pure (a, b)) = .ok (true, false) := by decide +kernel

/-- C152: a signature with a high second number is refused and accepted after normalizing. -/
example : (do
    let k ← toySecp.keypair (List.replicate 32 1) none
    let sig ← toySecp.sign [9] k.2
    let twin := sig.take 32 ++ toBe 32 (101 - sigS sig)
    let sig' ← normalizeS 101 twin
    let a ← toySecp.verify [9] twin k.1
    let b ← toySecp.verify [9] sig' k.1
    pure (a, b, decide (sig' = sig))) = .ok (false, true, true) := by decide +kernel

/-- C155, C156: two keys for which the two builds disagree. -/
example : (do
    let k ← toySecp.keypair (List.replicate 32 1) none
    let k' ← toySecp.keypair (List.replicate 32 1) (some (.useSeed (List.replicate 32 5)))
    let a ← toySecp.sharedNative k.2 k'.1
    let b ← toySecp.sharedPure k'.2 k.1
    pure (decide (a = b))) = .ok false := by decide +kernel

/-- C153: a long key is parsed. -/
example : toySecp.parse (4 :: toBe 64 7) = some 7 := by decide +kernel

end Verif.Sig
