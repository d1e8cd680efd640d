import Verif.Sig.Ed25519
import Mathlib.GroupTheory.OrderOfElement
import Mathlib.Data.ZMod.Basic
import Mathlib.Algebra.Field.ZMod
import Mathlib.Tactic.Abel
import Mathlib.Tactic.Module
import Mathlib.Tactic.LinearCombination

/-!
# C139–C144: Ed25519 signatures

C139: signatures verify.  C140: what verification accepts, what is refused and how.  C141: a signature cannot be changed.
C142: a signature is bound to its message.  C143: private keys whose halves do not fit.  C144: the public key of a signer.
-/

set_option linter.unusedSectionVars false

namespace Verif.Sig

variable {Pt : Type} [AddCommGroup Pt] (D : Dalek Pt)

/-! ## Specification -/

/-- The verification equation of Ed25519 (RFC 8032, without cofactor): the challenge is the hash of the first half of the
signature, the public key as given and the message. -/
def Dalek.challenge (sig pk message : Bytes) : Nat := ofLe (D.sha512 (sig.take 32 ++ pk ++ message)) % D.ell

/-- A valid signature: 64 bytes, the public key is a point `A`, the second half is a number `s` below the order of the
base point, and the first half is the encoding of `s B - c A`. -/
def Dalek.Valid (message sig pk : Bytes) : Prop :=
  ∃ A, D.dec pk = some A ∧ sig.length = 64 ∧ ofLe (sig.drop 32) < D.ell ∧
    D.enc (ofLe (sig.drop 32) • D.base - D.challenge sig pk message • A) = sig.take 32

/-! ## The order of the base point -/

theorem Dalek.order : addOrderOf D.base = D.ell :=
  haveI := Fact.mk D.ell_prime
  addOrderOf_eq_prime D.ell_base D.base_ne

theorem Dalek.smul_mod (n : Nat) : (n % D.ell) • D.base = n • D.base := by
  rw [← D.order]
  exact mod_addOrderOf_nsmul D.base n

theorem Dalek.smul_inj {m n : Nat} : m • D.base = n • D.base ↔ m ≡ n [MOD D.ell] := by
  rw [← D.order]
  exact nsmul_eq_nsmul_iff_modEq

theorem Dalek.smul_inj_lt {m n : Nat} (hm : m < D.ell) (hn : n < D.ell) (h : m • D.base = n • D.base) : m = n := by
  have := D.smul_inj.mp h
  unfold Nat.ModEq at this
  rwa [Nat.mod_eq_of_lt hm, Nat.mod_eq_of_lt hn] at this

theorem Dalek.enc_inj {P Q : Pt} (h : D.enc P = D.enc Q) : P = Q := by
  have := D.dec_enc P
  rw [h, D.dec_enc] at this
  exact (Option.some.inj this).symm

theorem Dalek.ell_pos : 0 < D.ell := D.ell_prime.pos

/-! ## C140 -/

/-- C140: verification accepts exactly the valid signatures; everything else is an error, never `Ok(false)` and never a
panic. A public key that is not a point and a signature that is not 64 bytes long are parse errors. -/
theorem verify_iff (message sig pk : Bytes) :
    (D.verify message sig pk = .ok true ↔ D.Valid message sig pk) ∧
    (¬ D.Valid message sig pk → D.verify message sig pk = .err .parseError ∨
      D.verify message sig pk = .err .signingError) ∧
    ((D.dec pk = none ∨ sig.length ≠ 64) → D.verify message sig pk = .err .parseError) := by
  unfold Dalek.verify Dalek.Valid Dalek.pkFromBytes
  cases hp : D.dec pk with
  | none => simp
  | some A =>
    simp only [Option.map_some, Res.ofOption_some, Res.ok_bind, Option.some.injEq, exists_eq_left', reduceCtorEq,
      false_or]
    unfold Dalek.sigParse
    by_cases hl : sig.length = 64
    · rw [if_pos hl]
      by_cases ht : D.strictParse && decide (2 ^ 253 ≤ ofLe (sig.drop 32))
      · rw [if_pos ht]
        simp only [Res.ofOption_none, Res.err_bind]
        have hbig : 2 ^ 253 ≤ ofLe (sig.drop 32) := by
          simp only [Bool.and_eq_true, decide_eq_true_eq] at ht
          exact ht.2
        have hell := D.ell_lt
        refine ⟨?_, by simp, by simp⟩
        constructor
        · intro h
          cases h
        · rintro ⟨-, h, -⟩
          omega
      · rw [if_neg ht]
        simp only [Res.ofOption_some, Res.ok_bind]
        by_cases hv : D.pkVerify (pk, A) message sig
        · rw [if_pos hv]
          have hv' := hv
          simp only [Dalek.pkVerify, Bool.and_eq_true, decide_eq_true_eq] at hv'
          refine ⟨⟨fun _ => ⟨hl, hv'.1, hv'.2⟩, fun _ => rfl⟩, ?_, ?_⟩
          · intro h
            exact absurd ⟨hl, hv'.1, hv'.2⟩ h
          · intro h
            exact absurd hl h
        · rw [if_neg hv]
          have hv' := hv
          simp only [Dalek.pkVerify, Bool.and_eq_true, decide_eq_true_eq] at hv'
          refine ⟨⟨?_, ?_⟩, fun _ => Or.inr rfl, fun h => absurd hl h⟩
          · intro h
            cases h
          · rintro ⟨-, h1, h2⟩
            exact absurd ⟨h1, h2⟩ hv'
    · rw [if_neg hl]
      simp [hl]

/-- C140, signing: a signature of 64 bytes exactly if the private key has 64 bytes and its second half is a point;
otherwise an error of key generation. -/
theorem sign_iff (message sk : Bytes) :
    (sk.length = 64 ∧ (∃ A, D.dec (sk.drop 32) = some A) → ∃ sig, D.sign message sk = .ok sig ∧ sig.length = 64) ∧
    (¬ (sk.length = 64 ∧ ∃ A, D.dec (sk.drop 32) = some A) → D.sign message sk = .err .keyGenError) := by
  unfold Dalek.sign Dalek.keypairFromBytes Dalek.pkFromBytes
  by_cases hl : sk.length = 64
  · rw [if_pos hl]
    cases hp : D.dec (sk.drop 32) with
    | none => simp
    | some A => simp [hl, Dalek.keypairSign, D.enc_length]
  · rw [if_neg hl]
    simp [hl]

/-- C140, loading: likewise; the private key is returned as given and the public key is its second half. -/
theorem load_iff (os sk : Bytes) :
    (sk.length = 64 ∧ (∃ A, D.dec (sk.drop 32) = some A) →
      D.keypair os (some (.fromSecretKey sk)) = .ok (sk.drop 32, sk)) ∧
    (¬ (sk.length = 64 ∧ ∃ A, D.dec (sk.drop 32) = some A) →
      D.keypair os (some (.fromSecretKey sk)) = .err .keyGenError) := by
  unfold Dalek.keypair Dalek.keypairFromBytes Dalek.pkFromBytes
  by_cases hl : sk.length = 64
  · cases hp : D.dec (sk.drop 32) with
    | none => simp [hl, hp]
    | some A => simp [hl, hp, Keypair.toBytes]
  · simp [hl]

/-! ## C139 -/

/-- The shape of a generated key pair. -/
theorem generated (os : Bytes) (hos : os.length = 32) (o : Option KeyGenOption) (ho : ∀ sk, o ≠ some (.fromSecretKey sk)) :
    ∃ secret, secret.length = 32 ∧ D.keypair os o = .ok (D.publicOf secret, secret ++ D.publicOf secret) := by
  cases o with
  | none => exact ⟨os, hos, rfl⟩
  | some o =>
    cases o with
    | useSeed s => exact ⟨D.chacha ((D.sha256 s).take 32), D.chacha_length _, rfl⟩
    | fromSecretKey sk => exact absurd rfl (ho sk)

theorem publicOf_length (secret : Bytes) : (D.publicOf secret).length = 32 := D.enc_length _

theorem keypairFromBytes_append (secret pk : Bytes) (hs : secret.length = 32) (A : Pt) (hA : D.dec pk = some A) :
    D.keypairFromBytes (secret ++ pk) = some ⟨secret, pk⟩ := by
  have hl := D.dec_length _ _ hA
  unfold Dalek.keypairFromBytes Dalek.pkFromBytes
  rw [if_pos (by simp [hs, hl]), List.drop_left' hs, List.take_left' hs, hA]
  rfl

/-- The signature made with a secret and a public key `A` (that need not be its own). -/
theorem sign_append (message secret pk : Bytes) (hs : secret.length = 32) (A : Pt) (hA : D.dec pk = some A) :
    D.sign message (secret ++ pk) = .ok (D.keypairSign ⟨secret, pk⟩ message) := by
  unfold Dalek.sign
  rw [keypairFromBytes_append D secret pk hs A hA]

theorem keypairSign_parts (secret pk message : Bytes) :
    ∃ r, r < D.ell ∧ r = D.hashScalar ((D.sha512 secret).drop 32 ++ message) ∧
      (D.keypairSign ⟨secret, pk⟩ message).take 32 = D.enc (r • D.base) ∧
      (D.keypairSign ⟨secret, pk⟩ message).length = 64 ∧
      ofLe ((D.keypairSign ⟨secret, pk⟩ message).drop 32) =
        (D.challenge (D.keypairSign ⟨secret, pk⟩ message) pk message * D.secretScalar secret + r) % D.ell := by
  refine ⟨D.hashScalar ((D.sha512 secret).drop 32 ++ message), Nat.mod_lt _ D.ell_pos, rfl, ?_⟩
  have ht : (D.keypairSign ⟨secret, pk⟩ message).take 32 =
      D.enc (D.hashScalar ((D.sha512 secret).drop 32 ++ message) • D.base) := List.take_left' (D.enc_length _)
  refine ⟨ht, by simp [Dalek.keypairSign, D.enc_length], ?_⟩
  unfold Dalek.challenge
  rw [ht]
  unfold Dalek.keypairSign
  simp only
  rw [List.drop_left' (D.enc_length _), ofLe_toLe]
  · rfl
  · have := Nat.mod_lt (D.hashScalar (D.enc (D.hashScalar ((D.sha512 secret).drop 32 ++ message) • D.base) ++ pk ++
      message) * D.secretScalar secret + D.hashScalar ((D.sha512 secret).drop 32 ++ message)) D.ell_pos
    have hell := D.ell_lt
    have : (2 : Nat) ^ 253 ≤ 256 ^ 32 := by norm_num
    omega

/-- Signing and the equation: the signature made with `secret` and the public key `A` is valid for `A` exactly if the
challenge times the difference of `A` and the point of the secret is zero. -/
theorem sign_valid_iff (message secret pk : Bytes) (A : Pt) (hA : D.dec pk = some A) :
    D.Valid message (D.keypairSign ⟨secret, pk⟩ message) pk ↔
      D.challenge (D.keypairSign ⟨secret, pk⟩ message) pk message • (D.secretScalar secret • D.base - A) = 0 := by
  obtain ⟨r, hr, -, hR, hl, hs⟩ := keypairSign_parts D secret pk message
  unfold Dalek.Valid
  rw [hs, hR]
  generalize D.challenge (D.keypairSign ⟨secret, pk⟩ message) pk message = c
  constructor
  · rintro ⟨A', hA', -, -, he⟩
    rw [hA] at hA'
    cases hA'
    have := D.enc_inj he
    rw [D.smul_mod, add_smul, mul_smul] at this
    rw [smul_sub]
    have h2 : c • D.secretScalar secret • D.base - c • A = (c • D.secretScalar secret • D.base + r • D.base - c • A) - r • D.base := by
      abel
    rw [h2, this, sub_self]
  · intro h
    refine ⟨A, hA, hl, Nat.mod_lt _ D.ell_pos, ?_⟩
    congr 1
    rw [D.smul_mod, add_smul, mul_smul]
    rw [smul_sub] at h
    have h2 : c • D.secretScalar secret • D.base + r • D.base - c • A =
        (c • D.secretScalar secret • D.base - c • A) + r • D.base := by abel
    rw [h2, h, zero_add]

/-- C139: for every key pair that was generated, from a seed or not, and every message, signing succeeds and the signature
verifies. -/
theorem ed25519_sign_verify (os : Bytes) (hos : os.length = 32) (o : Option KeyGenOption)
    (ho : ∀ sk, o ≠ some (.fromSecretKey sk)) (message pk sk : Bytes) (hk : D.keypair os o = .ok (pk, sk)) :
    ∃ sig, D.sign message sk = .ok sig ∧ sig.length = 64 ∧ D.verify message sig pk = .ok true := by
  obtain ⟨secret, hs, hk'⟩ := generated D os hos o ho
  rw [hk'] at hk
  cases hk
  have hA : D.dec (D.publicOf secret) = some (D.secretScalar secret • D.base) := D.dec_enc _
  refine ⟨_, sign_append D message secret _ hs _ hA, ?_, ?_⟩
  · obtain ⟨r, -, -, -, hl, -⟩ := keypairSign_parts D secret (D.publicOf secret) message
    exact hl
  · apply (verify_iff D _ _ _).1.mpr
    rw [sign_valid_iff D message secret _ _ hA, sub_self, smul_zero]

/-- C139, loading: a generated private key has 64 bytes, the public key 32, and loading the private key gives the same
pair. -/
theorem ed25519_reload (os os' : Bytes) (hos : os.length = 32) (o : Option KeyGenOption)
    (ho : ∀ sk, o ≠ some (.fromSecretKey sk)) (pk sk : Bytes) (hk : D.keypair os o = .ok (pk, sk)) :
    pk.length = 32 ∧ sk.length = 64 ∧ D.keypair os' (some (.fromSecretKey sk)) = .ok (pk, sk) ∧
      D.signerPublicKey os' sk = .ok pk := by
  obtain ⟨secret, hs, hk'⟩ := generated D os hos o ho
  rw [hk'] at hk
  cases hk
  have hl : (secret ++ D.publicOf secret).length = 64 := by simp [hs, publicOf_length]
  have h := (load_iff D os' (secret ++ D.publicOf secret)).1 ⟨hl, by
    rw [List.drop_left' hs]
    exact ⟨_, D.dec_enc _⟩⟩
  rw [List.drop_left' hs] at h
  refine ⟨publicOf_length D secret, hl, h, ?_⟩
  unfold Dalek.signerPublicKey
  rw [h]

/-- C139, expansion of key material: an error below 32 bytes; otherwise the pair of the first 32 bytes, whose signatures
verify; a key pair from a seed is the expansion of the generator's output for the hash of the seed. -/
theorem ed25519_expand (ikm message os : Bytes) :
    (ikm.length < 32 → D.expandKeypair ikm = .err .parseError) ∧
    (32 ≤ ikm.length → ∃ pk sk sig, D.expandKeypair ikm = .ok (pk, sk) ∧ D.expandKeypair (ikm.take 32) = .ok (pk, sk) ∧
      D.keypair os (some (.fromSecretKey sk)) = .ok (pk, sk) ∧
      D.sign message sk = .ok sig ∧ D.verify message sig pk = .ok true) ∧
    (∀ seed, D.keypair os (some (.useSeed seed)) = D.expandKeypair (D.chacha (D.sha256 seed))) := by
  refine ⟨fun h => by simp [Dalek.expandKeypair, h], ?_, ?_⟩
  · intro h
    have hs : (ikm.take 32).length = 32 := by simp [h]
    have hn : ¬ ikm.length < 32 := by omega
    have hA : D.dec (D.publicOf (ikm.take 32)) = some (D.secretScalar (ikm.take 32) • D.base) := D.dec_enc _
    have hload := (load_iff D os (ikm.take 32 ++ D.publicOf (ikm.take 32))).1 ⟨by simp [h, publicOf_length], by
      rw [List.drop_left' hs]
      exact ⟨_, hA⟩⟩
    rw [List.drop_left' hs] at hload
    refine ⟨D.publicOf (ikm.take 32), ikm.take 32 ++ D.publicOf (ikm.take 32), _, by simp [Dalek.expandKeypair, hn],
      ?_, hload, sign_append D message _ _ hs _ hA, ?_⟩
    · unfold Dalek.expandKeypair
      rw [if_neg (by omega), List.take_take, min_self]
    · apply (verify_iff D _ _ _).1.mpr
      rw [sign_valid_iff D message _ _ _ hA, sub_self, smul_zero]
  · intro seed
    have h1 : (D.sha256 seed).take 32 = D.sha256 seed := List.take_of_length_le (le_of_eq (D.sha256_length _))
    have h2 : (D.chacha (D.sha256 seed)).take 32 = D.chacha (D.sha256 seed) :=
      List.take_of_length_le (le_of_eq (D.chacha_length _))
    unfold Dalek.keypair Dalek.expandKeypair Dalek.keypairGenerate
    rw [if_neg (by rw [D.chacha_length]; omega), h2]
    simp only [h1, Keypair.toBytes]

/-! ## C141 -/

/-- C141: two accepted signatures of the same message for the same key with the same first half are equal. -/
theorem ed25519_not_malleable (message sig sig' pk : Bytes) (h : D.verify message sig pk = .ok true)
    (h' : D.verify message sig' pk = .ok true) (hR : sig.take 32 = sig'.take 32) : sig = sig' := by
  obtain ⟨A, hA, hl, hs, he⟩ := (verify_iff D _ _ _).1.mp h
  obtain ⟨A', hA', hl', hs', he'⟩ := (verify_iff D _ _ _).1.mp h'
  rw [hA] at hA'
  cases hA'
  have hc : D.challenge sig' pk message = D.challenge sig pk message := by unfold Dalek.challenge; rw [hR]
  rw [hc, ← hR] at he'
  have := D.enc_inj (he.trans he'.symm)
  have hb : ofLe (sig.drop 32) • D.base = ofLe (sig'.drop 32) • D.base := sub_left_injective this
  have hv := D.smul_inj_lt hs hs' hb
  have hd : sig.drop 32 = sig'.drop 32 := by
    have e := toLe_ofLe (sig.drop 32)
    have e' := toLe_ofLe (sig'.drop 32)
    rw [List.length_drop, hl] at e
    rw [List.length_drop, hl', ← hv] at e'
    rw [← e, ← e']
  rw [← List.take_append_drop 32 sig, ← List.take_append_drop 32 sig', hR, hd]

/-- C141: the second half plus the order of the base point is refused, and so is every other number above the order. -/
theorem ed25519_large_s_refused (message sig pk : Bytes) (h : D.ell ≤ ofLe (sig.drop 32)) :
    D.verify message sig pk ≠ .ok true := by
  intro hv
  obtain ⟨A, -, -, hs, -⟩ := (verify_iff D _ _ _).1.mp hv
  omega

/-- C141, knowledge of the key: whoever gives two accepted signatures with the same first half for different challenges
gives the private scalar: for a public key `a B` it is `(s - s') / (c - c')` modulo the order. -/
theorem ed25519_extract (message message' sig sig' pk : Bytes) (a : Nat) (hpk : D.dec pk = some (a • D.base))
    (h : D.verify message sig pk = .ok true) (h' : D.verify message' sig' pk = .ok true)
    (hR : sig.take 32 = sig'.take 32) (hc : D.challenge sig pk message ≠ D.challenge sig' pk message') :
    (a : ZMod D.ell) = ((ofLe (sig.drop 32) : ZMod D.ell) - ofLe (sig'.drop 32)) *
      ((D.challenge sig pk message : ZMod D.ell) - D.challenge sig' pk message')⁻¹ := by
  haveI := Fact.mk D.ell_prime
  obtain ⟨A, hA, hl, hs, he⟩ := (verify_iff D _ _ _).1.mp h
  obtain ⟨A', hA', hl', hs', he'⟩ := (verify_iff D _ _ _).1.mp h'
  rw [hpk] at hA hA'
  cases hA
  cases hA'
  have hp := D.enc_inj (he.trans (hR.trans he'.symm))
  have hcl : D.challenge sig pk message < D.ell := Nat.mod_lt _ D.ell_pos
  have hcl' : D.challenge sig' pk message' < D.ell := Nat.mod_lt _ D.ell_pos
  generalize D.challenge sig pk message = c at *
  generalize D.challenge sig' pk message' = c' at *
  generalize ofLe (sig.drop 32) = s at *
  generalize ofLe (sig'.drop 32) = s' at *
  have h1 : (s + c' * a) • D.base = (s' + c * a) • D.base := by
    rw [add_smul, add_smul, mul_smul, mul_smul]
    have e1 : s • D.base + c' • a • D.base = (s • D.base - c • a • D.base) + (c • a • D.base + c' • a • D.base) := by abel
    have e2 : s' • D.base + c • a • D.base = (s' • D.base - c' • a • D.base) + (c • a • D.base + c' • a • D.base) := by abel
    rw [e1, e2, hp]
  have h2 := (ZMod.natCast_eq_natCast_iff _ _ D.ell).mpr (D.smul_inj.mp h1)
  push_cast at h2
  have hne : (c : ZMod D.ell) - c' ≠ 0 := by
    intro h0
    have h3 : (c : ZMod D.ell) = c' := sub_eq_zero.mp h0
    have h4 := (ZMod.natCast_eq_natCast_iff _ _ D.ell).mp h3
    unfold Nat.ModEq at h4
    rw [Nat.mod_eq_of_lt hcl, Nat.mod_eq_of_lt hcl'] at h4
    exact hc h4
  rw [eq_mul_inv_iff_mul_eq₀ hne]
  linear_combination -h2

/-! ## C142 -/

/-- C142: for a public key that is a multiple of the base point other than zero, one signature is accepted for two
messages only if the hashes of the first half, the public key and the message agree modulo the order. -/
theorem ed25519_message_binding_partial (message message' sig pk : Bytes) (a : Nat) (hpk : D.dec pk = some (a • D.base))
    (ha : ¬ D.ell ∣ a) (h : D.verify message sig pk = .ok true) (h' : D.verify message' sig pk = .ok true) :
    ofLe (D.sha512 (sig.take 32 ++ pk ++ message)) % D.ell = ofLe (D.sha512 (sig.take 32 ++ pk ++ message')) % D.ell := by
  by_contra hc
  haveI := Fact.mk D.ell_prime
  have := ed25519_extract D message message' sig sig pk a hpk h h' rfl hc
  rw [sub_self, zero_mul] at this
  exact ha ((ZMod.natCast_eq_zero_iff _ _).mp this)

/-- C142: the public scalar of a generated key is a multiple of 8 between 2^254 and 2^255. -/
theorem secretScalar_shape (secret : Bytes) :
    8 ∣ D.secretScalar secret ∧ 2 ^ 254 ≤ D.secretScalar secret ∧ D.secretScalar secret < 2 ^ 255 :=
  clamp_scalar _ (by simp [D.sha512_length])

/-- C142 fails for the public key that is the neutral element: for every number `s` below the order, the signature that
consists of the encoding of `s B` and `s` is accepted for every message. -/
theorem neutral_key_accepts_all (message : Bytes) (s : Nat) (hs : s < D.ell) :
    D.verify message (D.enc (s • D.base) ++ toLe 32 s) (D.enc 0) = .ok true := by
  apply (verify_iff D _ _ _).1.mpr
  refine ⟨0, D.dec_enc 0, by simp [D.enc_length], ?_, ?_⟩
  · rw [List.drop_left' (D.enc_length _), ofLe_toLe]
    · exact hs
    · have hell := D.ell_lt
      have : (2 : Nat) ^ 253 ≤ 256 ^ 32 := by norm_num
      omega
  · rw [List.drop_left' (D.enc_length _), List.take_left' (D.enc_length _), ofLe_toLe]
    · rw [smul_zero, sub_zero]
    · have hell := D.ell_lt
      have : (2 : Nat) ^ 253 ≤ 256 ^ 32 := by norm_num
      omega

/-! ## C143 -/

/-- C143 fails: a private key made of any 32 bytes and any point is loaded and used for signing. -/
theorem mismatched_key_accepted (os message secret pk : Bytes) (hs : secret.length = 32) (A : Pt) (hA : D.dec pk = some A) :
    D.keypair os (some (.fromSecretKey (secret ++ pk))) = .ok (pk, secret ++ pk) ∧
    ∃ sig, D.sign message (secret ++ pk) = .ok sig ∧
      (D.verify message sig pk = .ok true ↔ D.challenge sig pk message • (D.secretScalar secret • D.base - A) = 0) := by
  have hl := D.dec_length _ _ hA
  have h := (load_iff D os (secret ++ pk)).1 ⟨by simp [hs, hl], by
    rw [List.drop_left' hs]
    exact ⟨_, hA⟩⟩
  rw [List.drop_left' hs] at h
  refine ⟨h, _, sign_append D message secret pk hs A hA, ?_⟩
  rw [(verify_iff D _ _ _).1, sign_valid_iff D message secret pk A hA]

/-- C143: if such a key is used once for the same message as the right one, the two signatures give the private scalar:
the first halves are equal and the scalar is `(s - s') / (c - c')` modulo the order. -/
theorem mismatched_key_reveals (message secret pk : Bytes) (hs : secret.length = 32) (A : Pt) (hA : D.dec pk = some A)
    (sig sig' : Bytes) (h : D.sign message (secret ++ D.publicOf secret) = .ok sig)
    (h' : D.sign message (secret ++ pk) = .ok sig')
    (hc : D.challenge sig (D.publicOf secret) message ≠ D.challenge sig' pk message) :
    sig.take 32 = sig'.take 32 ∧
    (D.secretScalar secret : ZMod D.ell) = ((ofLe (sig.drop 32) : ZMod D.ell) - ofLe (sig'.drop 32)) *
      ((D.challenge sig (D.publicOf secret) message : ZMod D.ell) - D.challenge sig' pk message)⁻¹ := by
  haveI := Fact.mk D.ell_prime
  rw [sign_append D message secret (D.publicOf secret) hs (D.secretScalar secret • D.base) (D.dec_enc _)] at h
  rw [sign_append D message secret pk hs A hA] at h'
  cases h
  cases h'
  obtain ⟨r, hr, hre, hR, -, he⟩ := keypairSign_parts D secret (D.publicOf secret) message
  obtain ⟨r', hr', hre', hR', -, he'⟩ := keypairSign_parts D secret pk message
  rw [← hre] at hre'
  subst hre'
  refine ⟨hR.trans hR'.symm, ?_⟩
  have hcl : D.challenge (D.keypairSign ⟨secret, D.publicOf secret⟩ message) (D.publicOf secret) message < D.ell :=
    Nat.mod_lt _ D.ell_pos
  have hcl' : D.challenge (D.keypairSign ⟨secret, pk⟩ message) pk message < D.ell := Nat.mod_lt _ D.ell_pos
  rw [he, he']
  generalize D.challenge (D.keypairSign ⟨secret, D.publicOf secret⟩ message) (D.publicOf secret) message = c at *
  generalize D.challenge (D.keypairSign ⟨secret, pk⟩ message) pk message = c' at *
  have hne : (c : ZMod D.ell) - c' ≠ 0 := by
    intro h0
    have h3 : (c : ZMod D.ell) = c' := sub_eq_zero.mp h0
    have h4 := (ZMod.natCast_eq_natCast_iff _ _ D.ell).mp h3
    unfold Nat.ModEq at h4
    rw [Nat.mod_eq_of_lt hcl, Nat.mod_eq_of_lt hcl'] at h4
    exact hc h4
  rw [eq_mul_inv_iff_mul_eq₀ hne, ZMod.natCast_mod, ZMod.natCast_mod]
  push_cast
  ring

/-! ## C144 -/

/-- C144 fails: the public key of a signer is the second half of its private key, or the call panics where loading the key
gives an error. -/
theorem signer_public_key (os sk : Bytes) :
    D.signerPublicKey os sk = match D.keypair os (some (.fromSecretKey sk)) with
      | .ok (pk, _) => .ok pk
      | _ => .panic := by
  unfold Dalek.signerPublicKey
  cases D.keypair os (some (.fromSecretKey sk)) <;> rfl

theorem signer_panics (os sk : Bytes) (h : ¬ (sk.length = 64 ∧ ∃ A, D.dec (sk.drop 32) = some A)) :
    D.signerPublicKey os sk = .panic := by
  rw [signer_public_key, (load_iff D os sk).2 h]

theorem signer_public_key_partial (os sk : Bytes) (h : sk.length = 64 ∧ ∃ A, D.dec (sk.drop 32) = some A) :
    D.signerPublicKey os sk = .ok (sk.drop 32) := by
  rw [signer_public_key, (load_iff D os sk).1 h]

end Verif.Sig
