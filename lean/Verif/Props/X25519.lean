import Verif.Props.Ed25519
import Mathlib.Tactic.NormNum.Prime

/-!
# C145–C149: X25519 key exchange, conversion of Ed25519 keys, the C interface of Ed25519

C145: converting keys.  C146: both sides compute the same secret.  C147: malformed keys.  C148: the remote key contributes.
C149: the C interface of Ed25519.
-/

namespace Verif.Sig

variable {Pt : Type} [AddCommGroup Pt] (D : Dalek Pt)

/-! ## C146 -/

/-- The shape of a key pair: the public key is the point of the clamped private key. -/
theorem xKeypair_shape (os : Bytes) (hos : os.length = 32) (o : Option KeyGenOption) (pk sk : Bytes)
    (h : D.xKeypair os o = .ok (pk, sk)) :
    sk.length = 32 ∧ clamp sk = sk ∧ pk = D.mont (ofLe sk • D.base) ∧ pk.length = 32 := by
  have key : ∀ b : Bytes, b.length = 32 → (D.xPublic (clamp b), clamp b) = (pk, sk) →
      sk.length = 32 ∧ clamp sk = sk ∧ pk = D.mont (ofLe sk • D.base) ∧ pk.length = 32 := by
    intro b hb he
    simp only [Prod.mk.injEq] at he
    obtain ⟨rfl, rfl⟩ := he
    exact ⟨by rw [clamp_length, hb], clamp_clamp b hb, rfl, D.mont_length _⟩
  cases o with
  | none => exact key os hos (Res.ok.inj h)
  | some o =>
    cases o with
    | useSeed s => exact key _ (D.chacha_length _) (Res.ok.inj h)
    | fromSecretKey s =>
      unfold Dalek.xKeypair arrayRef32 at h
      simp only at h
      by_cases hl : 32 ≤ s.length
      · rw [if_pos hl] at h
        exact key (s.take 32) (by simp [hl]) (Res.ok.inj h)
      · rw [if_neg hl] at h
        cases h

theorem arrayRef32_of_length {ε : Type} (b : Bytes) (h : b.length = 32) : (arrayRef32 b : Res ε Bytes) = .ok b := by
  unfold arrayRef32
  rw [if_pos (by omega), List.take_of_length_le (by omega)]

/-- C146: for all key pairs, generated, from a seed or loaded, both sides get the same session key of 32 bytes. -/
theorem x25519_agree (os os' : Bytes) (hos : os.length = 32) (hos' : os'.length = 32) (o o' : Option KeyGenOption)
    (pk sk pk' sk' : Bytes) (h : D.xKeypair os o = .ok (pk, sk)) (h' : D.xKeypair os' o' = .ok (pk', sk')) :
    ∃ key, D.xSharedSecret sk pk' = .ok key ∧ D.xSharedSecret sk' pk = .ok key ∧ key.length = 32 := by
  obtain ⟨hl, hc, hp, hpl⟩ := xKeypair_shape D os hos o pk sk h
  obtain ⟨hl', hc', hp', hpl'⟩ := xKeypair_shape D os' hos' o' pk' sk' h'
  refine ⟨D.sha256 (D.mont (ofLe sk • ofLe sk' • D.base)), ?_, ?_, D.sha256_length _⟩
  · unfold Dalek.xSharedSecret
    rw [arrayRef32_of_length sk hl, Res.ok_bind, arrayRef32_of_length pk' hpl', Res.ok_bind, hc, hp', D.ladder_mont]
  · unfold Dalek.xSharedSecret
    rw [arrayRef32_of_length sk' hl', Res.ok_bind, arrayRef32_of_length pk hpl, Res.ok_bind, hc', hp, D.ladder_mont,
      smul_comm]

/-- C146: loading the private key again gives the same pair. -/
theorem x25519_reload (os os' : Bytes) (hos : os.length = 32) (o : Option KeyGenOption) (pk sk : Bytes)
    (h : D.xKeypair os o = .ok (pk, sk)) : D.xKeypair os' (some (.fromSecretKey sk)) = .ok (pk, sk) := by
  obtain ⟨hl, hc, hp, -⟩ := xKeypair_shape D os hos o pk sk h
  unfold Dalek.xKeypair
  simp only
  rw [arrayRef32_of_length sk hl, Res.ok_bind, hc, hp]
  rfl

/-- C146, three parties: passing the ladder's result on, the order does not matter, for any remote key. -/
theorem x25519_ladder_order (sk sk' u : Bytes) :
    D.ladder (ofLe sk) (D.ladder (ofLe sk') u) = D.ladder (ofLe sk') (D.ladder (ofLe sk) u) := D.ladder_comm _ _ _

/-- C146: a pair is determined by the seed, and by the first 32 bytes of a loaded key with the clamped bits ignored. -/
theorem x25519_clamped_bits (os s s' : Bytes) (h : s.length = 32) (h' : s'.length = 32) (he : clamp s = clamp s') :
    D.xKeypair os (some (.fromSecretKey s)) = D.xKeypair os (some (.fromSecretKey s')) := by
  unfold Dalek.xKeypair
  simp only
  rw [arrayRef32_of_length s h, arrayRef32_of_length s' h', Res.ok_bind, Res.ok_bind, he]

/-! ## C147 -/

/-- C147 fails: keys that are too short are not refused with an error, the call panics; exactly then. -/
theorem x25519_short_keys_panic (os sk pk : Bytes) :
    (D.xKeypair os (some (.fromSecretKey sk)) = .panic ↔ sk.length < 32) ∧
    (D.xSharedSecret sk pk = .panic ↔ sk.length < 32 ∨ pk.length < 32) := by
  unfold Dalek.xKeypair Dalek.xSharedSecret arrayRef32
  by_cases h : 32 ≤ sk.length <;> by_cases h' : 32 ≤ pk.length <;> simp [h, h'] <;> omega

/-- C147 fails: of longer keys the first 32 bytes are used. -/
theorem x25519_long_keys_cut (os sk pk x y : Bytes) (hs : sk.length = 32) (hp : pk.length = 32) :
    D.xKeypair os (some (.fromSecretKey (sk ++ x))) = D.xKeypair os (some (.fromSecretKey sk)) ∧
    D.xSharedSecret (sk ++ x) (pk ++ y) = D.xSharedSecret sk pk := by
  have e : ∀ {ε : Type} (b z : Bytes), b.length = 32 → (arrayRef32 (b ++ z) : Res ε Bytes) = arrayRef32 b := by
    intro ε b z hb
    rw [arrayRef32_of_length b hb]
    unfold arrayRef32
    rw [if_pos (by simp [hb]), List.take_left' hb]
  unfold Dalek.xKeypair Dalek.xSharedSecret
  simp only
  rw [e _ _ hs, e _ _ hp]
  exact ⟨rfl, rfl⟩

/-- C147, what holds: no errors are ever returned, and keys of 32 bytes and more always give a result. -/
theorem x25519_total_partial (os sk pk : Bytes) (o : Option KeyGenOption) :
    (∀ e, D.xKeypair os o ≠ .err e) ∧ (∀ e, D.xSharedSecret sk pk ≠ .err e) ∧
    (32 ≤ sk.length → 32 ≤ pk.length → ∃ key, D.xSharedSecret sk pk = .ok key ∧ key.length = 32) := by
  refine ⟨?_, ?_, ?_⟩
  · intro e
    cases o with
    | none => simp [Dalek.xKeypair]
    | some o =>
      cases o with
      | useSeed s => simp [Dalek.xKeypair]
      | fromSecretKey s =>
        unfold Dalek.xKeypair arrayRef32
        by_cases h : 32 ≤ s.length <;> simp [h]
  · intro e
    unfold Dalek.xSharedSecret arrayRef32
    by_cases h : 32 ≤ sk.length <;> by_cases h' : 32 ≤ pk.length <;> simp [h, h']
  · intro h h'
    refine ⟨D.sha256 (D.ladder (ofLe (clamp (sk.take 32))) (pk.take 32)), ?_, D.sha256_length _⟩
    unfold Dalek.xSharedSecret arrayRef32
    rw [if_pos h, if_pos h']
    rfl

/-! ## C148 -/

/-- C148 fails: for the remote key of 32 zero bytes every private key gives the same session key, the hash of 32 zero
bytes, and the call succeeds. -/
theorem x25519_zero_key (sk : Bytes) (h : 32 ≤ sk.length) :
    D.xSharedSecret sk (List.replicate 32 0) = .ok (D.sha256 (List.replicate 32 0)) := by
  unfold Dalek.xSharedSecret arrayRef32
  have h0 : (List.replicate 32 (0 : UInt8)).take 32 = List.replicate 32 0 := List.take_of_length_le (by simp)
  rw [if_pos h, if_pos (by simp), h0, Res.ok_bind, Res.ok_bind, D.ladder_zero]

/-- C148, what holds: for a remote key that is a multiple `n B` of the base point, the points before the hash are equal
for two private keys only if the point is zero or the private keys agree modulo the order up to what the Montgomery form
forgets. -/
theorem x25519_contributes_partial (hmont : ∀ P Q, D.mont P = D.mont Q → P = Q ∨ P = -Q) (s s' n : Nat)
    (hn : ¬ D.ell ∣ n) (h : D.ladder s (D.mont (n • D.base)) = D.ladder s' (D.mont (n • D.base))) :
    D.ell ∣ s + s' ∨ s ≡ s' [MOD D.ell] := by
  rw [D.ladder_mont, D.ladder_mont] at h
  have hcop : Nat.Coprime D.ell n := (Nat.Prime.coprime_iff_not_dvd D.ell_prime).mpr hn
  rcases hmont _ _ h with h | h
  · right
    rw [← mul_smul, ← mul_smul] at h
    exact Nat.ModEq.cancel_right_of_coprime hcop (D.smul_inj.mp h)
  · left
    rw [← mul_smul, ← mul_smul, ← add_eq_zero_iff_eq_neg, ← add_smul, ← add_mul] at h
    have h2 : D.ell ∣ (s + s') * n := by
      rw [← D.order]
      exact addOrderOf_dvd_iff_nsmul_eq_zero.mpr h
    exact hcop.dvd_of_dvd_mul_right h2

/-! ## C145 -/

/-- C145: converting a generated Ed25519 key pair gives an X25519 key pair: the converted public key is the public key of
the converted private key. -/
theorem convert_commutes (os os' : Bytes) (hos : os.length = 32) (o : Option KeyGenOption)
    (ho : ∀ sk, o ≠ some (.fromSecretKey sk)) (pk sk : Bytes) (hk : D.keypair os o = .ok (pk, sk)) :
    ∃ xpk xsk, D.verKeyToKeyExchange pk = .ok xpk ∧ D.signKeyToKeyExchange sk = .ok xsk ∧
      D.xKeypair os' (some (.fromSecretKey xsk)) = .ok (xpk, xsk) := by
  obtain ⟨secret, hs, hk'⟩ := generated D os hos o ho
  rw [hk'] at hk
  cases hk
  have hl : ((D.sha512 secret).take 32).length = 32 := by simp [D.sha512_length]
  refine ⟨D.mont (D.secretScalar secret • D.base), clamp ((D.sha512 secret).take 32), ?_, ?_, ?_⟩
  · unfold Dalek.verKeyToKeyExchange Dalek.pkFromBytes
    have hA : D.dec (D.publicOf secret) = some (D.secretScalar secret • D.base) := D.dec_enc _
    rw [hA]
    simp [publicOf_length]
  · unfold Dalek.signKeyToKeyExchange
    rw [if_neg (by simp [hs]), List.take_left' hs]
  · unfold Dalek.xKeypair
    simp only
    rw [arrayRef32_of_length _ (by rw [clamp_length, hl]), Res.ok_bind, clamp_clamp _ hl]
    rfl

/-- C145: two parties that convert their Ed25519 keys agree on a session key. -/
theorem convert_agree (os1 os2 : Bytes) (h1 : os1.length = 32) (h2 : os2.length = 32) (o1 o2 : Option KeyGenOption)
    (ho1 : ∀ sk, o1 ≠ some (.fromSecretKey sk)) (ho2 : ∀ sk, o2 ≠ some (.fromSecretKey sk)) (pk1 sk1 pk2 sk2 : Bytes)
    (hk1 : D.keypair os1 o1 = .ok (pk1, sk1)) (hk2 : D.keypair os2 o2 = .ok (pk2, sk2)) :
    ∃ xpk1 xsk1 xpk2 xsk2 key, D.verKeyToKeyExchange pk1 = .ok xpk1 ∧ D.signKeyToKeyExchange sk1 = .ok xsk1 ∧
      D.verKeyToKeyExchange pk2 = .ok xpk2 ∧ D.signKeyToKeyExchange sk2 = .ok xsk2 ∧
      D.xSharedSecret xsk1 xpk2 = .ok key ∧ D.xSharedSecret xsk2 xpk1 = .ok key := by
  obtain ⟨xpk1, xsk1, a1, a2, a3⟩ := convert_commutes D os1 os1 h1 o1 ho1 pk1 sk1 hk1
  obtain ⟨xpk2, xsk2, b1, b2, b3⟩ := convert_commutes D os2 os2 h2 o2 ho2 pk2 sk2 hk2
  obtain ⟨key, c1, c2, -⟩ := x25519_agree D os1 os2 h1 h2 _ _ _ _ _ _ a3 b3
  exact ⟨xpk1, xsk1, xpk2, xsk2, key, a1, a2, b1, b2, c1, c2⟩

/-- C145: the conversions fail with a parse error, never with a panic, exactly for a public key that is not a point and a
private key below 32 bytes. -/
theorem convert_errors (k : Bytes) :
    (D.verKeyToKeyExchange k = match D.dec k with
      | some P => .ok (D.mont P)
      | none => .err .parseError) ∧
    (D.signKeyToKeyExchange k = .err .parseError ↔ k.length < 32) ∧
    (32 ≤ k.length → ∃ x, D.signKeyToKeyExchange k = .ok x ∧ x.length = 32) := by
  refine ⟨?_, ?_, ?_⟩
  · unfold Dalek.verKeyToKeyExchange Dalek.pkFromBytes
    cases h : D.dec k with
    | none => rfl
    | some P => simp [D.dec_length _ _ h]
  · unfold Dalek.signKeyToKeyExchange
    by_cases h : k.length < 32 <;> simp [h]
  · intro h
    unfold Dalek.signKeyToKeyExchange
    rw [if_neg (by omega)]
    exact ⟨_, rfl, by simp [D.sha512_length]⟩

/-! ## C149 -/

/-- C149, keys: new keys and keys from a seed always give 1, both keys and no error; the public key of a private key gives
1 and the public key, exactly if the private key can be loaded, otherwise 0 and code 1 and nothing is written. -/
theorem ffi_keys (os : Bytes) (seed sk : Option Bytes) :
    (∃ pk sk, D.keypair os none = .ok (pk, sk) ∧
      D.ffiKeypairNew os = .ok { value := 1, publicKey := some pk, privateKey := some sk, code := some 0 }) ∧
    (∃ pk sk, D.keypair os (some (.useSeed (seed.getD []))) = .ok (pk, sk) ∧
      D.ffiKeypairFromSeed os seed = .ok { value := 1, publicKey := some pk, privateKey := some sk, code := some 0 }) ∧
    (D.ffiGetPublicKey os sk = match D.keypair os (some (.fromSecretKey (sk.getD []))) with
      | .ok (pk, _) => .ok { value := 1, publicKey := some pk, code := some 0 }
      | _ => .ok { value := 0, code := some 1 }) := by
  refine ⟨⟨_, _, rfl, rfl⟩, ⟨_, _, rfl, rfl⟩, ?_⟩
  unfold Dalek.ffiGetPublicKey Dalek.ffiKeypairGen
  by_cases h : (sk.getD []).length = 64 ∧ ∃ A, D.dec ((sk.getD []).drop 32) = some A
  · rw [(load_iff D os _).1 h]
    rfl
  · rw [(load_iff D os _).2 h]

/-- C149, signing: 1, the signature and no error if the private key can be loaded, otherwise 0 and code 2 and nothing is
written. -/
theorem ffi_sign (message sk : Option Bytes) :
    (∃ sig, D.sign (message.getD []) (sk.getD []) = .ok sig ∧
      D.ffiSign message sk = .ok { value := 1, signature := some sig, code := some 0 }) ∨
    (D.sign (message.getD []) (sk.getD []) = .err .keyGenError ∧ D.ffiSign message sk = .ok { value := 0, code := some 2 }) := by
  unfold Dalek.ffiSign
  by_cases h : (sk.getD []).length = 64 ∧ ∃ A, D.dec ((sk.getD []).drop 32) = some A
  · obtain ⟨sig, hs, -⟩ := (sign_iff D (message.getD []) _).1 h
    rw [hs]
    exact Or.inl ⟨sig, rfl, rfl⟩
  · rw [(sign_iff D _ _).2 h]
    exact Or.inr ⟨rfl, rfl⟩

/-- C149, verification: 1 and no error exactly for the valid signatures, otherwise 0 and code 3. -/
theorem ffi_verify (message sig pk : Option Bytes) :
    (D.Valid (message.getD []) (sig.getD []) (pk.getD []) →
      D.ffiVerify message sig pk = .ok { value := 1, code := some 0 }) ∧
    (¬ D.Valid (message.getD []) (sig.getD []) (pk.getD []) →
      D.ffiVerify message sig pk = .ok { value := 0, code := some 3 }) := by
  obtain ⟨h1, h2, -⟩ := verify_iff D (message.getD []) (sig.getD []) (pk.getD [])
  unfold Dalek.ffiVerify
  constructor
  · intro h
    rw [h1.mpr h]
  · intro h
    rcases h2 h with h | h <;> rw [h]

/-- C149, together: keys from the C interface sign and verify through it. -/
theorem ffi_sign_verify (os : Bytes) (hos : os.length = 32) (seed message : Option Bytes) (r : FfiRet)
    (hr : D.ffiKeypairNew os = .ok r ∨ D.ffiKeypairFromSeed os seed = .ok r) :
    ∃ sig, D.ffiSign message r.privateKey = .ok { value := 1, signature := some sig, code := some 0 } ∧
      D.ffiVerify message (some sig) r.publicKey = .ok { value := 1, code := some 0 } ∧
      D.ffiGetPublicKey os r.privateKey = .ok { value := 1, publicKey := r.publicKey, code := some 0 } := by
  have key : ∀ o, (∀ sk, o ≠ some (.fromSecretKey sk)) → ∀ pk sk, D.keypair os o = .ok (pk, sk) →
      ∃ sig, D.ffiSign message (some sk) = .ok { value := 1, signature := some sig, code := some 0 } ∧
      D.ffiVerify message (some sig) (some pk) = .ok { value := 1, code := some 0 } ∧
      D.ffiGetPublicKey os (some sk) = .ok { value := 1, publicKey := some pk, code := some 0 } := by
    intro o ho pk sk hk
    obtain ⟨sig, h1, -, h2⟩ := ed25519_sign_verify D os hos o ho (message.getD []) pk sk hk
    obtain ⟨-, -, h3, -⟩ := ed25519_reload D os os hos o ho pk sk hk
    refine ⟨sig, ?_, ?_, ?_⟩
    · unfold Dalek.ffiSign
      rw [Option.getD_some, h1]
    · unfold Dalek.ffiVerify
      rw [Option.getD_some, Option.getD_some, h2]
    · rw [(ffi_keys D os none (some sk)).2.2, Option.getD_some, h3]
  obtain ⟨⟨pk, sk, e1, e2⟩, ⟨pk', sk', e1', e2'⟩, -⟩ := ffi_keys D os seed none
  rcases hr with hr | hr
  · rw [e2] at hr
    cases hr
    exact key none (by simp) pk sk e1
  · rw [e2'] at hr
    cases hr
    exact key _ (by simp) pk' sk' e1'

/-! ## Examples -/

/-- A toy instance: the group of order 101. -/
def toyDalek : Dalek (ZMod 101) where
  base := 1
  ell := 101
  ell_prime := by norm_num
  ell_lt := by norm_num
  ell_base := by decide +kernel
  base_ne := by decide +kernel
  enc P := toLe 32 P.val
  dec b := if b.length = 32 ∧ ofLe b < 101 then some (ofLe b : ZMod 101) else none
  enc_length _ := toLe_length _ _
  dec_enc P := by
    have h : P.val < 101 := ZMod.val_lt P
    have h2 : P.val < 256 ^ 32 := lt_trans h (by norm_num)
    rw [ofLe_toLe _ _ h2, if_pos ⟨toLe_length _ _, h⟩, ZMod.natCast_zmod_val]
  dec_length b P h := by
    by_contra hl
    rw [if_neg (by tauto)] at h
    cases h
  mont P := toLe 32 P.val
  mont_length _ := toLe_length _ _
  ladder n u := toLe 32 ((n * ofLe u : ZMod 101)).val
  ladder_length _ _ := toLe_length _ _
  ladder_mont n P := by
    have h : P.val < 101 := ZMod.val_lt P
    have h2 : P.val < 256 ^ 32 := lt_trans h (by norm_num)
    rw [ofLe_toLe _ _ h2, ZMod.natCast_zmod_val, nsmul_eq_mul]
  ladder_comm m n u := by
    have h : ∀ x : ZMod 101, ofLe (toLe 32 x.val) = x.val := fun x =>
      ofLe_toLe _ _ (lt_trans (ZMod.val_lt x) (by norm_num))
    simp only [h, ZMod.natCast_zmod_val]
    congr 2
    ring
  ladder_zero n := by
    have h : ofLe (List.replicate 32 0) = 0 := by decide +kernel
    rw [h]
    simp only [Nat.cast_zero, mul_zero, ZMod.val_zero]
    decide +kernel
  sha512 b := b.sum :: List.replicate 63 7
  sha512_length b := by simp
  sha256 b := (b ++ List.replicate 32 5).take 32
  sha256_length b := by simp
  chacha b := (b ++ List.replicate 32 3).take 32
  chacha_length b := by simp
  strictParse := true

/-- C139 and C149 on concrete keys. -/
example : ∃ pk sk sig, toyDalek.keypair (List.replicate 32 1) (some (.useSeed [1, 2, 3])) = .ok (pk, sk) ∧
    toyDalek.sign [9, 9] sk = .ok sig ∧ toyDalek.verify [9, 9] sig pk = .ok true := by
  have hk := (ffi_keys toyDalek (List.replicate 32 1) (some [1, 2, 3]) none).2.1
  obtain ⟨pk, sk, hk, -⟩ := hk
  obtain ⟨sig, h1, -, h2⟩ := ed25519_sign_verify toyDalek (List.replicate 32 1) (by simp) _ (by simp) [9, 9] pk sk hk
  exact ⟨pk, sk, sig, hk, h1, h2⟩

/-- C143: signing with a wrong public key gives a signature that is not accepted. -/
example : toyDalek.verify [9, 9] (toyDalek.keypairSign ⟨List.replicate 32 1, toLe 32 2⟩ [9, 9]) (toLe 32 2) =
    .err .signingError := by decide +kernel

/-- C143: the hypothesis of `mismatched_key_reveals` is met. -/
example : toyDalek.challenge (toyDalek.keypairSign ⟨List.replicate 32 1, toyDalek.publicOf (List.replicate 32 1)⟩ [9, 9])
      (toyDalek.publicOf (List.replicate 32 1)) [9, 9] ≠
    toyDalek.challenge (toyDalek.keypairSign ⟨List.replicate 32 1, toLe 32 2⟩ [9, 9]) (toLe 32 2) [9, 9] := by
  have h : ∀ n : Nat, toyDalek.enc (n • toyDalek.base) = toLe 32 (n : ZMod 101).val := by
    intro n
    show toLe 32 (ZMod.val (n • (1 : ZMod 101))) = _
    rw [nsmul_eq_mul, mul_one]
  unfold Dalek.publicOf
  rw [h]
  decide +kernel

/-- C142: one message is accepted and another refused, for a key that is a multiple of the base point. -/
example : ∃ sig, toyDalek.verify [9] sig (toLe 32 2) = .ok true ∧ toyDalek.verify [8] sig (toLe 32 2) ≠ .ok true ∧
    toyDalek.dec (toLe 32 2) = some (2 • toyDalek.base) ∧ ¬ toyDalek.ell ∣ 2 := by
  refine ⟨toLe 32 1 ++ toLe 32 (((2 * (toyDalek.challenge (toLe 32 1) (toLe 32 2) [9] : Nat) + 1 : Nat) : ZMod 101)).val,
    ?_, ?_, ?_, ?_⟩ <;> decide +kernel

/-- C145, C146 on concrete keys. -/
example : ∃ pk sk pk' sk' key, toyDalek.xKeypair (List.replicate 32 1) none = .ok (pk, sk) ∧
    toyDalek.xKeypair (List.replicate 32 1) (some (.useSeed [4])) = .ok (pk', sk') ∧ sk ≠ sk' ∧
    toyDalek.xSharedSecret sk pk' = .ok key ∧ toyDalek.xSharedSecret sk' pk = .ok key := by
  obtain ⟨key, h1, h2, -⟩ := x25519_agree toyDalek (List.replicate 32 1) (List.replicate 32 1) (by simp) (by simp) none
    (some (.useSeed [4])) _ _ _ _ rfl rfl
  exact ⟨_, _, _, _, key, rfl, rfl, by decide +kernel, h1, h2⟩

/-- C148: the Montgomery form of the toy group forgets nothing. -/
example : ∀ P Q : ZMod 101, toyDalek.mont P = toyDalek.mont Q → P = Q ∨ P = -Q := by
  intro P Q h
  left
  have h2 : ∀ x : ZMod 101, ofLe (toLe 32 x.val) = x.val := fun x =>
    ofLe_toLe _ _ (lt_trans (ZMod.val_lt x) (by norm_num))
  have := congrArg ofLe h
  have e : ∀ x : ZMod 101, ofLe (toyDalek.mont x) = x.val := h2
  rw [e, e] at this
  exact ZMod.val_injective 101 this

end Verif.Sig
