import Verif.FFI.Encryption
import Verif.Props.Symm

/-!
# C137, C138: the C interface of symmetric encryption

C137: what `ursa_encrypt` and `ursa_decrypt` return, for all arguments.
C138: what is encrypted through the C interface can be decrypted through it.
-/

set_option linter.unusedVariables false

namespace Verif.Symm

/-! ## Specification -/

/-- The code that the arguments alone give rise to: 11 for an unknown algorithm, 8 for a key and 9 for a nonce of another
length than the size functions report; `none` if there is nothing to complain about. -/
def argumentFault (P : Prims) (s : String) (key nonce : ByteArray) : Option Nat :=
  match [EncryptorType.Aes128CbcHmac256, .Aes256CbcHmac512, .Aes128Gcm, .Aes256Gcm, .XChaCha20Poly1305].find?
      (fun t => t.display = s) with
  | none => some 11
  | some t =>
    if (key.getD []).length ≠ ffiKeysize P t then some 8
    else match nonce with
      | some n => if n.length ≠ ffiNoncesize P t then some 9 else none
      | none => none

/-! ## The generic call -/

theorem fromStr_display (t : EncryptorType) : EncryptorType.fromStr t.display = .ok t := by
  cases t <;> rfl

theorem display_inj {t u : EncryptorType} (h : t.display = u.display) : t = u := by
  have := fromStr_display t
  rw [h, fromStr_display] at this
  exact (Res.ok.inj this).symm

theorem fromStr_cases (s : String) : (∃ t : EncryptorType, s = t.display ∧ EncryptorType.fromStr s = .ok t) ∨
    ((∀ t : EncryptorType, t.display ≠ s) ∧ ∃ e, EncryptorType.fromStr s = .err e) := by
  by_cases h : ∃ t : EncryptorType, s = t.display
  · obtain ⟨t, rfl⟩ := h
    exact Or.inl ⟨t, rfl, fromStr_display t⟩
  · refine Or.inr ⟨fun t ht => h ⟨t, ht.symm⟩, ?_⟩
    unfold EncryptorType.fromStr
    have h1 : ¬ s = "aes-128-cbc-hmac-256" := fun e => h ⟨.Aes128CbcHmac256, e⟩
    have h2 : ¬ s = "aes-256-cbc-hmac-512" := fun e => h ⟨.Aes256CbcHmac512, e⟩
    have h3 : ¬ s = "aes-128-gcm" := fun e => h ⟨.Aes128Gcm, e⟩
    have h4 : ¬ s = "aes-256-gcm" := fun e => h ⟨.Aes256Gcm, e⟩
    have h5 : ¬ s = "xchacha20poly1305" := fun e => h ⟨.XChaCha20Poly1305, e⟩
    rw [if_neg h1, if_neg h2, if_neg h3, if_neg h4, if_neg h5]
    exact ⟨_, rfl⟩

theorem fault_unknown (P : Prims) (s : String) (key nonce : ByteArray) (h : ∀ t : EncryptorType, t.display ≠ s) :
    argumentFault P s key nonce = some 11 := by
  simp [argumentFault, h]

theorem fault_known (P : Prims) (t : EncryptorType) (key nonce : ByteArray) :
    argumentFault P t.display key nonce =
      if (key.getD []).length ≠ ffiKeysize P t then some 8
      else match nonce with
        | some n => if n.length ≠ ffiNoncesize P t then some 9 else none
        | none => none := by
  have hf : [EncryptorType.Aes128CbcHmac256, .Aes256CbcHmac512, .Aes128Gcm, .Aes256Gcm, .XChaCha20Poly1305].find?
      (fun u => u.display = t.display) = some t := by
    have : (fun u : EncryptorType => decide (u.display = t.display)) = fun u => decide (u = t) := by
      funext u
      by_cases hu : u = t
      · simp [hu]
      · have : ¬ u.display = t.display := fun e => hu (display_inj e)
        simp [hu, this]
    rw [this]
    cases t <;> rfl
  unfold argumentFault
  rw [hf]

/-- The generic call: the fault of the arguments, or the operation. -/
theorem ffiCall_eq (P : Prims) (op : Cipher → Bytes → Bytes → Bytes → Bytes → Res Unit Bytes)
    (opEasy : Cipher → Bytes → Bytes → Bytes → Res Unit Bytes) (errCode : Nat) (s : String)
    (key nonce aad input : ByteArray) :
    (∀ c, argumentFault P s key nonce = some c → ffiCall P op opEasy errCode (.text s) key nonce aad input =
      .ok ⟨0, none, c⟩) ∧
    (argumentFault P s key nonce = none → ∃ t : EncryptorType, s = t.display ∧
      (key.getD []).length = ffiKeysize P t ∧ (∀ n, nonce = some n → n.length = ffiNoncesize P t) ∧
      ffiCall P op opEasy errCode (.text s) key nonce aad input = finishCall errCode
        (match nonce with
          | some n => op (t.cipher P) (key.getD []) n (aad.getD []) (input.getD [])
          | none => opEasy (t.cipher P) (key.getD []) (aad.getD []) (input.getD []))) := by
  rcases fromStr_cases s with ⟨t, rfl, ht⟩ | ⟨hs, e, he⟩
  · rw [fault_known]
    by_cases hk : (key.getD []).length = ffiKeysize P t
    · have hv : t.isValidKeysize P (ByteArray.toVec key).length = true := by
        simpa [EncryptorType.isValidKeysize, ByteArray.toVec, ffiKeysize] using hk
      have hg : t.genEncryptor P (ByteArray.toVec key) = .ok (key.getD []) := by
        unfold EncryptorType.genEncryptor newWithKey ByteArray.toVec
        rw [if_neg (by simpa [ffiKeysize] using hk)]
      cases nonce with
      | none =>
        refine ⟨by simp [hk], fun _ => ⟨t, rfl, hk, by simp, ?_⟩⟩
        simp only [ffiCall, ht, hv, hg, ByteArray.toOptVec]
        rfl
      | some n =>
        by_cases hn : n.length = ffiNoncesize P t
        · refine ⟨by simp [hk, hn], fun _ => ⟨t, rfl, hk, ?_, ?_⟩⟩
          · rintro n' h
            cases h
            exact hn
          · have hn' : (t.cipher P).nonceSize = n.length := hn.symm
            simp only [ffiCall, ht, hv, hg, ByteArray.toOptVec, hn', ne_eq, not_true, if_false]
            rfl
        · have hn' : (t.cipher P).nonceSize ≠ n.length := fun e => hn e.symm
          refine ⟨?_, by simp [hk, hn]⟩
          intro c hc
          simp only [hk, hn, ne_eq, not_true, not_false_iff, if_false, if_true, Option.some.injEq] at hc
          subst hc
          simp [ffiCall, ht, hv, hg, ByteArray.toOptVec, hn', INVALID_NONCE_LENGTH]
    · have hv : t.isValidKeysize P (ByteArray.toVec key).length = false := by
        simpa [EncryptorType.isValidKeysize, ByteArray.toVec, ffiKeysize] using hk
      refine ⟨?_, by simp [hk]⟩
      intro c hc
      simp only [hk, ne_eq, not_false_iff, if_true, Option.some.injEq] at hc
      subst hc
      simp [ffiCall, ht, hv, INVALID_KEY_LENGTH]
  · rw [fault_unknown P s key nonce hs]
    refine ⟨?_, by simp⟩
    intro c hc
    cases hc
    simp [ffiCall, he, INVALID_CIPHER]

theorem encrypt_ok (P : Prims) (t : EncryptorType) (k n a m : Bytes) : ∃ c, (t.cipher P).encrypt k n a m = .ok c := by
  cases t <;> exact ⟨_, rfl⟩

theorem decrypt_not_panic (P : Prims) (t : EncryptorType) (k n a m : Bytes) :
    (t.cipher P).decrypt k n a m ≠ .panic := by
  cases t
  · exact cbcHmacDecrypt_not_panic _ _ _ _ _ _ _ _
  · exact cbcHmacDecrypt_not_panic _ _ _ _ _ _ _ _
  · exact gcm_decrypt_not_panic _ _ _ _ _ _
  · exact gcm_decrypt_not_panic _ _ _ _ _ _
  · exact ofOption_not_panic _

/-! ## C137 -/

/-- C137, encryption: for every algorithm name that is a C string in UTF-8, every key, nonce, associated data and
plaintext, null or not, and every random nonce: if the arguments have a fault, 0 is returned, the error code names it and
the output is not written; otherwise 1 is returned and the output is the ciphertext, without an error. -/
theorem ursa_encrypt_status (P : Prims) (drawn : Bytes) (s : String) (key nonce aad input : ByteArray) :
    match argumentFault P s key nonce with
    | some c => ursaEncrypt P drawn (.text s) key nonce aad input = .ok ⟨0, none, c⟩
    | none => ∃ ct, ursaEncrypt P drawn (.text s) key nonce aad input = .ok ⟨1, some ct, 0⟩ := by
  obtain ⟨h1, h2⟩ := ffiCall_eq P encryptWith (fun C k a m => encryptEasy C k drawn a m) ENCRYPTION_ERROR s key nonce aad
    input
  cases hf : argumentFault P s key nonce with
  | some c => exact h1 c hf
  | none =>
    obtain ⟨t, -, -, hn, h⟩ := h2 hf
    show ∃ ct, ursaEncrypt P drawn (.text s) key nonce aad input = .ok ⟨1, some ct, 0⟩
    unfold ursaEncrypt
    rw [h]
    cases nonce with
    | some n =>
      obtain ⟨c, hc⟩ := encrypt_ok P t (key.getD []) n (aad.getD []) (input.getD [])
      refine ⟨c, ?_⟩
      simp only
      unfold encryptWith
      rw [if_neg (by simpa [ffiNoncesize] using hn n rfl), hc]
      rfl
    | none =>
      obtain ⟨c, hc⟩ := encrypt_ok P t (key.getD []) drawn (aad.getD []) (input.getD [])
      refine ⟨drawn ++ c, ?_⟩
      simp only
      unfold encryptEasy
      rw [hc]
      rfl

/-- C137, decryption: with a fault of the arguments as for encryption; otherwise either 1 is returned and the output is
written, without an error, or 0 is returned with the code 7 and the output is not written. -/
theorem ursa_decrypt_status (P : Prims) (s : String) (key nonce aad input : ByteArray) :
    match argumentFault P s key nonce with
    | some c => ursaDecrypt P (.text s) key nonce aad input = .ok ⟨0, none, c⟩
    | none => (∃ pt, ursaDecrypt P (.text s) key nonce aad input = .ok ⟨1, some pt, 0⟩) ∨
        ursaDecrypt P (.text s) key nonce aad input = .ok ⟨0, none, 7⟩ := by
  obtain ⟨h1, h2⟩ := ffiCall_eq P decryptWith decryptEasy DECRYPTION_ERROR s key nonce aad input
  cases hf : argumentFault P s key nonce with
  | some c => exact h1 c hf
  | none =>
    obtain ⟨t, -, -, hn, h⟩ := h2 hf
    have key' : ∀ r : Res Unit Bytes, r ≠ .panic →
        (∃ pt, finishCall DECRYPTION_ERROR r = .ok ⟨1, some pt, 0⟩) ∨ finishCall DECRYPTION_ERROR r = .ok ⟨0, none, 7⟩ := by
      intro r hr
      cases r with
      | ok x => exact Or.inl ⟨x, rfl⟩
      | err e => exact Or.inr rfl
      | panic => exact absurd rfl hr
    show (∃ pt, ursaDecrypt P (.text s) key nonce aad input = .ok ⟨1, some pt, 0⟩) ∨
        ursaDecrypt P (.text s) key nonce aad input = .ok ⟨0, none, 7⟩
    unfold ursaDecrypt
    rw [h]
    apply key'
    cases nonce with
    | some n =>
      simp only
      unfold decryptWith
      rw [if_neg (by simpa [ffiNoncesize] using hn n rfl)]
      exact decrypt_not_panic P t _ _ _ _
    | none => exact (decrypt_easy_rejects_short P t _ _ _).1

/-- What the codes mean. -/
theorem argumentFault_spec (P : Prims) (s : String) (key nonce : ByteArray) :
    (argumentFault P s key nonce = some 11 ↔ ∀ t : EncryptorType, t.display ≠ s) ∧
    (argumentFault P s key nonce = some 8 ↔ ∃ t : EncryptorType, t.display = s ∧
      (key.getD []).length ≠ ffiKeysize P t) ∧
    (argumentFault P s key nonce = some 9 ↔ ∃ t : EncryptorType, t.display = s ∧
      (key.getD []).length = ffiKeysize P t ∧ ∃ n, nonce = some n ∧ n.length ≠ ffiNoncesize P t) ∧
    (∀ c, argumentFault P s key nonce = some c → c = 11 ∨ c = 8 ∨ c = 9) := by
  by_cases hs : ∃ t : EncryptorType, s = t.display
  · obtain ⟨t, rfl⟩ := hs
    have uniq : ∀ u : EncryptorType, u.display = t.display ↔ u = t := fun u => ⟨display_inj, fun h => h ▸ rfl⟩
    rw [fault_known]
    simp only [uniq, exists_eq_left]
    by_cases hk : (key.getD []).length = ffiKeysize P t
    · cases nonce with
      | none => simp [hk]
      | some n =>
        by_cases hn : n.length = ffiNoncesize P t
        · simp [hk, hn]
        · simp [hk, hn]
    · simp [hk]
  · have hs' : ∀ t : EncryptorType, t.display ≠ s := fun t h => hs ⟨t, h.symm⟩
    rw [fault_unknown P s key nonce hs']
    simp [hs']

/-- C137 fails for an algorithm that is null or not UTF-8: the call does not return an error but panics. -/
theorem null_algorithm_panics (P : Prims) (drawn : Bytes) (key nonce aad input : ByteArray) :
    ursaEncrypt P drawn .null key nonce aad input = .panic ∧
    ursaEncrypt P drawn .notUtf8 key nonce aad input = .panic ∧
    ursaDecrypt P .null key nonce aad input = .panic ∧
    ursaDecrypt P .notUtf8 key nonce aad input = .panic := ⟨rfl, rfl, rfl, rfl⟩

/-! ## C138 -/

/-- C138: for each algorithm, through the generic functions or those named after it, with an explicit nonce or none: what
is encrypted with a key of the reported size is decrypted to the plaintext, exactly if the plaintext is long enough (or
the cipher is XChaCha20-Poly1305 with an explicit nonce); for shorter ones decryption returns 0 with code 7. -/
theorem ffi_round_trip_partial (P : Prims) (hP : P.digestSizes) (t : EncryptorType) (drawn : Bytes)
    (hd : drawn.length = ffiNoncesize P t) (key aad input : ByteArray) (nonce : ByteArray)
    (hk : (key.getD []).length = ffiKeysize P t) (hn : ∀ n, nonce = some n → n.length = ffiNoncesize P t) :
    ∃ ct, aliasEncrypt P drawn t key nonce aad input = .ok ⟨1, some ct, 0⟩ ∧
      aliasDecrypt P t key nonce aad (some ct) =
        if t.minPlaintext ≤ (input.getD []).length ∨ (t = .XChaCha20Poly1305 ∧ nonce ≠ none)
        then .ok ⟨1, some (input.getD []), 0⟩ else .ok ⟨0, none, 7⟩ := by
  have hf : argumentFault P t.display key nonce = none := by
    rw [fault_known]
    cases nonce with
    | none => simp [hk]
    | some n => simp [hk, hn n rfl]
  have h2 := fun ct => (ffiCall_eq P decryptWith decryptEasy DECRYPTION_ERROR t.display key nonce aad (some ct)).2 hf
  obtain ⟨t', ht', -, -, h1⟩ := (ffiCall_eq P encryptWith (fun C k a m => encryptEasy C k drawn a m) ENCRYPTION_ERROR
    t.display key nonce aad input).2 hf
  cases display_inj ht'
  unfold aliasEncrypt aliasDecrypt ursaEncrypt ursaDecrypt
  rw [h1]
  cases nonce with
  | some n =>
    have hr := explicit_round_trip P hP t (key.getD []) n (aad.getD []) (input.getD []) (hn n rfl)
    obtain ⟨c, hc⟩ := encrypt_ok P t (key.getD []) n (aad.getD []) (input.getD [])
    have he : encryptWith (t.cipher P) (key.getD []) n (aad.getD []) (input.getD []) = .ok c := by
      unfold encryptWith
      rw [if_neg (by simpa [ffiNoncesize] using hn n rfl), hc]
    rw [he, Res.ok_bind] at hr
    refine ⟨c, by simp only [he]; rfl, ?_⟩
    obtain ⟨t', ht', -, -, h2⟩ := h2 c
    cases display_inj ht'
    rw [h2]
    simp only [Option.getD_some, hr, ne_eq, reduceCtorEq, not_false_iff, and_true]
    split <;> rfl
  | none =>
    have hr := easy_round_trip_partial P hP t (key.getD []) drawn (aad.getD []) (input.getD []) hd
    obtain ⟨c, hc⟩ := encrypt_ok P t (key.getD []) drawn (aad.getD []) (input.getD [])
    have he : encryptEasy (t.cipher P) (key.getD []) drawn (aad.getD []) (input.getD []) = .ok (drawn ++ c) := by
      unfold encryptEasy
      rw [hc]
      rfl
    unfold easyRoundTrip at hr
    rw [he, Res.ok_bind] at hr
    refine ⟨drawn ++ c, by simp only [he]; rfl, ?_⟩
    obtain ⟨t', ht', -, -, h2⟩ := h2 (drawn ++ c)
    cases display_inj ht'
    rw [h2]
    simp only [Option.getD_some, hr, ne_eq, not_true, and_false, or_false]
    split <;> rfl

/-- The two ways to call fit together: without a nonce, encryption gives the random nonce followed by what encryption with
this nonce gives. -/
theorem easy_is_nonce_then_explicit (P : Prims) (t : EncryptorType) (drawn : Bytes) (hd : drawn.length = ffiNoncesize P t)
    (key aad input : ByteArray) (hk : (key.getD []).length = ffiKeysize P t) :
    ∃ ct, aliasEncrypt P drawn t key (some drawn) aad input = .ok ⟨1, some ct, 0⟩ ∧
      aliasEncrypt P drawn t key none aad input = .ok ⟨1, some (drawn ++ ct), 0⟩ := by
  have hf : argumentFault P t.display key none = none := by rw [fault_known]; simp [hk]
  have hf' : argumentFault P t.display key (some drawn) = none := by rw [fault_known]; simp [hk, hd]
  have h := ffiCall_eq P encryptWith (fun C k a m => encryptEasy C k drawn a m) ENCRYPTION_ERROR t.display key
  obtain ⟨t1, ht1, -, -, h1⟩ := (h none aad input).2 hf
  cases display_inj ht1
  obtain ⟨t2, ht2, -, -, h2⟩ := (h (some drawn) aad input).2 hf'
  cases display_inj ht2
  obtain ⟨c, hc⟩ := encrypt_ok P t (key.getD []) drawn (aad.getD []) (input.getD [])
  unfold aliasEncrypt ursaEncrypt
  refine ⟨c, ?_, ?_⟩
  · rw [h2]
    simp only
    unfold encryptWith
    rw [if_neg (by simpa [ffiNoncesize] using hd), hc]
    rfl
  · rw [h1]
    simp only
    unfold encryptEasy
    rw [hc]
    rfl

/-- A null key, associated data or input is an empty one; a nonce that is empty but not null is refused. -/
theorem null_is_empty (P : Prims) (drawn : Bytes) (s : CText) (nonce : ByteArray) (key aad input : Bytes) :
    ursaEncrypt P drawn s none nonce none none = ursaEncrypt P drawn s (some []) nonce (some []) (some []) ∧
    ursaDecrypt P s none nonce none none = ursaDecrypt P s (some []) nonce (some []) (some []) := ⟨rfl, rfl⟩

theorem empty_nonce_refused (P : Prims) (drawn : Bytes) (t : EncryptorType) (key aad input : ByteArray)
    (hk : (key.getD []).length = ffiKeysize P t) :
    aliasEncrypt P drawn t key (some []) aad input = .ok ⟨0, none, 9⟩ := by
  have h := ursa_encrypt_status P drawn t.display key (some []) aad input
  have hf : argumentFault P t.display key (some []) = some 9 := by
    rw [fault_known, if_neg (by simpa using hk)]
    cases t <;> simp [ffiNoncesize, EncryptorType.cipher]
  rw [hf] at h
  exact h

/-- the sizes reported -/
theorem ffi_sizes (P : Prims) : ([.Aes128CbcHmac256, .Aes256CbcHmac512, .Aes128Gcm, .Aes256Gcm, .XChaCha20Poly1305] :
    List EncryptorType).map (fun t => (ffiKeysize P t, ffiNoncesize P t, ffiTagsize P t)) =
      [(32, 16, 32), (64, 16, 64), (16, 12, 16), (32, 12, 16), (32, 24, 16)] := rfl

/-- **C137** `random_bytes` returns as many bytes as asked for -/
theorem random_bytes_count (draw : Nat → Bytes) (hd : ∀ n, (draw n).length = n) (n : Nat) :
    ∃ bs, ffiRandomBytes draw n = ⟨1, some bs, 0⟩ ∧ bs.length = n := ⟨_, rfl, hd n⟩

/-! ## Examples -/

example : argumentFault toyPrims "aes-128-gcm" (some (List.replicate 16 7)) (some (List.replicate 12 1)) = none := by
  rw [show "aes-128-gcm" = EncryptorType.display .Aes128Gcm from rfl, fault_known]
  rfl

example : ∃ ct, aliasEncrypt toyPrims (List.replicate 12 1) .Aes128Gcm (some (List.replicate 16 7)) none none
    (some (List.replicate 20 5)) = .ok ⟨1, some ct, 0⟩ ∧
    aliasDecrypt toyPrims .Aes128Gcm (some (List.replicate 16 7)) none none (some ct) =
      .ok ⟨1, some (List.replicate 20 5), 0⟩ := by
  obtain ⟨ct, h1, h2⟩ := ffi_round_trip_partial toyPrims ⟨rfl, rfl⟩ .Aes128Gcm (List.replicate 12 1) rfl
    (some (List.replicate 16 7)) none (some (List.replicate 20 5)) none rfl (by simp)
  exact ⟨ct, h1, by rw [h2, if_pos (Or.inl (by decide))]; rfl⟩

end Verif.Symm
