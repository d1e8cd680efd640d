import Verif.Symm.Model
import Mathlib.Tactic.IntervalCases
/-!
# Properties of the symmetric encryption suite (C36–C38, C71–C74)
-/
set_option linter.unusedSimpArgs false
namespace Verif.Symm
open Verif

/-! ## CBC with PKCS#7 -/

theorem blocks_flatten : ∀ (n : Nat) (l : Bytes), l.length = 16 * n → (blocks n l).flatten = l
  | 0, l, h => by simpa [blocks, eq_comm] using h
  | n + 1, l, h => by
    have : (l.drop 16).length = 16 * n := by simp; omega
    simp [blocks, blocks_flatten n _ this]

theorem blocks_mem : ∀ (n : Nat) (l : Bytes), l.length = 16 * n → ∀ b ∈ blocks n l, b.length = 16
  | 0, _, _ => by simp [blocks]
  | n + 1, l, h => by
    have : (l.drop 16).length = 16 * n := by simp; omega
    intro b hb
    rcases List.mem_cons.mp (by simpa only [blocks] using hb) with rfl | hb
    · simp; omega
    · exact blocks_mem n _ this b hb

theorem blocks_length : ∀ (n : Nat) (l : Bytes), (blocks n l).length = n
  | 0, _ => rfl
  | n + 1, l => by simp [blocks, blocks_length n]

theorem flatten_length16 : ∀ bs : List Bytes, (∀ b ∈ bs, b.length = 16) → bs.flatten.length = 16 * bs.length
  | [], _ => rfl
  | b :: bs, h => by
    have h1 := h b (by simp)
    have h2 := flatten_length16 bs (fun c hc => h c (by simp [hc]))
    simp only [List.flatten_cons, List.length_append, List.length_cons]; omega

theorem blocks_of_flatten : ∀ bs : List Bytes, (∀ b ∈ bs, b.length = 16) → blocks bs.length bs.flatten = bs
  | [], _ => rfl
  | b :: bs, h => by
    have h1 := h b (by simp)
    have h2 := blocks_of_flatten bs (fun c hc => h c (by simp [hc]))
    simp only [List.length_cons, List.flatten_cons, blocks]
    rw [List.take_left' h1, List.drop_left' h1, h2]

theorem xorB_length (a b : Bytes) (ha : a.length = 16) (hb : b.length = 16) : (xorB a b).length = 16 := by
  simp [xorB, ha, hb]

theorem xorB_cancel : ∀ a b : Bytes, a.length = b.length → xorB a (xorB a b) = b
  | [], [], _ => rfl
  | x :: a, y :: b, h => by
    have h' : a.length = b.length := by simpa using h
    have ih : List.zipWith (· ^^^ ·) a (List.zipWith (· ^^^ ·) a b) = b := xorB_cancel a b h'
    simp [xorB, ← UInt8.xor_assoc, ih]

theorem cbcEncBlocks_mem (bc : BlockCipher) (k : Bytes) : ∀ (bs : List Bytes) (iv : Bytes), iv.length = 16 →
    (∀ b ∈ bs, b.length = 16) → ∀ c ∈ cbcEncBlocks bc k iv bs, c.length = 16
  | [], _, _, _ => by simp [cbcEncBlocks]
  | b :: bs, iv, hiv, h => by
    have hc : (bc.enc k (xorB iv b)).length = 16 := bc.enc_length _ _ (xorB_length _ _ hiv (h b (by simp)))
    intro c hmem
    rcases List.mem_cons.mp (by simpa only [cbcEncBlocks] using hmem) with rfl | hmem
    · exact hc
    · exact cbcEncBlocks_mem bc k bs _ hc (fun d hd => h d (by simp [hd])) c hmem

theorem cbcEncBlocks_length (bc : BlockCipher) (k : Bytes) : ∀ (bs : List Bytes) (iv : Bytes),
    (cbcEncBlocks bc k iv bs).length = bs.length
  | [], _ => rfl
  | b :: bs, iv => by simp [cbcEncBlocks, cbcEncBlocks_length bc k bs]

theorem cbcDec_cbcEnc (bc : BlockCipher) (k : Bytes) : ∀ (bs : List Bytes) (iv : Bytes), iv.length = 16 →
    (∀ b ∈ bs, b.length = 16) → cbcDecBlocks bc k iv (cbcEncBlocks bc k iv bs) = bs
  | [], _, _, _ => rfl
  | b :: bs, iv, hiv, h => by
    have hb := h b (by simp)
    have hx := xorB_length _ _ hiv hb
    have hc : (bc.enc k (xorB iv b)).length = 16 := bc.enc_length _ _ hx
    simp only [cbcEncBlocks, cbcDecBlocks]
    rw [bc.dec_enc _ _ hx, xorB_cancel _ _ (by rw [hiv, hb]),
      cbcDec_cbcEnc bc k bs _ hc (fun d hd => h d (by simp [hd]))]

theorem pad_length (m : Bytes) : (pad m).length = 16 * (m.length / 16 + 1) := by
  simp [pad]; omega

theorem unpad_pad (m : Bytes) : unpad (pad m) = some m := by
  have hd : 1 ≤ 16 - m.length % 16 ∧ 16 - m.length % 16 ≤ 16 := by omega
  unfold pad
  generalize 16 - m.length % 16 = d at hd
  obtain ⟨e, rfl⟩ : ∃ e, d = e + 1 := ⟨d - 1, by omega⟩
  have hn : (UInt8.ofNat (e + 1)).toNat = e + 1 := by
    rw [UInt8.toNat_ofNat']; omega
  have hlast : (m ++ List.replicate (e + 1) (UInt8.ofNat (e + 1))).getLast? = some (UInt8.ofNat (e + 1)) := by
    simp [List.replicate_succ']
  have hlen : (m ++ List.replicate (e + 1) (UInt8.ofNat (e + 1))).length - (e + 1) = m.length := by simp
  unfold unpad
  rw [hlast]
  simp only [hn, hlen]
  rw [if_neg (by simp), List.drop_left' rfl, if_pos (by simp), List.take_left' rfl]

/-- Removing the padding succeeds exactly on a message followed by `n` bytes of value `n`, for some `n` from 1 to 255 (the block size is
not an upper limit). -/
theorem unpad_spec (c m : Bytes) :
    unpad c = some m ↔ ∃ n : Nat, 1 ≤ n ∧ n ≤ 255 ∧ c = m ++ List.replicate n (UInt8.ofNat n) := by
  constructor
  · intro h
    unfold unpad at h
    cases hl : c.getLast? with
    | none => rw [hl] at h; simp at h
    | some n =>
      rw [hl] at h
      simp only at h
      split_ifs at h with h1 h2
      rw [not_or] at h1
      simp only [Option.some.injEq] at h
      have hn := n.toNat_lt
      refine ⟨n.toNat, by omega, by omega, ?_⟩
      have hrep : c.drop (c.length - n.toNat) = List.replicate n.toNat (UInt8.ofNat n.toNat) := by
        rw [List.eq_replicate_iff]
        refine ⟨by rw [List.length_drop]; omega, fun b hb => ?_⟩
        have := List.all_eq_true.1 h2 b hb
        rw [UInt8.ofNat_toNat]
        simpa using this
      rw [← h, ← hrep, List.take_append_drop]
  · rintro ⟨n, h1, h2, rfl⟩
    obtain ⟨e, rfl⟩ : ∃ e, n = e + 1 := ⟨n - 1, by omega⟩
    have hn : (UInt8.ofNat (e + 1)).toNat = e + 1 := by
      rw [UInt8.toNat_ofNat']; omega
    have hlast : (m ++ List.replicate (e + 1) (UInt8.ofNat (e + 1))).getLast? = some (UInt8.ofNat (e + 1)) := by
      simp [List.replicate_succ']
    have hlen : (m ++ List.replicate (e + 1) (UInt8.ofNat (e + 1))).length - (e + 1) = m.length := by simp
    unfold unpad
    rw [hlast]
    simp only [hn, hlen]
    rw [if_neg (by simp), List.drop_left' rfl, if_pos (by simp), List.take_left' rfl]

/-- The length of a CBC ciphertext: the plaintext rounded up to the next multiple of 16, always growing. -/
theorem cbcEncrypt_length (bc : BlockCipher) (k iv m : Bytes) (hiv : iv.length = 16) :
    (cbcEncrypt bc k iv m).length = 16 * (m.length / 16 + 1) := by
  have hp := pad_length m
  have hq : (pad m).length / 16 = m.length / 16 + 1 := by omega
  unfold cbcEncrypt
  rw [flatten_length16 _ (cbcEncBlocks_mem bc k _ iv hiv (blocks_mem _ _ (by rw [hq]; exact hp))),
    cbcEncBlocks_length, blocks_length, hq]

/-- CBC decryption inverts CBC encryption for every key, 16-byte nonce and message. -/
theorem cbc_round_trip (bc : BlockCipher) (k iv m : Bytes) (hiv : iv.length = 16) :
    cbcDecrypt bc k iv (cbcEncrypt bc k iv m) = some m := by
  have hp := pad_length m
  have hq : (pad m).length / 16 = m.length / 16 + 1 := by omega
  have hl := cbcEncrypt_length bc k iv m hiv
  have hmem := blocks_mem (m.length / 16 + 1) (pad m) hp
  have hc := cbcEncBlocks_mem bc k (blocks (m.length / 16 + 1) (pad m)) iv hiv hmem
  have hb := blocks_of_flatten _ hc
  rw [cbcEncBlocks_length, blocks_length] at hb
  unfold cbcDecrypt
  rw [if_neg (by omega), hl, Nat.mul_div_cancel_left _ (by decide)]
  unfold cbcEncrypt
  rw [hq, hb, cbcDec_cbcEnc bc k _ iv hiv hmem, blocks_flatten _ _ hp, unpad_pad]

/-! ## Concrete primitives, used to show that the contracts can be met -/

/-- a toy block cipher: mask with 16 bytes derived from the key -/
def toyBlock : BlockCipher where
  enc := fun k b => b.map (fun x => x + (k.headD 7))
  dec := fun k b => b.map (fun x => x - (k.headD 7))
  enc_length := by simp
  dec_enc := by
    intro k b _
    rw [List.map_map, List.map_congr_left (g := id) (fun x _ => by simp), List.map_id]

/-- a toy MAC of `n` bytes: every byte is the sum of the bytes of key and message -/
def toyMac (n : Nat) : Mac where
  tag := fun k m => List.replicate n ((k ++ m).foldl (· + ·) 0)
  size := n
  tag_length := by simp

/-- a toy AEAD: the message followed by 16 bytes computed from everything -/
def toyAead : AeadPrim where
  enc := fun k n a m => m ++ List.replicate 16 ((k ++ n ++ a ++ m).foldl (· + ·) 0)
  dec := fun k n a c =>
    if c.length < 16 then none
    else if c.drop (c.length - 16) = List.replicate 16 ((k ++ n ++ a ++ c.take (c.length - 16)).foldl (· + ·) 0)
      then some (c.take (c.length - 16)) else none
  enc_length := by simp
  dec_enc := by
    intro k n a m
    rw [if_neg (by simp), List.length_append, List.length_replicate, Nat.add_sub_cancel,
      List.take_left' rfl, List.drop_left' rfl, if_pos rfl]
  dec_short := by intro k n a c h; simp [h]

/-! ## C36: round trip of `encrypt_easy` / `decrypt_easy` -/

/-- what a caller observes who encrypts and then decrypts with the same key and associated data -/
def easyRoundTrip (C : Cipher) (key nonce aad plaintext : Bytes) : Res Unit Bytes := do
  let c ← encryptEasy C key nonce aad plaintext
  decryptEasy C key aad c

theorem cbcHmac_decrypt_encrypt (bc : BlockCipher) (mac : Mac) (ak : Nat) (key nonce aad pt : Bytes)
    (hn : nonce.length = 16) :
    (cbcHmacEncrypt bc mac ak key nonce aad pt >>= cbcHmacDecrypt bc mac ak mac.size key nonce aad) =
      if 16 * (pt.length / 16 + 1) < ak then .err () else .ok pt := by
  have hl := cbcEncrypt_length bc (key.take ak) nonce pt hn
  simp only [cbcHmacEncrypt, Res.ok_bind]
  unfold cbcHmacDecrypt
  have hlen : (cbcEncrypt bc (key.take ak) nonce pt ++
      mac.tag (key.drop ak) (aad ++ nonce ++ cbcEncrypt bc (key.take ak) nonce pt)).length =
      16 * (pt.length / 16 + 1) + mac.size := by
    rw [List.length_append, mac.tag_length, hl]
  rw [hlen]
  by_cases h : 16 * (pt.length / 16 + 1) < ak
  · rw [if_pos (by omega), if_pos h]
  · rw [if_neg (by omega), if_neg h]
    simp only []
    rw [Nat.add_sub_cancel, List.take_left' hl, List.drop_left' hl, if_pos rfl, cbc_round_trip _ _ _ _ hn]
    rfl

/-- AES-128-CBC with HMAC-SHA-256: `decrypt_easy` returns the plaintext, whatever its length. -/
theorem easy_round_trip_aes128_cbc_hmac256 (bc : BlockCipher) (mac : Mac) (hm : mac.size = 32)
    (key nonce aad pt : Bytes) (hn : nonce.length = 16) :
    easyRoundTrip (aes128CbcHmac256 bc mac) key nonce aad pt = .ok pt := by
  have h := cbcHmac_decrypt_encrypt bc mac 16 key nonce aad pt hn
  rw [if_neg (by omega), hm] at h
  have hl := cbcEncrypt_length bc (key.take 16) nonce pt hn
  simp only [cbcHmacEncrypt, Res.ok_bind] at h
  simp only [easyRoundTrip, encryptEasy, aes128CbcHmac256, cbcHmac, cbcHmacEncrypt, Res.ok_bind, Res.pure_eq, decryptEasy]
  rw [if_neg, if_neg, List.take_left' hn, List.drop_left' hn]
  · exact h
  · simp only [List.length_append]; omega
  · simp only [List.length_append, mac.tag_length, hm, hl, hn]; omega

/-- AES-256-CBC with HMAC-SHA-512: `decrypt_easy` returns plaintexts of 16 bytes or more and rejects every shorter one. -/
theorem easy_round_trip_aes256_cbc_hmac512 (bc : BlockCipher) (mac : Mac) (hm : mac.size = 64)
    (key nonce aad pt : Bytes) (hn : nonce.length = 16) :
    easyRoundTrip (aes256CbcHmac512 bc mac) key nonce aad pt = if 16 ≤ pt.length then .ok pt else .err () := by
  have h := cbcHmac_decrypt_encrypt bc mac 32 key nonce aad pt hn
  rw [hm] at h
  have hl := cbcEncrypt_length bc (key.take 32) nonce pt hn
  simp only [cbcHmacEncrypt, Res.ok_bind] at h
  simp only [easyRoundTrip, encryptEasy, aes256CbcHmac512, cbcHmac, cbcHmacEncrypt, Res.ok_bind, Res.pure_eq, decryptEasy]
  rw [if_neg, if_neg, List.take_left' hn, List.drop_left' hn]
  · rw [h]
    by_cases hp : 16 ≤ pt.length
    · rw [if_neg (by omega), if_pos hp]
    · rw [if_pos (by omega), if_neg hp]
  · simp only [List.length_append]; omega
  · simp only [List.length_append, mac.tag_length, hm, hl, hn]; omega

/-- AES-GCM (either key size): `decrypt_easy` returns plaintexts of 12 bytes or more and rejects every shorter one. -/
theorem easy_round_trip_gcm (p : AeadPrim) (keySize : Nat) (key nonce aad pt : Bytes) (hn : nonce.length = 12) :
    easyRoundTrip (gcm p keySize) key nonce aad pt = if 12 ≤ pt.length then .ok pt else .err () := by
  have hl := p.enc_length key nonce aad pt
  simp only [easyRoundTrip, encryptEasy, gcm, Res.ok_bind, Res.pure_eq, decryptEasy, List.take_left' hn, List.drop_left' hn,
    List.length_append, hn, hl, p.dec_enc, Res.ofOption_some]
  by_cases h4 : pt.length < 4
  · rw [if_pos (by omega), if_neg (by omega)]
  · rw [if_neg (by omega), if_neg (by omega)]
    by_cases h : 12 ≤ pt.length
    · rw [if_neg (by omega), if_pos h]
    · rw [if_pos (by omega), if_neg h]

/-- ChaCha20-Poly1305: `decrypt_easy` returns plaintexts of 8 bytes or more and rejects every shorter one. -/
theorem easy_round_trip_chacha (p : AeadPrim) (key nonce aad pt : Bytes) (hn : nonce.length = 12) :
    easyRoundTrip (chaCha20Poly1305 p) key nonce aad pt = if 8 ≤ pt.length then .ok pt else .err () := by
  have hl := p.enc_length key nonce aad pt
  simp only [easyRoundTrip, encryptEasy, chaCha20Poly1305, Res.ok_bind, Res.pure_eq, decryptEasy, List.take_left' hn,
    List.drop_left' hn, List.length_append, hn, hl, p.dec_enc, Res.ofOption_some]
  by_cases h : 8 ≤ pt.length
  · rw [if_neg (by omega), if_neg (by omega), if_pos h]
  · rw [if_pos (by omega), if_neg h]

/-- XChaCha20-Poly1305: `decrypt_easy` returns plaintexts of 8 bytes or more and rejects every shorter one. -/
theorem easy_round_trip_xchacha (p : AeadPrim) (key nonce aad pt : Bytes) (hn : nonce.length = 24) :
    easyRoundTrip (xChaCha20Poly1305 p) key nonce aad pt = if 8 ≤ pt.length then .ok pt else .err () := by
  have hl := p.enc_length key nonce aad pt
  simp only [easyRoundTrip, encryptEasy, xChaCha20Poly1305, Res.ok_bind, Res.pure_eq, decryptEasy, List.take_left' hn,
    List.drop_left' hn, List.length_append, hn, hl, p.dec_enc, Res.ofOption_some]
  by_cases h : 8 ≤ pt.length
  · rw [if_neg (by omega), if_neg (by omega), if_pos h]
  · rw [if_pos (by omega), if_neg h]

/-- The length from which on a plaintext survives the round trip, for each selectable cipher. -/
def EncryptorType.minPlaintext : EncryptorType → Nat
  | .Aes128CbcHmac256 => 0
  | .Aes256CbcHmac512 => 16
  | .Aes128Gcm => 12
  | .Aes256Gcm => 12
  | .XChaCha20Poly1305 => 8

/-- the digest lengths of HMAC-SHA-256 and HMAC-SHA-512 -/
def Prims.digestSizes (P : Prims) : Prop := P.hmac256.size = 32 ∧ P.hmac512.size = 64

/-- C36 as it holds: for each of the five ciphers a caller can select, every key, every nonce of the right size, every
associated data and plaintext, encrypting and decrypting returns the plaintext exactly if it is long enough, and is an error
(never a wrong plaintext, never a panic) otherwise. -/
theorem easy_round_trip_partial (P : Prims) (hP : P.digestSizes) (t : EncryptorType) (key nonce aad pt : Bytes)
    (hn : nonce.length = (t.cipher P).nonceSize) :
    easyRoundTrip (t.cipher P) key nonce aad pt = if t.minPlaintext ≤ pt.length then .ok pt else .err () := by
  cases t
  · rw [show EncryptorType.minPlaintext .Aes128CbcHmac256 = 0 from rfl, if_pos (Nat.zero_le _)]
    exact easy_round_trip_aes128_cbc_hmac256 _ _ hP.1 key nonce aad pt hn
  · exact easy_round_trip_aes256_cbc_hmac512 _ _ hP.2 key nonce aad pt hn
  · exact easy_round_trip_gcm _ _ key nonce aad pt hn
  · exact easy_round_trip_gcm _ _ key nonce aad pt hn
  · exact easy_round_trip_xchacha _ key nonce aad pt hn

/-- C36 as stated fails: the empty plaintext does not survive AES-256-GCM, whatever the key and nonce. -/
theorem easy_round_trip_fails (p : AeadPrim) (key nonce aad : Bytes) (hn : nonce.length = 12) :
    easyRoundTrip (aes256Gcm p) key nonce aad [] ≠ .ok [] := by
  unfold aes256Gcm; rw [easy_round_trip_gcm p 32 key nonce aad [] hn]; simp

/-- `encrypt` / `decrypt` with an explicit nonce: the same thresholds for CBC-HMAC and GCM. -/
theorem explicit_round_trip (P : Prims) (hP : P.digestSizes) (t : EncryptorType) (key nonce aad pt : Bytes)
    (hn : nonce.length = (t.cipher P).nonceSize) :
    (encryptWith (t.cipher P) key nonce aad pt >>= decryptWith (t.cipher P) key nonce aad) =
      if t.minPlaintext ≤ pt.length ∨ t = .XChaCha20Poly1305 then .ok pt else .err () := by
  have he : encryptWith (t.cipher P) key nonce aad pt = (t.cipher P).encrypt key nonce aad pt := by
    simp [encryptWith, hn]
  have hd : decryptWith (t.cipher P) key nonce aad = (t.cipher P).decrypt key nonce aad := by
    funext c; simp [decryptWith, hn]
  rw [he, hd]
  clear he hd
  cases t
  · have h := cbcHmac_decrypt_encrypt P.aes128 P.hmac256 16 key nonce aad pt hn
    rw [if_neg (by omega), hP.1] at h
    simp only [EncryptorType.minPlaintext, Nat.zero_le, true_or, if_true]; exact h
  · have h := cbcHmac_decrypt_encrypt P.aes256 P.hmac512 32 key nonce aad pt hn
    rw [hP.2] at h
    simp only [EncryptorType.minPlaintext, reduceCtorEq, or_false]
    refine Eq.trans h ?_
    by_cases hp : 16 ≤ pt.length
    · rw [if_neg (by omega), if_pos hp]
    · rw [if_pos (by omega), if_neg hp]
  · simp only [EncryptorType.cipher, aes128Gcm, gcm, Res.ok_bind, P.gcm128.enc_length, P.gcm128.dec_enc, Res.ofOption_some,
      EncryptorType.minPlaintext, reduceCtorEq, or_false]
    by_cases hp : 12 ≤ pt.length
    · rw [if_neg (by omega), if_pos hp]
    · rw [if_pos (by omega), if_neg hp]
  · simp only [EncryptorType.cipher, aes256Gcm, gcm, Res.ok_bind, P.gcm256.enc_length, P.gcm256.dec_enc, Res.ofOption_some,
      EncryptorType.minPlaintext, reduceCtorEq, or_false]
    by_cases hp : 12 ≤ pt.length
    · rw [if_neg (by omega), if_pos hp]
    · rw [if_pos (by omega), if_neg hp]
  · simp only [EncryptorType.cipher, xChaCha20Poly1305, Res.ok_bind, P.xchacha.dec_enc, Res.ofOption_some, or_true, if_true]

/-- concrete primitives -/
def toyPrims : Prims := ⟨toyBlock, toyBlock, toyMac 32, toyMac 64, toyAead, toyAead, toyAead⟩

example : toyPrims.digestSizes := ⟨rfl, rfl⟩
example : easyRoundTrip (EncryptorType.cipher toyPrims .Aes256CbcHmac512) (List.replicate 64 3) (List.replicate 16 9) [1, 2]
    (List.replicate 20 5) = .ok (List.replicate 20 5) := by decide +kernel
example : easyRoundTrip (EncryptorType.cipher toyPrims .Aes256CbcHmac512) (List.replicate 64 3) (List.replicate 16 9) [1, 2]
    (List.replicate 15 5) = .err () := by decide +kernel

/-! ## C37: short and malformed ciphertexts -/

theorem ofOption_not_panic (o : Option Bytes) : Res.ofOption () o ≠ .panic := by cases o <;> simp

theorem decryptEasy_short (C : Cipher) (hmin : C.nonceSize ≤ C.minSize) (hnp : ∀ k n a m, C.decrypt k n a m ≠ .panic)
    (hs : ∀ k n a m, m.length < C.tagSize → C.decrypt k n a m = .err ()) (key aad ct : Bytes) :
    decryptEasy C key aad ct ≠ .panic ∧
    (ct.length < C.nonceSize + C.tagSize → decryptEasy C key aad ct = .err ()) := by
  unfold decryptEasy
  by_cases h1 : ct.length < C.minSize
  · simp [h1]
  · rw [if_neg h1, if_neg (by omega)]
    exact ⟨hnp _ _ _ _, fun h => hs _ _ _ _ (by rw [List.length_drop]; omega)⟩

theorem cbcHmacDecrypt_not_panic (bc : BlockCipher) (mac : Mac) (ak ts : Nat) (k n a m : Bytes) :
    cbcHmacDecrypt bc mac ak ts k n a m ≠ .panic := by
  unfold cbcHmacDecrypt
  split
  · simp
  · simp only []
    split
    · exact ofOption_not_panic _
    · simp

theorem cbcHmacDecrypt_short (bc : BlockCipher) (mac : Mac) (ak ts : Nat) (k n a m : Bytes) (h : m.length < ts) :
    cbcHmacDecrypt bc mac ak ts k n a m = .err () := by
  unfold cbcHmacDecrypt
  rw [if_pos (by omega)]

theorem gcm_decrypt_not_panic (p : AeadPrim) (ks : Nat) (k n a m : Bytes) : (gcm p ks).decrypt k n a m ≠ .panic := by
  change (if _ then _ else _) ≠ _
  split
  · simp
  · exact ofOption_not_panic _

theorem gcm_decrypt_short (p : AeadPrim) (ks : Nat) (k n a m : Bytes) (h : m.length < 16) :
    (gcm p ks).decrypt k n a m = .err () := by
  change (if _ then _ else _) = _
  rw [if_pos (by omega)]

/-- C37: `decrypt_easy` never panics and rejects every input shorter than nonce plus tag, for every cipher, key and
associated data. -/
theorem decrypt_easy_rejects_short (P : Prims) (t : EncryptorType) (key aad ct : Bytes) :
    decryptEasy (t.cipher P) key aad ct ≠ .panic ∧
    (ct.length < (t.cipher P).nonceSize + (t.cipher P).tagSize → decryptEasy (t.cipher P) key aad ct = .err ()) := by
  cases t
  · exact decryptEasy_short _ (by simp [EncryptorType.cipher]) (cbcHmacDecrypt_not_panic _ _ _ _) (cbcHmacDecrypt_short _ _ _ _) key aad ct
  · exact decryptEasy_short _ (by simp [EncryptorType.cipher]) (cbcHmacDecrypt_not_panic _ _ _ _) (cbcHmacDecrypt_short _ _ _ _) key aad ct
  · exact decryptEasy_short _ (by simp [EncryptorType.cipher]) (gcm_decrypt_not_panic _ _) (gcm_decrypt_short _ _) key aad ct
  · exact decryptEasy_short _ (by simp [EncryptorType.cipher]) (gcm_decrypt_not_panic _ _) (gcm_decrypt_short _ _) key aad ct
  · exact decryptEasy_short _ (by simp [EncryptorType.cipher]) (fun _ _ _ _ => ofOption_not_panic _)
      (fun k n a m h => by
        change Res.ofOption () (P.xchacha.dec k n a m) = _
        rw [P.xchacha.dec_short k n a m h]; rfl) key aad ct

/-- The same for the cipher that cannot be selected through `EncryptorType`. -/
theorem decrypt_easy_rejects_short_chacha (p : AeadPrim) (key aad ct : Bytes) :
    decryptEasy (chaCha20Poly1305 p) key aad ct ≠ .panic ∧
    (ct.length < 12 + 16 → decryptEasy (chaCha20Poly1305 p) key aad ct = .err ()) :=
  decryptEasy_short (chaCha20Poly1305 p) (by simp) (fun _ _ _ _ => ofOption_not_panic _)
    (fun k n a m h => by
      change Res.ofOption () (p.dec k n a m) = _
      rw [p.dec_short k n a m h]; rfl) key aad ct

/-- The two AES-CBC-HMAC, AES-GCM and XChaCha ciphers with their actual sizes: 48, 80, 28, 28 and 40 bytes are the bounds. -/
example (P : Prims) (ct : Bytes) (h : ct.length < 80) (key aad : Bytes) :
    decryptEasy (EncryptorType.cipher P .Aes256CbcHmac512) key aad ct = .err () :=
  (decrypt_easy_rejects_short P .Aes256CbcHmac512 key aad ct).2 h

/-! ## C38: associated data of AES-CBC-HMAC -/

/-- `decrypt_easy` of AES-CBC-HMAC accepts only if the last `TagSize` bytes are the MAC of associated data followed by
everything before them. -/
theorem cbcHmac_accept_tag (bc : BlockCipher) (mac : Mac) (ak ks ts : Nat) (key aad ct pt : Bytes)
    (h : decryptEasy (cbcHmac bc mac ak ks 16 ts) key aad ct = .ok pt) :
    mac.tag (key.drop ak) (aad ++ ct.take (ct.length - ts)) = ct.drop (ct.length - ts) := by
  simp only [decryptEasy, cbcHmac, cbcHmacDecrypt] at h
  split_ifs at h with h1 h2 h3 h4
  have h16 : ts + ak ≤ ct.length - 16 := by rw [List.length_drop] at h3; omega
  have e1 : ct.take 16 ++ (ct.drop 16).take ((ct.drop 16).length - ts) = ct.take (ct.length - ts) := by
    rw [List.length_drop, ← List.take_add]
    congr 1; omega
  have e2 : (ct.drop 16).drop ((ct.drop 16).length - ts) = ct.drop (ct.length - ts) := by
    rw [List.length_drop, List.drop_drop]
    congr 1; omega
  rw [e2, List.append_assoc, e1] at h4
  exact h4

/-- C38: if a ciphertext made for associated data `aad` is accepted under different associated data `aad'`, then the MAC
gives the same tag to the two different byte strings `aad ‖ nonce ‖ c` and `aad' ‖ nonce ‖ c`; so with a MAC that does not
collide on these two, the decryption is rejected. -/
theorem aad_authenticated (bc : BlockCipher) (mac : Mac) (ak ks : Nat) (key nonce aad aad' pt pt' ct : Bytes)
    (hn : nonce.length = 16)
    (henc : encryptEasy (cbcHmac bc mac ak ks 16 mac.size) key nonce aad pt = .ok ct) (hne : aad ≠ aad')
    (hdec : decryptEasy (cbcHmac bc mac ak ks 16 mac.size) key aad' ct = .ok pt') :
    let c := ct.take (ct.length - mac.size)
    aad ++ c ≠ aad' ++ c ∧ mac.tag (key.drop ak) (aad ++ c) = mac.tag (key.drop ak) (aad' ++ c) := by
  have hl := cbcEncrypt_length bc (key.take ak) nonce pt hn
  simp only [encryptEasy, cbcHmac, cbcHmacEncrypt, Res.ok_bind, Res.pure_eq, Res.ok.injEq] at henc
  rw [← List.append_assoc] at henc
  have hlen : ct.length = 16 + 16 * (pt.length / 16 + 1) + mac.size := by
    rw [← henc, List.length_append, List.length_append, mac.tag_length, hl, hn]
  have hcl : (nonce ++ cbcEncrypt bc (key.take ak) nonce pt).length = ct.length - mac.size := by
    rw [List.length_append, hl, hn]; omega
  have htake : ct.take (ct.length - mac.size) = nonce ++ cbcEncrypt bc (key.take ak) nonce pt := by
    generalize ct.length - mac.size = n at hcl
    rw [← henc]; exact List.take_left' hcl
  have hdrop : ct.drop (ct.length - mac.size) = mac.tag (key.drop ak) (aad ++ nonce ++ cbcEncrypt bc (key.take ak) nonce pt) := by
    generalize ct.length - mac.size = n at hcl
    rw [← henc]; exact List.drop_left' hcl
  have hacc := cbcHmac_accept_tag bc mac ak ks mac.size key aad' ct pt' hdec
  intro c
  refine ⟨fun h => hne (List.append_cancel_right h), ?_⟩
  change mac.tag _ (aad ++ ct.take _) = mac.tag _ (aad' ++ ct.take _)
  rw [hacc, hdrop, htake, List.append_assoc]

example : ∃ ct, encryptEasy (cbcHmac toyBlock (toyMac 32) 16 32 16 32) (List.replicate 32 3) (List.replicate 16 9) [1] [7] = .ok ct ∧
    decryptEasy (cbcHmac toyBlock (toyMac 32) 16 32 16 32) (List.replicate 32 3) [0, 1] ct = .ok [7] :=
  ⟨_, rfl, by decide +kernel⟩

/-- `(pad m)` after dropping one block is the padding of `m` after dropping one block. -/
theorem pad_drop (m : Bytes) (h : 16 ≤ m.length) : (pad m).drop 16 = pad (m.drop 16) := by
  unfold pad
  rw [List.drop_append_of_le_length h, List.length_drop]
  have : (m.length - 16) % 16 = m.length % 16 := by omega
  rw [this]

/-- C71 fails: nothing separates associated data, nonce and ciphertext in the MAC input, so bytes can be moved between them.
From a ciphertext of any plaintext of at least 32 bytes (16 suffice for AES-128), anyone, without the key, obtains a different
pair of associated data and ciphertext that decrypts: the nonce is appended to the associated data and the first ciphertext
block takes its place; the receiver gets the plaintext without its first block. -/
theorem aad_shift_forgery (bc : BlockCipher) (mac : Mac) (ak ks : Nat) (key nonce aad pt : Bytes) (hn : nonce.length = 16)
    (hp : 16 ≤ pt.length) (hak : ak ≤ 16 * (pt.length / 16)) (h48 : 32 ≤ mac.size) (ct : Bytes)
    (henc : encryptEasy (cbcHmac bc mac ak ks 16 mac.size) key nonce aad pt = .ok ct) :
    decryptEasy (cbcHmac bc mac ak ks 16 mac.size) key (aad ++ ct.take 16) (ct.drop 16) = .ok (pt.drop 16) := by
  have hl := cbcEncrypt_length bc (key.take ak) nonce pt hn
  simp only [encryptEasy, cbcHmac, cbcHmacEncrypt, Res.ok_bind, Res.pure_eq, Res.ok.injEq] at henc
  have ht : ct.take 16 = nonce := by rw [← henc]; exact List.take_left' hn
  have hd : ct.drop 16 = cbcEncrypt bc (key.take ak) nonce pt ++
      mac.tag (key.drop ak) (aad ++ nonce ++ cbcEncrypt bc (key.take ak) nonce pt) := by
    rw [← henc]; exact List.drop_left' hn
  -- the first ciphertext block and the rest
  have hpl := pad_length pt
  have hq : (pad pt).length / 16 = pt.length / 16 + 1 := by omega
  obtain ⟨c0, hc0⟩ : ∃ c0, c0 = bc.enc (key.take ak) (xorB nonce ((pad pt).take 16)) := ⟨_, rfl⟩
  have htl : ((pad pt).take 16).length = 16 := by rw [List.length_take]; omega
  have hc0l : c0.length = 16 := by rw [hc0]; exact bc.enc_length _ _ (xorB_length _ _ hn htl)
  have hsplit : cbcEncrypt bc (key.take ak) nonce pt = c0 ++ cbcEncrypt bc (key.take ak) c0 (pt.drop 16) := by
    have hpl' := pad_length (pt.drop 16)
    rw [List.length_drop] at hpl'
    have hq' : (pad (pt.drop 16)).length / 16 = pt.length / 16 := by omega
    unfold cbcEncrypt
    rw [hq, hq', blocks, cbcEncBlocks, ← hc0, pad_drop pt hp, List.flatten_cons]
  rw [ht, hd, hsplit]
  rw [hsplit, List.length_append, hc0l] at hl
  simp only [decryptEasy, cbcHmac, List.append_assoc]
  rw [List.take_left' hc0l, List.drop_left' hc0l, if_neg, if_neg]
  · unfold cbcHmacDecrypt
    rw [List.length_append, mac.tag_length]
    rw [if_neg (by omega)]
    simp only [List.append_assoc]
    rw [Nat.add_sub_cancel, List.take_left' rfl, List.drop_left' rfl, if_pos rfl, cbc_round_trip _ _ _ _ hc0l]
    rfl
  · rw [List.length_append, hc0l]; omega
  · simp only [List.length_append, hc0l, mac.tag_length]; omega

/-- A concrete run: 33 bytes encrypted for associated data `[1, 2]` are accepted as 17 bytes for longer associated data. -/
example : ∃ ct, encryptEasy (aes128CbcHmac256 toyBlock (toyMac 32)) (List.replicate 32 3) (List.replicate 16 9) [1, 2]
      (List.replicate 33 5) = .ok ct ∧
    decryptEasy (aes128CbcHmac256 toyBlock (toyMac 32)) (List.replicate 32 3) ([1, 2] ++ List.replicate 16 9) (ct.drop 16) =
      .ok (List.replicate 17 5) :=
  ⟨_, rfl, by decide +kernel⟩

/-- What does hold: with associated data of the same length (in particular the empty one on both sides) an accepted pair that
was not the one produced makes the MAC collide on two named, different byte strings — or else carries a different tag for
the same string. -/
theorem authenticated_same_length (bc : BlockCipher) (mac : Mac) (ak ks : Nat) (key nonce aad aad' pt pt' ct ct' : Bytes)
    (hn : nonce.length = 16) (ha : aad.length = aad'.length)
    (henc : encryptEasy (cbcHmac bc mac ak ks 16 mac.size) key nonce aad pt = .ok ct)
    (hdec : decryptEasy (cbcHmac bc mac ak ks 16 mac.size) key aad' ct' = .ok pt') (hne : (aad, ct) ≠ (aad', ct'))
    (htag : ct'.drop (ct'.length - mac.size) = ct.drop (ct.length - mac.size)) :
    let m := aad ++ ct.take (ct.length - mac.size)
    let m' := aad' ++ ct'.take (ct'.length - mac.size)
    m ≠ m' ∧ mac.tag (key.drop ak) m = mac.tag (key.drop ak) m' := by
  have hl := cbcEncrypt_length bc (key.take ak) nonce pt hn
  simp only [encryptEasy, cbcHmac, cbcHmacEncrypt, Res.ok_bind, Res.pure_eq, Res.ok.injEq] at henc
  rw [← List.append_assoc] at henc
  have hlen : ct.length = 16 + 16 * (pt.length / 16 + 1) + mac.size := by
    rw [← henc, List.length_append, List.length_append, mac.tag_length, hl, hn]
  have hcl : (nonce ++ cbcEncrypt bc (key.take ak) nonce pt).length = ct.length - mac.size := by
    rw [List.length_append, hl, hn]; omega
  have htake : ct.take (ct.length - mac.size) = nonce ++ cbcEncrypt bc (key.take ak) nonce pt := by
    generalize ct.length - mac.size = n at hcl
    rw [← henc]; exact List.take_left' hcl
  have hdrop : ct.drop (ct.length - mac.size) = mac.tag (key.drop ak) (aad ++ nonce ++ cbcEncrypt bc (key.take ak) nonce pt) := by
    generalize ct.length - mac.size = n at hcl
    rw [← henc]; exact List.drop_left' hcl
  have hacc := cbcHmac_accept_tag bc mac ak ks mac.size key aad' ct' pt' hdec
  intro m m'
  constructor
  · intro h
    have h2 := List.append_inj h ha
    apply hne
    rw [Prod.mk.injEq]
    refine ⟨h2.1, ?_⟩
    rw [← List.take_append_drop (ct.length - mac.size) ct, ← List.take_append_drop (ct'.length - mac.size) ct', h2.2, htag]
  · change mac.tag _ (aad ++ ct.take _) = mac.tag _ (aad' ++ ct'.take _)
    rw [hacc, htag, hdrop, htake, List.append_assoc]

/-! ## C72: streams -/

/-- C72: `encrypt_buffer` and `decrypt_buffer` give exactly the result of the slice versions on the concatenation of whatever
pieces the reader delivers, and an error if reading or writing fails (or the slice version does). -/
theorem buffer_eq_easy (C : Cipher) (key nonce aad : Bytes) (input : Stream) (writeOk : Bool) :
    encryptBuffer C key nonce aad input writeOk =
      (if input.fails then .err () else (encryptEasy C key nonce aad input.chunks.flatten) >>= fun c =>
        if writeOk then .ok c else .err ()) ∧
    decryptBuffer C key aad input writeOk =
      (if input.fails then .err () else (decryptEasy C key aad input.chunks.flatten) >>= fun c =>
        if writeOk then .ok c else .err ()) := by
  have hr : readBuffer input = if input.fails then .err () else .ok input.chunks.flatten := by
    unfold readBuffer; rw [List.take_length]
  unfold encryptBuffer decryptBuffer
  rw [hr]
  cases input.fails <;> exact ⟨rfl, rfl⟩

/-- Hence a plaintext streamed in any pieces and streamed back in any other pieces is recovered if it is long enough. -/
theorem buffer_round_trip (P : Prims) (hP : P.digestSizes) (t : EncryptorType) (key nonce aad : Bytes)
    (hn : nonce.length = (t.cipher P).nonceSize) (pieces : List Bytes) (hlong : t.minPlaintext ≤ pieces.flatten.length) :
    ∃ ct, encryptBuffer (t.cipher P) key nonce aad ⟨pieces, false⟩ true = .ok ct ∧
      ∀ pieces' : List Bytes, pieces'.flatten = ct →
        decryptBuffer (t.cipher P) key aad ⟨pieces', false⟩ true = .ok pieces.flatten := by
  have h := easy_round_trip_partial P hP t key nonce aad pieces.flatten hn
  rw [if_pos hlong] at h
  unfold easyRoundTrip at h
  obtain ⟨ct, h1, h2⟩ := Res.bind_eq_ok.mp h
  refine ⟨ct, ?_, fun pieces' hp => ?_⟩
  · rw [(buffer_eq_easy _ key nonce aad _ _).1]; simp [h1]
  · rw [(buffer_eq_easy _ key nonce aad _ _).2]; simp [hp, h2]

/-! ## C73: selecting a cipher by name, key and nonce sizes -/

/-- C73: names round trip, and a string that parses is the name of the cipher it parses to. -/
theorem encryptor_type_names (t : EncryptorType) (s : String) :
    EncryptorType.fromStr t.display = .ok t ∧ (EncryptorType.fromStr s = .ok t → s = t.display) := by
  constructor
  · cases t <;> decide
  · unfold EncryptorType.fromStr
    split_ifs <;> intro h <;> first | (injection h with h; subst h; subst_vars; rfl) | cases h

/-- `gen_encryptor` succeeds exactly on keys whose size `is_valid_keysize` accepts, and panics on all others. -/
theorem gen_encryptor_iff (P : Prims) (t : EncryptorType) (key : Bytes) :
    (t.isValidKeysize P key.length = true → t.genEncryptor P key = .ok key) ∧
    (t.isValidKeysize P key.length = false → t.genEncryptor P key = .panic) := by
  simp only [EncryptorType.isValidKeysize, EncryptorType.genEncryptor, newWithKey, beq_iff_eq, beq_eq_false_iff_ne]
  exact ⟨fun h => by simp [h], fun h => by simp [h]⟩

/-- The valid sizes are those of the cipher's name: 32, 64, 16, 32, 32 key bytes and 16, 16, 12, 12, 24 nonce bytes. -/
theorem valid_sizes (P : Prims) (t : EncryptorType) (n : Nat) :
    (t.isValidKeysize P n = true ↔ n = match t with
      | .Aes128CbcHmac256 => 32 | .Aes256CbcHmac512 => 64 | .Aes128Gcm => 16 | .Aes256Gcm => 32 | .XChaCha20Poly1305 => 32) ∧
    (t.isValidNoncesize P n = true ↔ n = match t with
      | .Aes128CbcHmac256 => 16 | .Aes256CbcHmac512 => 16 | .Aes128Gcm => 12 | .Aes256Gcm => 12 | .XChaCha20Poly1305 => 24) := by
  cases t <;> simp [EncryptorType.isValidKeysize, EncryptorType.isValidNoncesize, EncryptorType.cipher, aes128CbcHmac256,
    aes256CbcHmac512, cbcHmac, aes128Gcm, aes256Gcm, gcm, xChaCha20Poly1305]

/-- `encrypt` and `decrypt` with an explicit nonce panic exactly when `is_valid_noncesize` rejects its length. -/
theorem explicit_nonce_panics_iff (P : Prims) (t : EncryptorType) (key nonce aad m : Bytes) :
    (encryptWith (t.cipher P) key nonce aad m = .panic ↔ t.isValidNoncesize P nonce.length = false) ∧
    (decryptWith (t.cipher P) key nonce aad m = .panic ↔ t.isValidNoncesize P nonce.length = false) := by
  simp only [EncryptorType.isValidNoncesize, beq_eq_false_iff_ne]
  unfold encryptWith decryptWith
  by_cases h : nonce.length = (t.cipher P).nonceSize
  · simp only [h, ne_eq, not_true_eq_false, if_false, iff_false]
    cases t
    · exact ⟨by simp [EncryptorType.cipher, cbcHmacEncrypt], cbcHmacDecrypt_not_panic _ _ _ _ _ _ _ _⟩
    · exact ⟨by simp [EncryptorType.cipher, cbcHmacEncrypt], cbcHmacDecrypt_not_panic _ _ _ _ _ _ _ _⟩
    · exact ⟨by simp [EncryptorType.cipher], gcm_decrypt_not_panic _ _ _ _ _ _⟩
    · exact ⟨by simp [EncryptorType.cipher], gcm_decrypt_not_panic _ _ _ _ _ _⟩
    · exact ⟨by simp [EncryptorType.cipher], ofOption_not_panic _⟩
  · simp [h]

/-! ## C74: serialized keys -/

theorem hexVal_hexDigit (n : Nat) (h : n < 16) : hexVal (hexDigit n) = some n := by
  interval_cases n <;> decide

/-- the sixteen digits, upper and lower case, and nothing else -/
theorem hexVal_spec (c : Char) (v : Nat) :
    hexVal c = some v ↔ (v, c) ∈ [(0, '0'), (1, '1'), (2, '2'), (3, '3'), (4, '4'), (5, '5'), (6, '6'), (7, '7'), (8, '8'), (9, '9'),
      (10, 'a'), (11, 'b'), (12, 'c'), (13, 'd'), (14, 'e'), (15, 'f'),
      (10, 'A'), (11, 'B'), (12, 'C'), (13, 'D'), (14, 'E'), (15, 'F')] := by
  constructor
  · intro h
    unfold hexVal at h
    simp only at h
    have hc : c = Char.ofNat c.toNat := (Char.ofNat_toNat c).symm
    generalize c.toNat = n at h hc
    split_ifs at h with h1 h2 h3
    · obtain ⟨a, b⟩ := h1
      simp only [Option.some.injEq] at h
      subst hc; subst h
      interval_cases n <;> decide
    · obtain ⟨a, b⟩ := h2
      simp only [Option.some.injEq] at h
      subst hc; subst h
      clear h1
      interval_cases n <;> decide
    · obtain ⟨a, b⟩ := h3
      simp only [Option.some.injEq] at h
      subst hc; subst h
      clear h1 h2
      interval_cases n <;> decide
  · intro h
    simp only [List.mem_cons, Prod.mk.injEq, List.not_mem_nil, or_false] at h
    rcases h with ⟨rfl, rfl⟩ | ⟨rfl, rfl⟩ | ⟨rfl, rfl⟩ | ⟨rfl, rfl⟩ | ⟨rfl, rfl⟩ | ⟨rfl, rfl⟩ | ⟨rfl, rfl⟩ | ⟨rfl, rfl⟩ | ⟨rfl, rfl⟩ |
      ⟨rfl, rfl⟩ | ⟨rfl, rfl⟩ | ⟨rfl, rfl⟩ | ⟨rfl, rfl⟩ | ⟨rfl, rfl⟩ | ⟨rfl, rfl⟩ | ⟨rfl, rfl⟩ | ⟨rfl, rfl⟩ | ⟨rfl, rfl⟩ | ⟨rfl, rfl⟩ |
      ⟨rfl, rfl⟩ | ⟨rfl, rfl⟩ | ⟨rfl, rfl⟩ <;> decide

theorem hex_round_trip : ∀ b : Bytes, hexDecode (hexEncode b) = some b
  | [] => rfl
  | x :: b => by
    have hx := x.toNat_lt
    have h1 : x.toNat / 16 < 16 := by omega
    have h2 : x.toNat % 16 < 16 := by omega
    have h3 : x.toNat / 16 * 16 + x.toNat % 16 = x.toNat := by omega
    simp [hexEncode, hexDecode, hexVal_hexDigit _ h1, hexVal_hexDigit _ h2, hex_round_trip b, h3]

theorem hexEncode_length : ∀ b : Bytes, (hexEncode b).length = 2 * b.length
  | [] => rfl
  | x :: b => by simp [hexEncode, hexEncode_length b]; omega

/-- C74, the part that holds: a serialized encryptor deserializes to the same key. -/
theorem serialize_round_trip (C : Cipher) (key : Bytes) (h : key.length = C.keySize) :
    deserialize C (serialize key) = .ok key := by
  simp [deserialize, serialize, hex_round_trip, newWithKey, h]

/-- C74, the part that fails: deserializing any hexadecimal string of another length panics instead of returning an error. -/
theorem deserialize_panics (C : Cipher) (key : Bytes) (h : key.length ≠ C.keySize) :
    deserialize C (hexEncode key) = .panic := by
  simp [deserialize, hex_round_trip, newWithKey, h]

/-- The outcome on every string: error exactly if it is not hexadecimal, panic exactly if it is but has the wrong length. -/
theorem deserialize_cases (C : Cipher) (s : List Char) :
    deserialize C s = match hexDecode s with
      | none => .err ()
      | some key => if key.length = C.keySize then .ok key else .panic := by
  unfold deserialize newWithKey
  cases hexDecode s with
  | none => rfl
  | some key => by_cases h : key.length = C.keySize <;> simp [h]

example : deserialize (aes128Gcm toyAead) ['0', '0'] = .panic := by decide +kernel
example : deserialize (aes128Gcm toyAead) ['0', 'g'] = .err () := by decide +kernel

end Verif.Symm
