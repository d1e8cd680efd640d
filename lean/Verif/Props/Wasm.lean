import Verif.Props.KeyText
import Verif.Props.Ed25519
import Verif.Props.X25519
import Verif.Props.Secp256k1
import Verif.Props.BLS
/-!
# The JavaScript interface (C177-C179)
-/
set_option linter.unusedSimpArgs false
set_option linter.unusedSectionVars false

namespace Verif.Wasm

open Verif Symm Sig CL CL.Json

/-! ## Keys and errors -/

theorem fromWasm_toWasm {ε : Type} (b : Bytes) : (fromWasm (toWasm b) : Res ε Bytes) = .ok b := by
  simp [fromWasm, toWasm, hex_round_trip]

theorem fromWasm_denotes {ε : Type} {t : List Char} {b : Bytes} (h : Denotes t b) : (fromWasm t : Res ε Bytes) = .ok b := by
  simp [fromWasm, (hex_value t b).mpr h]

theorem fromWasm_panic {ε : Type} {t : List Char} (h : ¬ IsHex t) : (fromWasm t : Res ε Bytes) = .panic := by
  rw [fromWasm, (hexDecode_cases t).2 h]; rfl

theorem isHex_denotes {t : List Char} (h : IsHex t) : ∃ b, Denotes t b := by
  obtain ⟨b, hb⟩ := (hex_accepts t).mpr h
  exact ⟨b, (hex_value t b).mp hb⟩

theorem denotes_toWasm (b : Bytes) : Denotes (toWasm b) b := (hex_value _ _).mp (hex_round_trip b)

theorem denotes_unique {t : List Char} {b b' : Bytes} (h : Denotes t b) (h' : Denotes t b') : b = b' := by
  have e := (hex_value t b).mpr h
  rw [(hex_value t b').mpr h'] at e
  exact (Option.some.inj e).symm

@[simp] theorem maperr_ok {ε α : Type} (a : α) : maperr (.ok a : Res ε α) = .ok a := rfl
@[simp] theorem maperr_err {ε α : Type} (e : ε) : maperr (.err e : Res ε α) = .err "_e" := rfl
@[simp] theorem maperr_panic {ε α : Type} : maperr (.panic : Res ε α) = .panic := rfl

theorem maperr_eq_ok {ε α : Type} {r : Res ε α} {a : α} : maperr r = .ok a ↔ r = .ok a := by
  cases r <;> simp

theorem maperr_eq_panic {ε α : Type} {r : Res ε α} : maperr r = .panic ↔ r = .panic := by
  cases r <;> simp

/-- What a call of the interface must do, given what the native function does with the bytes of the keys: the same
result, or an exception if the native function returns an error. -/
def SameAs {ε α β : Type} (native : Res ε α) (out : α → β) (wasm : Res String β) : Prop :=
  (∀ a, native = .ok a → wasm = .ok (out a)) ∧ ((∃ e, native = .err e) → ∃ t, wasm = .err t) ∧
  (native = .panic → wasm = .panic)

theorem sameAs_maperr {ε α : Type} (r : Res ε α) : SameAs r id (maperr r) := by
  refine ⟨fun a h => by rw [h]; rfl, ?_, fun h => by rw [h]; rfl⟩
  rintro ⟨e, h⟩
  exact ⟨"_e", by rw [h]; rfl⟩

theorem sameAs_bind {ε α β : Type} (r : Res ε α) (out : α → β) :
    SameAs r out (do let a ← maperr r; pure (out a)) := by
  refine ⟨fun a h => by rw [h]; rfl, ?_, fun h => by rw [h]; rfl⟩
  rintro ⟨e, h⟩
  exact ⟨"_e", by rw [h]; rfl⟩

/-- C177: called with texts that denote the bytes of keys, every call does what the native function does with these bytes,
and gives keys as their texts. -/
theorem wasm_native (S : SigScheme) (K : KexScheme) (message signature seed : Bytes) (sk pk : List Char) (skB pkB : Bytes)
    (hs : Denotes sk skB) (hp : Denotes pk pkB) :
    SameAs (S.keypair none) (fun r => KeyPair.mk (toWasm r.1) (toWasm r.2)) (keypairNew S.keypair) ∧
    SameAs (S.keypair (some (.useSeed seed))) (fun r => KeyPair.mk (toWasm r.1) (toWasm r.2)) (keypairFromSeed S.keypair seed) ∧
    SameAs (S.keypair (some (.fromSecretKey skB))) (fun r => toWasm r.1) (getPublicKey S.keypair sk) ∧
    SameAs (S.sign message skB) id (wSign S message sk) ∧
    SameAs (S.verify message signature pkB) id (wVerify S message signature pk) ∧
    SameAs (K.shared skB pkB) toWasm (wShared K sk pk) := by
  refine ⟨sameAs_bind _ _, sameAs_bind _ _, ?_, ?_, ?_, ?_⟩
  · unfold getPublicKey
    rw [fromWasm_denotes hs, Res.ok_bind]
    exact sameAs_bind _ _
  · unfold wSign
    rw [fromWasm_denotes hs, Res.ok_bind]
    exact sameAs_maperr _
  · unfold wVerify
    rw [fromWasm_denotes hp, Res.ok_bind]
    exact sameAs_maperr _
  · unfold wShared
    rw [fromWasm_denotes hs, Res.ok_bind, fromWasm_denotes hp, Res.ok_bind]
    exact sameAs_bind _ _

/-- C177, the forms of public keys and the normalization of signatures -/
theorem wasm_native_secp (f : Bytes → Res CryptoError Bytes) (n : Nat) (data sig : Bytes) (pk : List Char) (pkB : Bytes)
    (hp : Denotes pk pkB) :
    SameAs (f pkB) toWasm (wKeyForm f pk) ∧ SameAs (f data) toWasm (wParseKey f data) ∧
    SameAs (normalizeS n sig) id (wNormalizeS n sig) := by
  refine ⟨?_, sameAs_bind _ _, sameAs_maperr _⟩
  unfold wKeyForm
  rw [fromWasm_denotes hp, Res.ok_bind]
  exact sameAs_bind _ _

/-- C177 fails where it asks that a malformed key is refused with an exception: every call that takes the text of a key
crashes if it does not consist of an even number of hexadecimal digits. -/
theorem wasm_bad_key_crashes (S : SigScheme) (K : KexScheme) (f : Bytes → Res CryptoError Bytes) (message signature : Bytes)
    (t t' : List Char) (h : ¬ IsHex t) :
    getPublicKey S.keypair t = .panic ∧ wSign S message t = .panic ∧ wVerify S message signature t = .panic ∧
    wShared K t t' = .panic ∧ (IsHex t' → wShared K t' t = .panic) ∧ wKeyForm f t = .panic := by
  refine ⟨?_, ?_, ?_, ?_, ?_, ?_⟩
  · rw [getPublicKey, fromWasm_panic h]; rfl
  · rw [wSign, fromWasm_panic h]; rfl
  · rw [wVerify, fromWasm_panic h]; rfl
  · rw [wShared, fromWasm_panic h]; rfl
  · intro h'
    obtain ⟨b, hb⟩ := isHex_denotes h'
    rw [wShared, fromWasm_denotes hb, fromWasm_panic h]; rfl
  · rw [wKeyForm, fromWasm_panic h]; rfl

theorem bind_err_fromWasm {α : Type} (t : List Char) (g : Bytes → Res String α) (e : String)
    (h : (fromWasm t >>= g) = .err e) : ∃ b, g b = .err e := by
  unfold fromWasm at h
  cases hd : hexDecode t with
  | none => rw [hd] at h; cases h
  | some b => rw [hd] at h; exact ⟨b, h⟩

theorem maperr_err_text {ε α : Type} {r : Res ε α} {e : String} (h : maperr r = .err e) : e = "_e" := by
  cases r <;> cases h
  rfl

theorem maperr_bind_err {ε α β : Type} {r : Res ε α} {g : α → β} {e : String}
    (h : (do let a ← maperr r; pure (g a)) = (.err e : Res String β)) : e = "_e" := by
  cases r <;> cases h
  rfl

/-- C177 fails where it asks that exceptions tell what went wrong: whatever the native error, the text thrown is `_e`. -/
theorem wasm_errors_say_nothing (S : SigScheme) (K : KexScheme) (f : Bytes → Res CryptoError Bytes) (n : Nat)
    (message signature seed : Bytes) (sk pk : List Char) (e : String) :
    (keypairNew S.keypair = .err e → e = "_e") ∧ (keypairFromSeed S.keypair seed = .err e → e = "_e") ∧
    (getPublicKey S.keypair sk = .err e → e = "_e") ∧ (wSign S message sk = .err e → e = "_e") ∧
    (wVerify S message signature pk = .err e → e = "_e") ∧ (wShared K sk pk = .err e → e = "_e") ∧
    (wKeyForm f pk = .err e → e = "_e") ∧ (wParseKey f message = .err e → e = "_e") ∧
    (wNormalizeS n signature = .err e → e = "_e") := by
  refine ⟨maperr_bind_err, maperr_bind_err, fun h => ?_, fun h => ?_, fun h => ?_, fun h => ?_, fun h => ?_,
    maperr_bind_err, maperr_err_text⟩
  · obtain ⟨b, hb⟩ := bind_err_fromWasm _ _ _ h
    exact maperr_bind_err hb
  · obtain ⟨b, hb⟩ := bind_err_fromWasm _ _ _ h
    exact maperr_err_text hb
  · obtain ⟨b, hb⟩ := bind_err_fromWasm _ _ _ h
    exact maperr_err_text hb
  · obtain ⟨b, hb⟩ := bind_err_fromWasm _ _ _ h
    obtain ⟨b', hb'⟩ := bind_err_fromWasm _ _ _ hb
    exact maperr_bind_err hb'
  · obtain ⟨b, hb⟩ := bind_err_fromWasm _ _ _ h
    exact maperr_bind_err hb

/-! ## The schemes -/

section
variable {Pt : Type} [AddCommGroup Pt] (D : Dalek Pt)

theorem wKeypair_ok {kp : Option KeyGenOption → Res CryptoError (Bytes × Bytes)} {o : Option KeyGenOption} {k : KeyPair}
    (h : wKeypair kp o = .ok k) : ∃ pk sk, kp o = .ok (pk, sk) ∧ k.pk = toWasm pk ∧ k.sk = toWasm sk := by
  unfold wKeypair at h
  obtain ⟨r, hr, h⟩ := Res.bind_eq_ok.mp h
  cases h
  exact ⟨r.1, r.2, maperr_eq_ok.mp hr, rfl, rfl⟩

/-- C177: signing and verifying through the interface, with keys generated through it, fresh or from any seed; the public
key can be had from the private key. -/
theorem wasm_ed25519 (os os' seed message : Bytes) (hos : os.length = 32) (k : KeyPair)
    (h : keypairNew (ed25519 D os).keypair = .ok k ∨ keypairFromSeed (ed25519 D os).keypair seed = .ok k) :
    ∃ sig, wSign (ed25519 D os') message k.sk = .ok sig ∧ wVerify (ed25519 D os') message sig k.pk = .ok true ∧
      getPublicKey (ed25519 D os').keypair k.sk = .ok k.pk := by
  have key : ∀ o : Option KeyGenOption, (∀ sk, o ≠ some (.fromSecretKey sk)) → wKeypair (D.keypair os) o = .ok k →
      ∃ sig, wSign (ed25519 D os') message k.sk = .ok sig ∧ wVerify (ed25519 D os') message sig k.pk = .ok true ∧
      getPublicKey (ed25519 D os').keypair k.sk = .ok k.pk := by
    intro o ho hk
    obtain ⟨pk, sk, hkp, hpk, hsk⟩ := wKeypair_ok hk
    obtain ⟨sig, h1, -, h2⟩ := ed25519_sign_verify D os hos o ho message pk sk hkp
    obtain ⟨-, -, h3, -⟩ := ed25519_reload D os os' hos o ho pk sk hkp
    obtain ⟨-, -, w1, w2, w3, -⟩ := wasm_native (ed25519 D os') (x25519 D os') message sig [] k.sk k.pk sk pk
      (hsk ▸ denotes_toWasm sk) (hpk ▸ denotes_toWasm pk)
    refine ⟨sig, w2.1 sig h1, w3.1 true h2, ?_⟩
    rw [w1.1 _ h3, hpk]
  rcases h with h | h
  · exact key none (by simp) h
  · exact key (some (.useSeed seed)) (by simp) h

/-- C177: the keys exist. -/
theorem wasm_ed25519_keys (os seed : Bytes) :
    (∃ k, keypairNew (ed25519 D os).keypair = .ok k) ∧ ∃ k, keypairFromSeed (ed25519 D os).keypair seed = .ok k :=
  ⟨⟨_, rfl⟩, ⟨_, rfl⟩⟩

/-- C177: the answer of `verify` is never `false`: a signature that is not valid is an exception, indistinguishable from
that for a malformed one. -/
theorem wasm_ed25519_verify (os message signature : Bytes) (pk : List Char) (pkB : Bytes) (hp : Denotes pk pkB) :
    (D.Valid message signature pkB → wVerify (ed25519 D os) message signature pk = .ok true) ∧
    (¬ D.Valid message signature pkB → wVerify (ed25519 D os) message signature pk = .err "_e") := by
  obtain ⟨h1, h2, -⟩ := verify_iff D message signature pkB
  unfold wVerify
  rw [fromWasm_denotes hp, Res.ok_bind]
  change (_ → maperr (D.verify _ _ _) = _) ∧ (_ → maperr (D.verify _ _ _) = _)
  constructor
  · intro h
    rw [h1.mpr h]; rfl
  · intro h
    rcases h2 h with e | e <;> rw [e] <;> rfl

/-- C177: X25519 through the interface: both sides get the same session key. -/
theorem wasm_x25519 (os os' os2 seed seed' : Bytes) (hos : os.length = 32) (hos' : os'.length = 32) (k k' : KeyPair)
    (h : keypairNew (x25519 D os).keypair = .ok k ∨ keypairFromSeed (x25519 D os).keypair seed = .ok k)
    (h' : keypairNew (x25519 D os').keypair = .ok k' ∨ keypairFromSeed (x25519 D os').keypair seed' = .ok k') :
    ∃ key, wShared (x25519 D os2) k.sk k'.pk = .ok key ∧ wShared (x25519 D os2) k'.sk k.pk = .ok key ∧ key.length = 64 := by
  have key : ∀ o o' : Option KeyGenOption, wKeypair (D.xKeypair os) o = .ok k → wKeypair (D.xKeypair os') o' = .ok k' →
      ∃ key, wShared (x25519 D os2) k.sk k'.pk = .ok key ∧ wShared (x25519 D os2) k'.sk k.pk = .ok key ∧ key.length = 64 := by
    intro o o' hk hk'
    obtain ⟨pk, sk, hkp, hpk, hsk⟩ := wKeypair_ok hk
    obtain ⟨pk', sk', hkp', hpk', hsk'⟩ := wKeypair_ok hk'
    obtain ⟨s, h1, h2, h3⟩ := x25519_agree D os os' hos hos' o o' pk sk pk' sk' hkp hkp'
    obtain ⟨-, -, -, -, -, w1⟩ := wasm_native (ed25519 D os2) (x25519 D os2) [] [] [] k.sk k'.pk sk pk'
      (hsk ▸ denotes_toWasm sk) (hpk' ▸ denotes_toWasm pk')
    obtain ⟨-, -, -, -, -, w2⟩ := wasm_native (ed25519 D os2) (x25519 D os2) [] [] [] k'.sk k.pk sk' pk
      (hsk' ▸ denotes_toWasm sk') (hpk ▸ denotes_toWasm pk)
    exact ⟨toWasm s, w1.1 s h1, w2.1 s h2, by rw [toWasm, hexEncode_length, h3]⟩
  rcases h with h | h <;> rcases h' with h' | h' <;> exact key _ _ h h'

/-- C177: when `computeSharedSecret` of X25519 crashes: keys that are not hexadecimal or shorter than 32 bytes. -/
theorem wasm_x25519_crash_iff (os : Bytes) (sk pk : List Char) :
    wShared (x25519 D os) sk pk = .panic ↔ ¬ IsHex sk ∨ ¬ IsHex pk ∨ sk.length < 64 ∨ pk.length < 64 := by
  by_cases hs : IsHex sk
  · by_cases hp : IsHex pk
    · obtain ⟨s, hs'⟩ := isHex_denotes hs
      obtain ⟨p, hp'⟩ := isHex_denotes hp
      unfold wShared
      rw [fromWasm_denotes hs', Res.ok_bind, fromWasm_denotes hp', Res.ok_bind]
      have h := (x25519_short_keys_panic D os s p).2
      have hl := hs'.2.1
      have hl' := hp'.2.1
      have e : (do let r ← maperr ((x25519 D os).shared s p); pure (toWasm r)) = (.panic : Res String (List Char)) ↔
          D.xSharedSecret s p = .panic := by
        change (maperr (D.xSharedSecret s p) >>= _) = _ ↔ _
        cases D.xSharedSecret s p <;> simp
      rw [e, h]
      simp only [hs, hp, not_true_eq_false, false_or]
      omega
    · exact ⟨fun _ => Or.inr (Or.inl hp), fun _ =>
        (wasm_bad_key_crashes (ed25519 D os) (x25519 D os) (fun b => .ok b) [] [] pk sk hp).2.2.2.2.1 hs⟩
  · exact ⟨fun _ => Or.inl hs, fun _ =>
      (wasm_bad_key_crashes (ed25519 D os) (x25519 D os) (fun b => .ok b) [] [] sk pk hs).2.2.2.1⟩

/-- C177: when `sign` and `verify` of Ed25519 crash: keys that are not hexadecimal. -/
theorem wasm_ed25519_crash_iff (os message signature : Bytes) (t : List Char) :
    (wSign (ed25519 D os) message t = .panic ↔ ¬ IsHex t) ∧
    (wVerify (ed25519 D os) message signature t = .panic ↔ ¬ IsHex t) ∧
    (getPublicKey (ed25519 D os).keypair t = .panic ↔ ¬ IsHex t) := by
  by_cases hs : IsHex t
  · obtain ⟨b, hb⟩ := isHex_denotes hs
    refine ⟨?_, ?_, ?_⟩
    · unfold wSign
      rw [fromWasm_denotes hb, Res.ok_bind, maperr_eq_panic]
      simp only [hs, not_true_eq_false, iff_false]
      change D.sign message b ≠ .panic
      unfold Dalek.sign
      split <;> simp
    · simp only [hs, not_true_eq_false, iff_false]
      obtain ⟨h1, h2⟩ := wasm_ed25519_verify D os message signature t b hb
      by_cases hv : D.Valid message signature b
      · rw [h1 hv]; simp
      · rw [h2 hv]; simp
    · unfold getPublicKey
      rw [fromWasm_denotes hb, Res.ok_bind]
      simp only [hs, not_true_eq_false, iff_false]
      refine bind_ne_panic ?_ (fun _ => by simp)
      rw [ne_eq, maperr_eq_panic]
      intro hp
      change D.keypair os (some (.fromSecretKey b)) = .panic at hp
      unfold Dalek.keypair at hp
      simp only at hp
      split at hp <;> cases hp
  · obtain ⟨h1, h2, h3, -⟩ := wasm_bad_key_crashes (ed25519 D os) (x25519 D os) (fun b => .ok b) message signature t [] hs
    simp [h1, h2, h3, hs]

end

section
variable {n : Nat} [Fact n.Prime] {G : Type} [AddCommGroup G] [Module (ZMod n) G] [DecidableEq G] (S : Secp n G)

/-- C177: ECDSA through the interface. -/
theorem wasm_ecdsa (os os' seed message : Bytes) (k : KeyPair)
    (h : keypairNew (ecdsa S os).keypair = .ok k ∨ keypairFromSeed (ecdsa S os).keypair seed = .ok k) :
    ∃ sig, wSign (ecdsa S os') message k.sk = .ok sig ∧ wVerify (ecdsa S os') message sig k.pk = .ok true ∧
      getPublicKey (ecdsa S os').keypair k.sk = .ok k.pk := by
  have key : ∀ o : Option KeyGenOption, wKeypair (S.keypair os) o = .ok k →
      ∃ sig, wSign (ecdsa S os') message k.sk = .ok sig ∧ wVerify (ecdsa S os') message sig k.pk = .ok true ∧
      getPublicKey (ecdsa S os').keypair k.sk = .ok k.pk := by
    intro o hk
    obtain ⟨pk, sk, hkp, hpk, hsk⟩ := wKeypair_ok hk
    obtain ⟨sig, h1, -, -, h2⟩ := ecdsa_sign_verify S os o message pk sk hkp
    obtain ⟨-, -, h3⟩ := ecdsa_reload S os os' o pk sk hkp
    obtain ⟨-, -, w1, w2, w3, -⟩ := wasm_native (ecdsa S os') (ecdh S os') message sig [] k.sk k.pk sk pk
      (hsk ▸ denotes_toWasm sk) (hpk ▸ denotes_toWasm pk)
    refine ⟨sig, w2.1 sig h1, w3.1 true h2, ?_⟩
    rw [w1.1 _ h3, hpk]
  rcases h with h | h
  · exact key none h
  · exact key (some (.useSeed seed)) h

/-- C177: ECDH through the interface. -/
theorem wasm_ecdh (os os' os2 seed seed' : Bytes) (k k' : KeyPair)
    (h : keypairNew (ecdh S os).keypair = .ok k ∨ keypairFromSeed (ecdh S os).keypair seed = .ok k)
    (h' : keypairNew (ecdh S os').keypair = .ok k' ∨ keypairFromSeed (ecdh S os').keypair seed' = .ok k') :
    ∃ key, wShared (ecdh S os2) k.sk k'.pk = .ok key ∧ wShared (ecdh S os2) k'.sk k.pk = .ok key ∧ key.length = 64 := by
  have key : ∀ o o' : Option KeyGenOption, wKeypair (S.keypairPure os) o = .ok k → wKeypair (S.keypairPure os') o' = .ok k' →
      ∃ key, wShared (ecdh S os2) k.sk k'.pk = .ok key ∧ wShared (ecdh S os2) k'.sk k.pk = .ok key ∧ key.length = 64 := by
    intro o o' hk hk'
    obtain ⟨pk, sk, hkp, hpk, hsk⟩ := wKeypair_ok hk
    obtain ⟨pk', sk', hkp', hpk', hsk'⟩ := wKeypair_ok hk'
    obtain ⟨-, s, h1, h2, h3⟩ := ecdh_agree S os os' o o' pk sk pk' sk' (Or.inr hkp) (Or.inr hkp')
    obtain ⟨-, -, -, -, -, w1⟩ := wasm_native (ecdsa S os2) (ecdh S os2) [] [] [] k.sk k'.pk sk pk'
      (hsk ▸ denotes_toWasm sk) (hpk' ▸ denotes_toWasm pk')
    obtain ⟨-, -, -, -, -, w2⟩ := wasm_native (ecdsa S os2) (ecdh S os2) [] [] [] k'.sk k.pk sk' pk
      (hsk' ▸ denotes_toWasm sk') (hpk ▸ denotes_toWasm pk)
    exact ⟨toWasm s, w1.1 s h1, w2.1 s h2, by rw [toWasm, hexEncode_length, h3]⟩
  rcases h with h | h <;> rcases h' with h' | h' <;> exact key _ _ h h'

end

/-! ## C178 -/

/-- The length of the key of a cipher, in bytes. -/
def keyBytes : EncryptorType → Nat
  | .Aes128CbcHmac256 => 32
  | .Aes256CbcHmac512 => 64
  | .Aes128Gcm => 16
  | .Aes256Gcm => 32
  | .XChaCha20Poly1305 => 32

/-- A cipher key that can be used: its text denotes as many bytes as the cipher takes. -/
def CipherKey.Good (c : CipherKey) : Prop := ∃ k, Denotes c.key k ∧ k.length = keyBytes c.cipher

theorem valid_keyBytes (P : Prims) (t : EncryptorType) (n : Nat) : t.isValidKeysize P n = true ↔ n = keyBytes t := by
  rw [(valid_sizes P t n).1]
  cases t <;> rfl

theorem fromStr_iff (s : String) (t : EncryptorType) : EncryptorType.fromStr s = .ok t ↔ s = t.display := by
  constructor
  · exact (encryptor_type_names t s).2
  · rintro rfl
    exact (encryptor_type_names t t.display).1

/-- C178: `with_key` accepts exactly the name of a cipher with a text that denotes a key of its length; the key made is
that one; every other argument is an exception, never a crash. -/
theorem with_key_iff (name : String) (key : List Char) (c : CipherKey) :
    (cipherWithKey name key = .ok c ↔ name = c.cipher.display ∧ key = c.key ∧ c.Good) ∧ cipherWithKey name key ≠ .panic := by
  have hsize : ∀ t, getKeysize t = keyBytes t := by intro t; cases t <;> rfl
  constructor
  · unfold cipherWithKey
    simp only [Res.bind_eq_ok, maperr_eq_ok, fromStr_iff]
    constructor
    · rintro ⟨t, rfl, k, hk, h⟩
      split at h
      · rename_i hl
        cases h
        refine ⟨rfl, rfl, k, ?_, by rw [← hl, hsize]⟩
        cases hd : hexDecode key with
        | none => rw [hd] at hk; cases hk
        | some k' => rw [hd] at hk; cases hk; exact (hex_value _ _).mp hd
      · cases h
    · rintro ⟨rfl, rfl, k, hk, hl⟩
      refine ⟨c.cipher, rfl, k, by rw [(hex_value _ _).mpr hk]; rfl, ?_⟩
      rw [if_pos (by rw [hsize, hl])]
  · unfold cipherWithKey
    refine bind_ne_panic ?_ (fun t => bind_ne_panic ?_ (fun k => ?_))
    · rw [ne_eq, maperr_eq_panic]
      unfold EncryptorType.fromStr
      split_ifs <;> simp
    · rw [ne_eq, maperr_eq_panic]
      cases hexDecode key <;> simp
    · split_ifs <;> simp

/-- C178: `new` makes a key that can be used, for exactly the names of the ciphers. -/
theorem cipher_new (random : Nat → Res Unit Bytes) (hr : ∀ n, ∃ b, random n = .ok b ∧ b.length = n) (name : String) :
    (∀ t, name = EncryptorType.display t → ∃ c, cipherNew random name = .ok c ∧ c.cipher = t ∧ c.Good) ∧
    ((∀ t, name ≠ EncryptorType.display t) → cipherNew random name = .err "_e") := by
  have hsize : ∀ t, getKeysize t = keyBytes t := by intro t; cases t <;> rfl
  constructor
  · rintro t rfl
    obtain ⟨b, hb, hl⟩ := hr (getKeysize t)
    refine ⟨⟨t, hexEncode b⟩, ?_, rfl, b, denotes_toWasm b, by rw [hl, hsize]⟩
    unfold cipherNew
    rw [(encryptor_type_names t "").1, maperr_ok, Res.ok_bind, hb]
    rfl
  · intro h
    unfold cipherNew
    have : ∃ e, EncryptorType.fromStr name = .err e := by
      cases hs : EncryptorType.fromStr name with
      | ok t => exact absurd ((fromStr_iff name t).mp hs) (h t)
      | err e => exact ⟨e, rfl⟩
      | panic =>
        exfalso
        unfold EncryptorType.fromStr at hs
        split_ifs at hs
    obtain ⟨e, he⟩ := this
    rw [he]
    rfl

theorem operation_eq (P : Prims) (c : CipherKey) (op : Bytes → Res Unit Bytes) :
    (∀ k, Denotes c.key k → k.length = keyBytes c.cipher → operation P c op = maperr (op k)) ∧
    (∀ k, Denotes c.key k → k.length ≠ keyBytes c.cipher → operation P c op = .err "Invalid key length") ∧
    (¬ IsHex c.key → operation P c op = .err "_e") := by
  refine ⟨fun k hk hl => ?_, fun k hk hl => ?_, fun h => ?_⟩
  · have hv := (valid_keyBytes P c.cipher k.length).mpr hl
    unfold operation
    rw [(hex_value _ _).mpr hk, Res.ofOption_some, maperr_ok, Res.ok_bind, if_pos hv,
      (gen_encryptor_iff P c.cipher k).1 hv, maperr_ok, Res.ok_bind]
  · have hv : ¬ c.cipher.isValidKeysize P k.length = true := fun h => hl ((valid_keyBytes P c.cipher k.length).mp h)
    unfold operation
    rw [(hex_value _ _).mpr hk, Res.ofOption_some, maperr_ok, Res.ok_bind, if_neg hv]
  · unfold operation
    rw [(hexDecode_cases _).2 h]
    rfl

theorem encryptEasy_ok (P : Prims) (t : EncryptorType) (k nonce aad pt : Bytes) :
    ∃ ct, encryptEasy (t.cipher P) k nonce aad pt = .ok (nonce ++ ct) ∧ (t.cipher P).encrypt k nonce aad pt = .ok ct := by
  cases t <;> exact ⟨_, rfl, rfl⟩

/-- C178: the outcome of `encrypt` and `decrypt` for every cipher key whatsoever: with a usable one, what the native
cipher does with its bytes; otherwise an exception; never a crash. -/
theorem wasm_cipher_outcome (P : Prims) (c : CipherKey) (nonce aad input : Bytes) :
    (∀ k, Denotes c.key k → k.length = keyBytes c.cipher →
      SameAs (encryptEasy (c.cipher.cipher P) k nonce aad input) id (wEncrypt P c nonce aad input) ∧
      SameAs (decryptEasy (c.cipher.cipher P) k aad input) id (wDecrypt P c aad input)) ∧
    (¬ c.Good → ∃ e, wEncrypt P c nonce aad input = .err e ∧ wDecrypt P c aad input = .err e) ∧
    wEncrypt P c nonce aad input ≠ .panic ∧ wDecrypt P c aad input ≠ .panic := by
  have hE := operation_eq P c (fun k => encryptEasy (c.cipher.cipher P) k nonce aad input)
  have hD := operation_eq P c (fun k => decryptEasy (c.cipher.cipher P) k aad input)
  have hbad : ¬ c.Good → ∃ e, wEncrypt P c nonce aad input = .err e ∧ wDecrypt P c aad input = .err e := by
    intro h
    by_cases hs : IsHex c.key
    · obtain ⟨k, hk⟩ := isHex_denotes hs
      have hl : k.length ≠ keyBytes c.cipher := fun hl => h ⟨k, hk, hl⟩
      exact ⟨_, hE.2.1 k hk hl, hD.2.1 k hk hl⟩
    · exact ⟨_, hE.2.2 hs, hD.2.2 hs⟩
  refine ⟨fun k hk hl => ⟨?_, ?_⟩, hbad, ?_⟩
  · rw [wEncrypt, hE.1 k hk hl]
    exact sameAs_maperr _
  · rw [wDecrypt, hD.1 k hk hl]
    exact sameAs_maperr _
  · by_cases h : c.Good
    · obtain ⟨k, hk, hl⟩ := h
      rw [wEncrypt, hE.1 k hk hl, wDecrypt, hD.1 k hk hl, ne_eq, maperr_eq_panic, ne_eq, maperr_eq_panic]
      obtain ⟨ct, hct, -⟩ := encryptEasy_ok P c.cipher k nonce aad input
      exact ⟨by rw [hct]; simp, (decrypt_easy_rejects_short P c.cipher k aad input).1⟩
    · obtain ⟨e, h1, h2⟩ := hbad h
      rw [h1, h2]
      simp

/-- C178: encrypting with a usable cipher key succeeds, and what was encrypted is decrypted, for plaintexts that are long
enough for the cipher (0, 16, 12, 12 and 8 bytes); shorter ones are encrypted but cannot be decrypted. -/
theorem wasm_cipher_round_trip_partial (P : Prims) (hP : P.digestSizes) (c : CipherKey) (hc : c.Good) (nonce aad pt : Bytes)
    (hn : nonce.length = (c.cipher.cipher P).nonceSize) :
    ∃ ct, wEncrypt P c nonce aad pt = .ok ct ∧
      wDecrypt P c aad ct = if c.cipher.minPlaintext ≤ pt.length then .ok pt else .err "_e" := by
  obtain ⟨k, hk, hl⟩ := hc
  obtain ⟨ct, hct, -⟩ := encryptEasy_ok P c.cipher k nonce aad pt
  refine ⟨nonce ++ ct, ?_, ?_⟩
  · rw [wEncrypt, (operation_eq P c _).1 k hk hl, hct]; rfl
  · rw [wDecrypt, (operation_eq P c _).1 k hk hl]
    have h := easy_round_trip_partial P hP c.cipher k nonce aad pt hn
    unfold easyRoundTrip at h
    rw [hct, Res.ok_bind] at h
    rw [h]
    split_ifs <;> rfl

/-! ## C179 -/

section
variable {F K S GT : Type} [Field F] [AddCommGroup K] [Module F K] [AddCommGroup S] [Module F S]
  [AddCommGroup GT] [Module F GT] [DecidableEq GT]

/-- C179: every BLS object written is read back, point and bytes. -/
theorem bls_json_round_trip {G : Type} (t : Txt G) (x : BLS.Encoded G) :
    encodedFromJson t (encodedToJson t x) = .ok x := by
  have e1 : req [("point", t.write x.point), ("bytes", bytesToJson x.bytes)] "point" t.read = .ok x.point := by
    simp [req, roundTrip_txt]
  have e2 : req [("point", t.write x.point), ("bytes", bytesToJson x.bytes)] "bytes" readBytes = .ok x.bytes := by
    simp [req, roundTrip_bytes]
  simp only [encodedFromJson, encodedToJson, fields, Res.ok_bind, e1, e2, Res.pure_eq]

/-- an object whose bytes are those of its point -/
def Consistent {G : Type} (c : BLS.PointCodec G) (x : BLS.Encoded G) : Prop := BLS.Encoded.fromBytes c x.bytes = .ok x

/-- C179, what holds: the objects that the library makes or reads from bytes are consistent, and stay so when they are
written as JSON and read back. -/
theorem bls_json_consistent_partial (c : BLS.PointCodec K) (cs : BLS.PointCodec S) (t : Txt K) (ts : Txt S) (gen : K) (sk : F)
    (sha : Bytes → S) (m b : Bytes) (x : BLS.Encoded K) (hx : BLS.Encoded.fromBytes c b = .ok x) :
    (∃ y, encodedFromJson t (encodedToJson t (BLS.verKeyNew c gen sk)) = .ok y ∧ Consistent c y) ∧
    (∃ y, encodedFromJson ts (encodedToJson ts (BLS.sign cs sha m sk)) = .ok y ∧ Consistent cs y) ∧
    (∃ y, encodedFromJson t (encodedToJson t x) = .ok y ∧ Consistent c y ∧ y.bytes = b) := by
  refine ⟨⟨_, bls_json_round_trip t _, ?_⟩, ⟨_, bls_json_round_trip ts _, ?_⟩, ⟨_, bls_json_round_trip t _, ?_, ?_⟩⟩
  · simp [Consistent, BLS.Encoded.fromBytes, BLS.PointCodec.parse, BLS.verKeyNew, c.enc_length, c.dec_enc]
  · simp [Consistent, BLS.Encoded.fromBytes, BLS.PointCodec.parse, BLS.sign, cs.enc_length, cs.dec_enc]
  · unfold BLS.Encoded.fromBytes at hx
    obtain ⟨p, hp, h⟩ := Res.bind_eq_ok.mp hx
    cases h
    simp only [Consistent, BLS.Encoded.fromBytes, hp, Res.ok_bind, Res.pure_eq]
  · unfold BLS.Encoded.fromBytes at hx
    obtain ⟨p, hp, h⟩ := Res.bind_eq_ok.mp hx
    cases h
    rfl

/-- C179 fails: for any two secrets there is a document, written down here, that is read as a verification key whose bytes
are those of the key of the first, but which accepts the signatures and the proof of possession of the second; its own
bytes read back give a key that does not accept them. -/
theorem bls_json_key_confusion (e : K →ₗ[F] S →ₗ[F] GT) (c : BLS.PointCodec K) (cs : BLS.PointCodec S) (t : Txt K)
    (sha keccak : Bytes → S) (gen : K) (sk sk' : F) (m : Bytes) (hnd : BLS.NonDeg e gen)
    (hm : sk • sha m ≠ sk' • sha m) (hb : sk • keccak (c.enc (sk • gen)) ≠ sk' • keccak (c.enc (sk • gen))) :
    ∃ vk, encodedFromJson t (.obj [("point", .str (t.enc (sk' • gen))), ("bytes", bytesToJson (c.enc (sk • gen)))]) = .ok vk ∧
      vk.bytes = (BLS.verKeyNew c gen sk).bytes ∧ ¬ Consistent c vk ∧
      BLS.verify e sha (BLS.sign cs sha m sk') m vk gen = true ∧
      BLS.verifyPop e keccak (BLS.popNew cs keccak vk sk') vk gen = true ∧
      BLS.verify e sha (BLS.sign cs sha m sk) m vk gen = false ∧
      ∃ vk', BLS.Encoded.fromBytes c vk.bytes = .ok vk' ∧
        BLS.verify e sha (BLS.sign cs sha m sk') m vk' gen = false ∧
        BLS.verifyPop e keccak (BLS.popNew cs keccak vk sk') vk' gen = false := by
  have hread := bls_json_round_trip t (⟨sk' • gen, c.enc (sk • gen)⟩ : BLS.Encoded K)
  have hfrom : BLS.Encoded.fromBytes c (c.enc (sk • gen)) = .ok ⟨sk • gen, c.enc (sk • gen)⟩ := by
    simp [BLS.Encoded.fromBytes, BLS.PointCodec.parse, c.enc_length, c.dec_enc]
  have hne : sk ≠ sk' := fun h => hm (by rw [h])
  have h1 : ∀ x : BLS.Encoded S, ∀ s : F, ∀ b : Bytes, BLS.verify e sha x m (⟨s • gen, b⟩ : BLS.Encoded K) gen = true ↔
      x.point = s • sha m := fun x s b => BLS.verifySignature_iff e sha x.point m gen s hnd
  have h2 : ∀ x : BLS.Encoded S, ∀ s : F, ∀ b : Bytes, BLS.verifyPop e keccak x (⟨s • gen, b⟩ : BLS.Encoded K) gen = true ↔
      x.point = s • keccak b := fun x s b => BLS.verifySignature_iff e keccak x.point b gen s hnd
  refine ⟨_, hread, rfl, ?_, ?_, ?_, ?_, ⟨_, hfrom, ?_, ?_⟩⟩
  · intro hcons
    unfold Consistent at hcons
    rw [hfrom] at hcons
    have : sk • gen = sk' • gen := by
      injection hcons with h
      injection h
    have h3 := (h1 (BLS.sign cs sha m sk) sk []).mpr rfl
    rw [this] at h3
    exact hm ((h1 (BLS.sign cs sha m sk) sk' []).mp h3)
  · exact (h1 _ sk' _).mpr rfl
  · exact (h2 _ sk' _).mpr rfl
  · rw [Bool.eq_false_iff, ne_eq, h1]
    exact hm
  · rw [Bool.eq_false_iff, ne_eq, h1]
    exact fun h => hm h.symm
  · rw [Bool.eq_false_iff, ne_eq, h2]
    exact fun h => hb h.symm

/-- C179: through the interface, a signature is checked for the message and the key given. -/
theorem wasm_bls_verify (e : K →ₗ[F] S →ₗ[F] GT) (c : BLS.PointCodec K) (sha : Bytes → S) (m : Bytes) (sig : BLS.Encoded S)
    (gen : BLS.Encoded K) (sk : F) (hnd : BLS.NonDeg e gen.point) :
    (wBlsVerify e sha m sig (BLS.verKeyNew c gen.point sk) gen = .ok true ↔ sig.point = sk • sha m) ∧
    (wBlsVerify e sha m sig (BLS.verKeyNew c gen.point sk) gen = .ok false ↔ sig.point ≠ sk • sha m) := by
  have h := BLS.bls_accept_iff e c sha sig m gen.point sk hnd
  unfold wBlsVerify
  rw [Res.ok.injEq, Res.ok.injEq, ne_eq, ← h]
  exact ⟨Iff.rfl, by simp⟩

theorem mapM_read {α : Type} (r : Reader α) (docs : List Json) :
    (∀ l, List.Forall₂ (fun j x => r j = .ok x) docs l →
      docs.mapM (readOrCrash r) = .ok l) ∧
    ((∃ j ∈ docs, ∀ x, r j ≠ .ok x) →
      docs.mapM (readOrCrash r) = .panic) := by
  constructor
  · intro l h
    induction h with
    | nil => rfl
    | cons hx _ ih =>
      rw [List.mapM_cons, ih, readOrCrash, hx]
      rfl
  · rintro ⟨j, hj, hx⟩
    induction docs with
    | nil => simp at hj
    | cons d docs ih =>
      rw [List.mapM_cons, readOrCrash]
      cases hd : r d with
      | ok a =>
        have : j ∈ docs := by
          rcases List.mem_cons.mp hj with rfl | h
          · exact absurd hd (hx a)
          · exact h
        simp only [Res.ok_bind, ih this, Res.panic_bind]
      | err e => rfl
      | panic => rfl

/-- C179: multi-signatures through the interface: signatures and keys are given as documents; if all of them can be read,
the result is the native one; if one of them cannot be read, the call crashes. -/
theorem wasm_multisig (e : K →ₗ[F] S →ₗ[F] GT) (cs : BLS.PointCodec S) (sha : Bytes → S) (t : Txt K) (ts : Txt S)
    (ms : BLS.Encoded S) (m : Bytes) (sigDocs keyDocs : List Json) (gen : BLS.Encoded K) :
    (∀ sigs, List.Forall₂ (fun j x => encodedFromJson ts j = .ok x) sigDocs sigs →
      wMultiSigNew cs ts sigDocs = .ok (BLS.multiSigNew cs sigs)) ∧
    ((∃ j ∈ sigDocs, ∀ x, encodedFromJson ts j ≠ .ok x) → wMultiSigNew cs ts sigDocs = .panic) ∧
    (∀ vks, List.Forall₂ (fun j x => encodedFromJson t j = .ok x) keyDocs vks →
      wVerifyMultiSig e sha t ms m keyDocs gen = .ok (BLS.verifyMultiSig e sha ms m vks gen.point)) ∧
    ((∃ j ∈ keyDocs, ∀ x, encodedFromJson t j ≠ .ok x) → wVerifyMultiSig e sha t ms m keyDocs gen = .panic) := by
  refine ⟨fun l h => ?_, fun h => ?_, fun l h => ?_, fun h => ?_⟩
  · rw [wMultiSigNew, (mapM_read _ _).1 l h]; rfl
  · rw [wMultiSigNew, (mapM_read _ _).2 h]; rfl
  · rw [wVerifyMultiSig, (mapM_read _ _).1 l h]; rfl
  · rw [wVerifyMultiSig, (mapM_read _ _).2 h]; rfl

/-- C179: all signers of a message, end to end through the interface: keys and signatures are passed as the documents that
the library writes, in any order. -/
theorem wasm_multisig_honest (e : K →ₗ[F] S →ₗ[F] GT) (c : BLS.PointCodec K) (cs : BLS.PointCodec S) (sha : Bytes → S)
    (t : Txt K) (ts : Txt S) (m : Bytes) (gen : BLS.Encoded K) (sks sks' : List F) (hp : sks'.Perm sks) :
    ∃ ms, wMultiSigNew cs ts (sks'.map (fun sk => encodedToJson ts (BLS.sign cs sha m sk))) = .ok ms ∧
      wVerifyMultiSig e sha t ms m (sks.map (fun sk => encodedToJson t (BLS.verKeyNew c gen.point sk))) gen = .ok true := by
  have f1 : List.Forall₂ (fun j x => encodedFromJson ts j = .ok x)
      (sks'.map (fun sk => encodedToJson ts (BLS.sign cs sha m sk))) (BLS.Signers.sigs cs sha m sks') := by
    unfold BLS.Signers.sigs
    rw [List.forall₂_map_left_iff, List.forall₂_map_right_iff, List.forall₂_same]
    exact fun sk _ => bls_json_round_trip ts _
  have f2 : List.Forall₂ (fun j x => encodedFromJson t j = .ok x)
      (sks.map (fun sk => encodedToJson t (BLS.verKeyNew c gen.point sk))) (BLS.Signers.keys c gen.point sks) := by
    unfold BLS.Signers.keys
    rw [List.forall₂_map_left_iff, List.forall₂_map_right_iff, List.forall₂_same]
    exact fun sk _ => bls_json_round_trip t _
  refine ⟨_, (wasm_multisig e cs sha t ts ⟨0, []⟩ m _ [] gen).1 _ f1, ?_⟩
  rw [(wasm_multisig e cs sha t ts _ m [] _ gen).2.2.1 _ f2]
  rw [BLS.bls_multisig_honest e c cs sha m gen.point sks sks' hp]

end

/-! ## Non-vacuity -/

section
open Verif.Toy BLS.Toy

/-- keys of the toy group are written as one byte -/
def toyPoint : BLS.PointCodec (ZMod 101) where
  size := 1
  enc p := [UInt8.ofNat p.val]
  dec b := ((b.headD 0).toNat : ZMod 101)
  enc_length := fun _ => rfl
  dec_enc := by decide +kernel

/-- and as a text of that many strokes -/
def toyTxt : Txt (ZMod 101) where
  enc p := String.ofList (List.replicate p.val '|')
  dec s := (s.toList.length : ZMod 101)
  dec_enc := fun p => by
    haveI := fact101
    simp

theorem toyNonDeg : BLS.NonDeg e (3 : ZMod 101) := by
  intro s hs
  have : (3 : ZMod 101) * s = 0 := hs
  rcases mul_eq_zero.1 this with h | h
  · exact absurd h (by decide +kernel)
  · exact h

-- the hypotheses of `bls_json_key_confusion` are met
example := bls_json_key_confusion e toyPoint toyPoint toyTxt h h 3 7 8 [1, 2] toyNonDeg (by decide +kernel) (by decide +kernel)

-- an empty document list, a good one and a bad one
example : wVerifyMultiSig e h toyTxt ⟨7 • h [1], []⟩ [1] [.str "key"] ⟨3, []⟩ = .panic :=
  (wasm_multisig e toyPoint h toyTxt toyTxt ⟨7 • h [1], []⟩ [1] [] [.str "key"] ⟨3, []⟩).2.2.2 ⟨.str "key", by simp, by
    intro x hx; cases hx⟩

-- keys through the interface
example := wasm_ed25519 toyDalek (List.replicate 32 1) [] [1, 2, 3] [9, 9] (by simp) _
  (Or.inr (wasm_ed25519_keys toyDalek (List.replicate 32 1) [1, 2, 3]).2.choose_spec)

example : wSign (ed25519 toyDalek []) [1] "no key".toList = .panic :=
  ((wasm_ed25519_crash_iff toyDalek [] [1] [] _).1).mpr (by decide +kernel)

example : wSign (ed25519 toyDalek []) [1] "00".toList = .err "_e" := by
  have := (wasm_native (ed25519 toyDalek []) (x25519 toyDalek []) [1] [] [] "00".toList "00".toList [0] [0]
    (by refine ⟨?_, ?_, ?_⟩ <;> decide +kernel) (by refine ⟨?_, ?_, ?_⟩ <;> decide +kernel)).2.2.2.1.2.1 ⟨.keyGenError, rfl⟩
  obtain ⟨t, ht⟩ := this
  rw [ht, (wasm_errors_say_nothing (ed25519 toyDalek []) (x25519 toyDalek []) (fun b => .ok b) 0 [1] [] [] "00".toList []
    t).2.2.2.1 ht]

-- a usable cipher key in upper case, and one of the wrong length
example : (CipherKey.mk .Aes128Gcm (List.replicate 32 'A')).Good := by
  refine ⟨List.replicate 16 170, ⟨?_, ?_, ?_⟩, ?_⟩ <;> decide +kernel
example : cipherWithKey "aes-128-gcm" (List.replicate 30 'A') = .err "Invalid key length for given cipher" := by decide +kernel
example : wEncrypt toyPrims ⟨.Aes128Gcm, "xyz".toList⟩ [] [] [] = .err "_e" := by decide +kernel
end

end Verif.Wasm
