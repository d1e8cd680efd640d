import Verif.Props.Symm
import Verif.Props.Ed25519Forgery
import Verif.Props.RSACount
/-!
# C214: ciphertexts of AES-CBC-HMAC cannot be forged

Someone who does not know the key has an `encrypt_easy` and a `decrypt_easy` at their disposal and uses them as they like: every next
order may depend on all answers so far.  They win if `decrypt_easy` ever accepts a pair of associated data and ciphertext that
`encrypt_easy` has not produced before.  HMAC is a random function of its input (`f`); the block cipher and its key are arbitrary, the
nonces are arbitrary, too.  All associated data have the same length: `aad_shift_forgery` (C71) shows that this is necessary.
-/
set_option linter.unusedSectionVars false
set_option linter.unusedVariables false
set_option linter.unusedSimpArgs false
namespace Verif.Symm
open Verif.Forking Verif.Sig

/-! ## The game -/

/-- what the attacker can ask for: `encrypt_easy(aad, msg)` or `decrypt_easy(aad, ct)` -/
inductive Order where
  | enc (aad msg : Bytes)
  | dec (aad ct : Bytes)

/-- an attacker: the next order, given the answers so far (latest first) -/
abbrev Player := List (Res Unit Bytes) → Order

/-- the answer of the holder of the key; `nonce` is what `nonce_gen` draws if the order is an encryption -/
def answer (C : Cipher) (key nonce : Bytes) : Order → Res Unit Bytes
  | .enc aad msg => encryptEasy C key nonce aad msg
  | .dec aad ct => decryptEasy C key aad ct

/-- orders and answers of the first `n` steps (latest first) -/
def play (C : Cipher) (key : Bytes) (nonces : Nat → Bytes) (A : Player) : Nat → List (Order × Res Unit Bytes)
  | 0 => []
  | n + 1 =>
    let t := play C key nonces A n
    (A (t.map Prod.snd), answer C key (nonces n) (A (t.map Prod.snd))) :: t

/-- the pair has been produced by an encryption -/
def Made (t : List (Order × Res Unit Bytes)) (aad ct : Bytes) : Prop := ∃ msg, (Order.enc aad msg, Res.ok ct) ∈ t

/-- some pair was accepted that had not been produced before -/
def Forged : List (Order × Res Unit Bytes) → Prop
  | [] => False
  | (o, r) :: t => Forged t ∨ ∃ aad ct pt, o = .dec aad ct ∧ r = .ok pt ∧ ¬ Made t aad ct

/-- a MAC of `s` bytes that is a function chosen at random (the key is the choice); byte strings up to length `L` are told apart -/
def randomMac {L s : Nat} (f : Query L → Str s) : Mac where
  tag := fun _ m => (f (query L m)).1
  size := s
  tag_length := fun _ m => (f (query L m)).2

/-- the attacker uses associated data of `a` bytes and asks for nothing longer than `L` bytes -/
def Player.Fits (A : Player) (a L : Nat) : Prop := ∀ h, match A h with
  | .enc aad msg => aad.length = a ∧ a + 16 + 16 * (msg.length / 16 + 1) ≤ L
  | .dec aad ct => aad.length = a ∧ a + ct.length ≤ L

/-- how many of the orders that lead to these answers are decryptions -/
def Player.decs (A : Player) : List (Res Unit Bytes) → Nat
  | [] => 0
  | _ :: h => (match A h with | .dec _ _ => 1 | .enc _ _ => 0) + A.decs h

/-! ## What the answers depend on -/

/-- what the MAC is computed over: associated data, nonce and ciphertext proper -/
def point (s : Nat) (aad ct : Bytes) : Bytes := aad ++ ct.take (ct.length - s)

section any
variable (bc : BlockCipher) (mac : Mac) (ak ks : Nat) (key : Bytes)

theorem enc_form (nonce aad msg : Bytes) (hn : nonce.length = 16) :
    ∃ ct, encryptEasy (cbcHmac bc mac ak ks 16 mac.size) key nonce aad msg = .ok ct ∧
      point mac.size aad ct = aad ++ (nonce ++ cbcEncrypt bc (key.take ak) nonce msg) ∧
      ct = nonce ++ cbcEncrypt bc (key.take ak) nonce msg ++ mac.tag (key.drop ak) (point mac.size aad ct) ∧
      ct.drop (ct.length - mac.size) = mac.tag (key.drop ak) (point mac.size aad ct) := by
  obtain ⟨c, hc⟩ : ∃ c, c = cbcEncrypt bc (key.take ak) nonce msg := ⟨_, rfl⟩
  refine ⟨nonce ++ c ++ mac.tag (key.drop ak) (aad ++ (nonce ++ c)), ?_, ?_⟩
  · simp only [encryptEasy, cbcHmac, cbcHmacEncrypt, Res.ok_bind, Res.pure_eq, ← hc, List.append_assoc]
  · have hl : (nonce ++ c ++ mac.tag (key.drop ak) (aad ++ (nonce ++ c))).length - mac.size = (nonce ++ c).length := by
      rw [List.length_append, mac.tag_length]; omega
    have hp : point mac.size aad (nonce ++ c ++ mac.tag (key.drop ak) (aad ++ (nonce ++ c))) = aad ++ (nonce ++ c) := by
      unfold point
      rw [hl, List.take_left' rfl]
    rw [hp, hl, List.drop_left' rfl, ← hc]
    exact ⟨rfl, rfl, rfl⟩

theorem dec_not_panic (aad ct : Bytes) : decryptEasy (cbcHmac bc mac ak ks 16 mac.size) key aad ct ≠ .panic := by
  simp only [decryptEasy, cbcHmac]
  split_ifs with h1 h2
  · simp
  · omega
  · exact cbcHmacDecrypt_not_panic _ _ _ _ _ _ _ _

/-- a decryption looks at the MAC of one string only -/
theorem dec_congr (mac' : Mac) (hs : mac'.size = mac.size) (aad ct : Bytes)
    (h : mac.tag (key.drop ak) (point mac.size aad ct) = mac'.tag (key.drop ak) (point mac.size aad ct)) :
    decryptEasy (cbcHmac bc mac ak ks 16 mac.size) key aad ct = decryptEasy (cbcHmac bc mac' ak ks 16 mac'.size) key aad ct := by
  rw [hs]
  simp only [decryptEasy, cbcHmac]
  split_ifs with h1 h2
  · rfl
  · rfl
  · unfold cbcHmacDecrypt
    by_cases h3 : (ct.drop 16).length < mac.size + ak
    · rw [if_pos h3, if_pos h3]
    · rw [if_neg h3, if_neg h3]
      have h16 : mac.size + ak ≤ ct.length - 16 := by rw [List.length_drop] at h3; omega
      have e1 : ct.take 16 ++ (ct.drop 16).take ((ct.drop 16).length - mac.size) = ct.take (ct.length - mac.size) := by
        rw [List.length_drop, ← List.take_add]
        congr 1; omega
      dsimp only
      rw [List.append_assoc, e1]
      unfold point at h
      rw [h]

end any

/-! ## A MAC forgery inside -/

section reduction
variable (bc : BlockCipher) (mac : Mac) (ak ks : Nat) (key : Bytes) (nonces : Nat → Bytes) (A : Player)

/-- what is known about the encryptions of a run -/
theorem play_enc (hn : ∀ i, (nonces i).length = 16) (a : Nat) (hA : ∀ h, match A h with | .enc aad _ => aad.length = a | .dec aad _ => aad.length = a)
    (n : Nat) (aad msg ct : Bytes) (h : (Order.enc aad msg, Res.ok ct) ∈ play (cbcHmac bc mac ak ks 16 mac.size) key nonces A n) :
    aad.length = a ∧ ct.drop (ct.length - mac.size) = mac.tag (key.drop ak) (point mac.size aad ct) := by
  induction n with
  | zero => simp [play] at h
  | succ n ih =>
    simp only [play, List.mem_cons, Prod.mk.injEq] at h
    rcases h with ⟨h1, h2⟩ | h
    · have := hA ((play (cbcHmac bc mac ak ks 16 mac.size) key nonces A n).map Prod.snd)
      rw [← h1] at this h2
      refine ⟨this, ?_⟩
      obtain ⟨ct', e, -, -, e'⟩ := enc_form bc mac ak ks key (nonces n) aad msg (hn n)
      rw [answer, e, Res.ok.injEq] at h2
      rw [h2]
      exact e'
    · exact ih h

/-- C214: whatever the MAC: an accepted pair that had not been produced carries a valid tag of a string whose MAC had not been computed by
an encryption before — a forgery of the MAC.  (The attacker and the cipher together are an attacker of the MAC, asking it for the tags of
the encryptions.) -/
theorem forgery_forges_mac (hn : ∀ i, (nonces i).length = 16) (a : Nat)
    (hA : ∀ h, match A h with | .enc aad _ => aad.length = a | .dec aad _ => aad.length = a) (n : Nat)
    (h : Forged (play (cbcHmac bc mac ak ks 16 mac.size) key nonces A n)) :
    ∃ j < n, ∃ aad ct, A ((play (cbcHmac bc mac ak ks 16 mac.size) key nonces A j).map Prod.snd) = .dec aad ct ∧
      mac.tag (key.drop ak) (aad ++ ct.take (ct.length - mac.size)) = ct.drop (ct.length - mac.size) ∧
      ∀ aad' msg' ct', (Order.enc aad' msg', Res.ok ct') ∈ play (cbcHmac bc mac ak ks 16 mac.size) key nonces A j →
        aad' ++ ct'.take (ct'.length - mac.size) ≠ aad ++ ct.take (ct.length - mac.size) := by
  induction n with
  | zero => exact absurd h (by simp [play, Forged])
  | succ n ih =>
    simp only [play, Forged] at h
    rcases h with h | ⟨aad, ct, pt, h1, h2, h3⟩
    · obtain ⟨j, hj, r⟩ := ih h
      exact ⟨j, Nat.lt_succ_of_lt hj, r⟩
    · rw [h1, answer] at h2
      have ht := cbcHmac_accept_tag bc mac ak ks mac.size key aad ct pt h2
      refine ⟨n, Nat.lt_succ_self n, aad, ct, h1, ht, ?_⟩
      intro aad' msg' ct' hm he
      obtain ⟨e1, e2⟩ := play_enc bc mac ak ks key nonces A hn a hA n aad' msg' ct' hm
      have ha := hA ((play (cbcHmac bc mac ak ks 16 mac.size) key nonces A n).map Prod.snd)
      rw [h1] at ha
      obtain ⟨e3, e4⟩ := List.append_inj he (e1.trans ha.symm)
      refine h3 ⟨msg', ?_⟩
      have : ct' = ct := by
        rw [← List.take_append_drop (ct'.length - mac.size) ct', ← List.take_append_drop (ct.length - mac.size) ct, e2, e4]
        congr 1
        rw [← ht, point, e4, e3]
      rw [← this, ← e3]
      exact hm

end reduction

/-! ## The probability -/

section count
variable (bc : BlockCipher) (ak ks : Nat) (key : Bytes) (nonces : Nat → Bytes) (A : Player) {L s : Nat}

/-- the cipher with a random MAC -/
@[reducible] def withMac (f : Query L → Str s) : Cipher := cbcHmac bc (randomMac f) ak ks 16 s

open Classical in
/-- the answer when every forgery is rejected -/
noncomputable def answer0 (C : Cipher) (key nonce : Bytes) (t : List (Order × Res Unit Bytes)) : Order → Res Unit Bytes
  | .enc aad msg => encryptEasy C key nonce aad msg
  | .dec aad ct => if Made t aad ct then decryptEasy C key aad ct else .err ()

/-- the run when every forgery is rejected -/
noncomputable def play0 (C : Cipher) (key : Bytes) (nonces : Nat → Bytes) (A : Player) : Nat → List (Order × Res Unit Bytes)
  | 0 => []
  | n + 1 =>
    let t := play0 C key nonces A n
    (A (t.map Prod.snd), answer0 C key (nonces n) t (A (t.map Prod.snd))) :: t

/-- the next order is a decryption of a pair that has not been produced, with the right tag -/
def Hit (f : Query L → Str s) (j : Nat) : Prop :=
  let t := play0 (withMac bc ak ks f) key nonces A j
  ∃ aad ct, A (t.map Prod.snd) = .dec aad ct ∧ ¬ Made t aad ct ∧ (f (query L (point s aad ct))).1 = ct.drop (ct.length - s)

theorem play0_not_forged (C : Cipher) (n : Nat) : ¬ Forged (play0 C key nonces A n) := by
  induction n with
  | zero => simp [play0, Forged]
  | succ n ih =>
    simp only [play0, Forged]
    rintro (h | ⟨aad, ct, pt, h1, h2, h3⟩)
    · exact ih h
    · rw [h1, answer0, if_neg h3] at h2
      cases h2

theorem play_eq (f : Query L → Str s) (n : Nat) :
    play (withMac bc ak ks f) key nonces A n = play0 (withMac bc ak ks f) key nonces A n ∨ ∃ j < n, Hit bc ak ks key nonces A f j := by
  induction n with
  | zero => exact .inl rfl
  | succ n ih =>
    rcases ih with ih | ⟨j, hj, h⟩
    · by_cases hh : Hit bc ak ks key nonces A f n
      · exact .inr ⟨n, Nat.lt_succ_self n, hh⟩
      · left
        simp only [play, play0]
        rw [ih]
        congr 2
        cases ho : A ((play0 (withMac bc ak ks f) key nonces A n).map Prod.snd) with
        | enc aad msg => rfl
        | dec aad ct =>
          simp only [answer, answer0]
          by_cases hm : Made (play0 (withMac bc ak ks f) key nonces A n) aad ct
          · rw [if_pos hm]
          · rw [if_neg hm]
            cases hd : decryptEasy (withMac bc ak ks f) key aad ct with
            | err e => rfl
            | panic => exact absurd hd (dec_not_panic bc (randomMac f) ak ks key aad ct)
            | ok pt => exact absurd ⟨aad, ct, ho, hm, cbcHmac_accept_tag bc (randomMac f) ak ks s key aad ct pt hd⟩ hh
    · exact .inr ⟨j, Nat.lt_succ_of_lt hj, h⟩

variable (hn : ∀ i, (nonces i).length = 16) (a : Nat) (hA : A.Fits a L)
include hn hA

theorem play0_enc (f : Query L → Str s) (n : Nat) (aad msg ct : Bytes)
    (h : (Order.enc aad msg, Res.ok ct) ∈ play0 (withMac bc ak ks f) key nonces A n) :
    aad.length = a ∧ (point s aad ct).length ≤ L ∧ ct.drop (ct.length - s) = (f (query L (point s aad ct))).1 := by
  induction n with
  | zero => simp [play0] at h
  | succ n ih =>
    simp only [play0, List.mem_cons, Prod.mk.injEq] at h
    rcases h with ⟨h1, h2⟩ | h
    · have := hA ((play0 (withMac bc ak ks f) key nonces A n).map Prod.snd)
      rw [← h1] at this h2
      obtain ⟨ct', e, e1, -, e2⟩ := enc_form bc (randomMac f) ak ks key (nonces n) aad msg (hn n)
      rw [answer0] at h2
      have h2 := h2.trans e
      rw [Res.ok.injEq] at h2
      rw [h2]
      refine ⟨this.1, ?_, e2⟩
      have e1 : point s aad ct' = _ := e1
      rw [e1, List.length_append, List.length_append, cbcEncrypt_length _ _ _ _ (hn n), hn n, this.1]
      omega
    · exact ih h

/-- the run depends on the random function at the strings that have been encrypted only -/
theorem play0_congr (f g : Query L → Str s) (n : Nat)
    (h : ∀ aad msg ct, (Order.enc aad msg, Res.ok ct) ∈ play0 (withMac bc ak ks f) key nonces A n →
      f (query L (point s aad ct)) = g (query L (point s aad ct))) :
    play0 (withMac bc ak ks f) key nonces A n = play0 (withMac bc ak ks g) key nonces A n := by
  induction n with
  | zero => rfl
  | succ n ih =>
    have ih := ih (fun aad msg ct hm => h aad msg ct (by simp only [play0]; exact List.mem_cons_of_mem _ hm))
    simp only [play0]
    rw [← ih]
    congr 2
    cases ho : A ((play0 (withMac bc ak ks f) key nonces A n).map Prod.snd) with
    | enc aad msg =>
      obtain ⟨ct, e, e1, e2, -⟩ := enc_form bc (randomMac f) ak ks key (nonces n) aad msg (hn n)
      obtain ⟨ct', e', e1', e2', -⟩ := enc_form bc (randomMac g) ak ks key (nonces n) aad msg (hn n)
      have hm := h aad msg ct (by
        simp only [play0, ho, answer0]
        exact List.mem_cons.2 (.inl (by rw [Prod.mk.injEq]; exact ⟨rfl, e.symm⟩)))
      simp only [answer0]
      refine e.trans (Eq.trans ?_ e'.symm)
      rw [e2, e2', e1, e1']
      have : (randomMac f).tag (key.drop ak) (aad ++ (nonces n ++ cbcEncrypt bc (key.take ak) (nonces n) msg)) =
          (randomMac g).tag (key.drop ak) (aad ++ (nonces n ++ cbcEncrypt bc (key.take ak) (nonces n) msg)) := by
        have e1 : point s aad ct = _ := e1
        rw [e1] at hm
        exact congrArg Subtype.val hm
      rw [this]
    | dec aad ct =>
      simp only [answer0]
      by_cases hm : Made (play0 (withMac bc ak ks f) key nonces A n) aad ct
      · rw [if_pos hm, if_pos hm]
        obtain ⟨msg, hm⟩ := hm
        have := h aad msg ct (by simp only [play0]; exact List.mem_cons_of_mem _ hm)
        exact dec_congr bc (randomMac f) ak ks key (randomMac g) rfl aad ct (congrArg Subtype.val this)
      · rw [if_neg hm, if_neg hm]

/-- the string of the next order -/
noncomputable def next (f : Query L → Str s) (j : Nat) : Query L :=
  match A ((play0 (withMac bc ak ks f) key nonces A j).map Prod.snd) with
  | .dec aad ct => query L (point s aad ct)
  | .enc _ _ => query L []

/-- a hit is about a string that has not been encrypted -/
theorem hit_fresh (f : Query L → Str s) (j : Nat) (h : Hit bc ak ks key nonces A f j) (aad' msg' ct' : Bytes)
    (hm : (Order.enc aad' msg', Res.ok ct') ∈ play0 (withMac bc ak ks f) key nonces A j) :
    query L (point s aad' ct') ≠ next bc ak ks key nonces A f j := by
  obtain ⟨aad, ct, h1, h2, h3⟩ := h
  have ha := hA ((play0 (withMac bc ak ks f) key nonces A j).map Prod.snd)
  rw [h1] at ha
  obtain ⟨e1, e2, e3⟩ := play0_enc bc ak ks key nonces A hn a hA f j aad' msg' ct' hm
  unfold next
  rw [h1]
  intro he
  dsimp only at he
  have hl : (point s aad ct).length ≤ L := by
    unfold point
    rw [List.length_append, List.length_take, ha.1]
    have := ha.2
    omega
  have hp : point s aad' ct' = point s aad ct := by
    have := congrArg Subtype.val he
    rwa [query_val _ _ e2, query_val _ _ hl] at this
  obtain ⟨e4, e5⟩ := List.append_inj hp (e1.trans ha.1.symm)
  refine h2 ⟨msg', ?_⟩
  have : ct' = ct := by
    rw [← List.take_append_drop (ct'.length - s) ct', ← List.take_append_drop (ct.length - s) ct, e5, ← h3, e3, hp]
  rw [← this, ← e4]
  exact hm

/-- choosing another tag for the string of a hit changes nothing before -/
theorem hit_update (f : Query L → Str s) (j : Nat) (h : Hit bc ak ks key nonces A f j) (t : Str s) :
    play0 (withMac bc ak ks (Function.update f (next bc ak ks key nonces A f j) t)) key nonces A j =
      play0 (withMac bc ak ks f) key nonces A j := by
  refine (play0_congr bc ak ks key nonces A hn a hA f _ j ?_).symm
  intro aad msg ct hm
  rw [Function.update_of_ne (hit_fresh bc ak ks key nonces A hn a hA f j h aad msg ct hm)]

/-- the step is a decryption -/
def IsDec (f : Query L → Str s) (j : Nat) : Prop :=
  ∃ aad ct, A ((play0 (withMac bc ak ks f) key nonces A j).map Prod.snd) = .dec aad ct

theorem pr_hit (j : Nat) : pr (fun f : Query L → Str s => Hit bc ak ks key nonces A f j) * 256 ^ s ≤
    pr (fun f : Query L → Str s => IsDec bc ak ks key nonces A f j) := by
  have key' := pr_embed (Ω := (Query L → Str s) × Str s) (Ω' := Query L → Str s) (fun p => Hit bc ak ks key nonces A p.1 j)
    (fun f => IsDec bc ak ks key nonces A f j) (fun p => Function.update p.1 (next bc ak ks key nonces A p.1 j) p.2) ?_ ?_
  · rw [pr_fst (fun f : Query L → Str s => Hit bc ak ks key nonces A f j), Fintype.card_prod, Nat.cast_mul, Str.card] at key'
    have hΩ : (0 : ℚ) < Fintype.card (Query L → Str s) := by exact_mod_cast Fintype.card_pos
    refine le_of_mul_le_mul_right ?_ hΩ
    push_cast at key'
    linarith
  · rintro ⟨f, t⟩ hf ⟨g, u⟩ hg he
    dsimp only at hf hg he
    have ef := hit_update bc ak ks key nonces A hn a hA f j hf t
    have eg := hit_update bc ak ks key nonces A hn a hA g j hg u
    rw [he, eg] at ef
    obtain ⟨aad, ct, h1, h2, h3⟩ := hf
    obtain ⟨aad', ct', h1', h2', h3'⟩ := hg
    rw [ef, h1] at h1'
    obtain ⟨rfl, rfl⟩ := Order.dec.inj h1'
    have en : next bc ak ks key nonces A f j = query L (point s aad ct) := by unfold next; rw [h1]
    have en' : next bc ak ks key nonces A g j = query L (point s aad ct) := by unfold next; rw [ef, h1]
    rw [en, en'] at he
    have hfg : f (query L (point s aad ct)) = g (query L (point s aad ct)) := Subtype.ext (h3.trans h3'.symm)
    have e1 : f = g := by
      funext x
      by_cases hx : x = query L (point s aad ct)
      · rw [hx]; exact hfg
      · have := congrFun he x
        rwa [Function.update_of_ne hx, Function.update_of_ne hx] at this
    have e2 : t = u := by
      have := congrFun he (query L (point s aad ct))
      rwa [Function.update_self, Function.update_self] at this
    rw [e1, e2]
  · rintro ⟨f, t⟩ hf
    dsimp only at hf ⊢
    unfold IsDec
    rw [hit_update bc ak ks key nonces A hn a hA f j hf t]
    obtain ⟨aad, ct, h1, -⟩ := hf
    exact ⟨aad, ct, h1⟩

end count

/-- events of which at most `d` happen in every case -/
theorem sum_pr_le {Ω : Type} [Fintype Ω] (n d : Nat) (P : Nat → Ω → Prop) [∀ j ω, Decidable (P j ω)]
    (h : ∀ ω, ((Finset.range n).filter (fun j => P j ω)).card ≤ d) : ∑ j ∈ Finset.range n, pr (P j) ≤ d := by
  have e : ∀ j, pr (P j) = (∑ ω : Ω, (if P j ω then (1 : ℚ) else 0)) / Fintype.card Ω := by
    intro j
    rw [pr_avg]
    congr 1
    exact Finset.sum_congr rfl fun ω _ => by congr
  simp only [e]
  rw [← Finset.sum_div, Finset.sum_comm]
  have : ∀ ω : Ω, (∑ j ∈ Finset.range n, (if P j ω then (1 : ℚ) else 0)) ≤ d := by
    intro ω
    rw [Finset.sum_boole]
    exact_mod_cast h ω
  refine le_trans (div_le_div_of_nonneg_right (Finset.sum_le_sum fun ω _ => this ω) (Nat.cast_nonneg _)) ?_
  rw [Finset.sum_const, nsmul_eq_mul, Finset.card_univ]
  rcases Nat.eq_zero_or_pos (Fintype.card Ω) with h0 | h0
  · rw [h0]; simp
  · rw [mul_comm, mul_div_assoc, div_self (by exact_mod_cast h0.ne'), mul_one]

theorem pr_exists_sum {Ω : Type} [Fintype Ω] (n : Nat) (P : Nat → Ω → Prop) :
    pr (fun ω => ∃ j < n, P j ω) ≤ ∑ j ∈ Finset.range n, pr (P j) := by
  induction n with
  | zero => simp [pr]
  | succ n ih =>
    rw [Finset.sum_range_succ]
    refine le_trans (le_trans (pr_mono (Q := fun ω => (∃ j < n, P j ω) ∨ P n ω) ?_) (pr_or _ _)) (by linarith)
    rintro ω ⟨j, hj, h⟩
    rcases Nat.lt_succ_iff_lt_or_eq.1 hj with hj | rfl
    · exact .inl ⟨j, hj, h⟩
    · exact .inr h

theorem decs_count (bc : BlockCipher) (ak ks : Nat) (key : Bytes) (nonces : Nat → Bytes) (A : Player) {L s : Nat} (f : Query L → Str s)
    [∀ j, Decidable (IsDec bc ak ks key nonces A f j)] (n : Nat) :
    ((Finset.range n).filter (fun j => IsDec bc ak ks key nonces A f j)).card =
      A.decs ((play0 (withMac bc ak ks f) key nonces A n).map Prod.snd) := by
  induction n with
  | zero => rfl
  | succ n ih =>
    rw [Finset.range_add_one, Finset.filter_insert]
    simp only [play0, List.map_cons, Player.decs]
    by_cases h : IsDec bc ak ks key nonces A f n
    · rw [if_pos h, Finset.card_insert_of_notMem (by simp), ih]
      obtain ⟨aad, ct, h⟩ := h
      rw [h]; dsimp only; omega
    · rw [if_neg h, ih]
      cases ho : A ((play0 (withMac bc ak ks f) key nonces A n).map Prod.snd) with
      | dec aad ct => exact absurd ⟨aad, ct, ho⟩ h
      | enc aad msg => dsimp only; omega

/-- C214: with HMAC a random function with tags of `s` bytes, an attacker who orders what they like in `n` steps, among them at most `d`
decryptions, gets `decrypt_easy` to accept a pair of associated data and ciphertext that was not produced before with probability at most
`d / 256^s`.  The block cipher, the key, the nonces, the attacker and the lengths are arbitrary; the associated data have the same length. -/
theorem ciphertexts_unforgeable (bc : BlockCipher) (ak ks : Nat) (key : Bytes) (nonces : Nat → Bytes) (hn : ∀ i, (nonces i).length = 16)
    (A : Player) (a L s : Nat) (hA : A.Fits a L) (n d : Nat) (hd : ∀ h, h.length = n → A.decs h ≤ d) :
    pr (fun f : Query L → Str s => Forged (play (cbcHmac bc (randomMac f) ak ks 16 s) key nonces A n)) ≤ d / 256 ^ s := by
  classical
  have h1 : pr (fun f : Query L → Str s => Forged (play (withMac bc ak ks f) key nonces A n)) ≤
      pr (fun f : Query L → Str s => ∃ j < n, Hit bc ak ks key nonces A f j) := by
    apply pr_mono
    intro f hf
    rcases play_eq bc ak ks key nonces A f n with e | h
    · rw [e] at hf
      exact absurd hf (play0_not_forged key nonces A _ n)
    · exact h
  have h2 := pr_exists_sum n (fun j (f : Query L → Str s) => Hit bc ak ks key nonces A f j)
  have h3 : (∑ j ∈ Finset.range n, pr (fun f : Query L → Str s => Hit bc ak ks key nonces A f j)) * 256 ^ s ≤ d := by
    rw [Finset.sum_mul]
    refine le_trans (Finset.sum_le_sum fun j _ => pr_hit bc ak ks key nonces A hn a hA j) ?_
    refine sum_pr_le n d (fun j (f : Query L → Str s) => IsDec bc ak ks key nonces A f j) ?_
    intro f
    rw [decs_count]
    apply hd
    rw [List.length_map]
    have : ∀ m, (play0 (withMac bc ak ks f) key nonces A m).length = m := by
      intro m
      induction m with
      | zero => rfl
      | succ m ih => simp only [play0, List.length_cons, ih]
    exact this n
  rw [le_div_iff₀ (by positivity)]
  refine le_trans (mul_le_mul_of_nonneg_right (h1.trans h2) (by positivity)) h3

/-- C214 for `Aes128CbcHmac256` (tags of 32 bytes) and `Aes256CbcHmac512` (tags of 64 bytes) -/
theorem ciphertexts_unforgeable_instances (bc : BlockCipher) (key : Bytes) (nonces : Nat → Bytes) (hn : ∀ i, (nonces i).length = 16)
    (A : Player) (a L : Nat) (hA : A.Fits a L) (n d : Nat) (hd : ∀ h, h.length = n → A.decs h ≤ d) :
    pr (fun f : Query L → Str 32 => Forged (play (aes128CbcHmac256 bc (randomMac f)) key nonces A n)) ≤ d / 2 ^ 256 ∧
    pr (fun f : Query L → Str 64 => Forged (play (aes256CbcHmac512 bc (randomMac f)) key nonces A n)) ≤ d / 2 ^ 512 := by
  have h1 := ciphertexts_unforgeable bc 16 32 key nonces hn A a L 32 hA n d hd
  have h2 := ciphertexts_unforgeable bc 32 64 key nonces hn A a L 64 hA n d hd
  have e : ∀ k : Nat, (256 : ℚ) ^ k = 2 ^ (8 * k) := fun k => by rw [pow_mul]; norm_num
  rw [e] at h1 h2
  exact ⟨h1, h2⟩

/-! ## The hypotheses are met -/

/-- an attacker who has a message of 40 bytes encrypted and then tries the first 100 bytes of the ciphertext -/
def tamper : Player
  | [.ok ct] => .dec [7] (ct.take 100)
  | _ => .enc [7] (List.replicate 40 5)

example : tamper.Fits 1 200 := by
  intro h
  by_cases e : ∃ ct, h = [.ok ct]
  · obtain ⟨ct, rfl⟩ := e
    refine ⟨rfl, ?_⟩
    rw [List.length_take]; omega
  · have : tamper h = .enc [7] (List.replicate 40 5) := by
      unfold tamper
      split
      · exact absurd ⟨_, rfl⟩ e
      · rfl
    rw [this]
    exact ⟨rfl, by rw [List.length_replicate]; omega⟩

example : ∀ h, h.length = 2 → tamper.decs h ≤ 1 := by
  intro h hl
  match h, hl with
  | [x, y], _ =>
    have e : tamper [] = .enc [7] (List.replicate 40 5) := rfl
    simp only [Player.decs, e]
    cases tamper [y] <;> simp

/-- an attacker who passes a ciphertext off with other associated data -/
def relabel : Player
  | [.ok ct] => .dec [1] ct
  | _ => .enc [2] (List.replicate 20 5)

/-- with a MAC that ignores its input this is a forgery -/
example : Forged (play (aes128CbcHmac256 toyBlock ⟨fun _ _ => List.replicate 32 0, 32, fun _ _ => by simp⟩) (List.replicate 32 3)
    (fun _ => List.replicate 16 9) relabel 2) := by
  refine .inr ⟨[1], _, List.replicate 20 5, rfl, by decide +kernel, ?_⟩
  rintro ⟨m, h⟩
  simp [play, relabel] at h

end Verif.Symm
