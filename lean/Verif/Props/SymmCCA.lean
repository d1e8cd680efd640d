import Verif.Props.SymmSecrecy
/-!
# C216: AES-CBC-HMAC hides the messages even from someone who can have ciphertexts decrypted

As in C215, and the attacker may also ask for the decryption of any pair of associated data and ciphertext that was not produced for them.
HMAC is a random function, AES a random permutation of the blocks, the nonces are random.
-/
set_option linter.unusedSectionVars false
set_option linter.unusedVariables false
set_option linter.unusedSimpArgs false
namespace Verif.Symm
open Verif.Forking Verif.Sig

/-! ## The game -/

/-- what the attacker can ask for: one of two messages encrypted, or a decryption -/
inductive COrder where
  | enc (aad left right : Bytes)
  | dec (aad ct : Bytes)

/-- the next order, given the answers so far (latest first) -/
abbrev CPlayer := List (Res Unit Bytes) → COrder

/-- the orders when the left or the right messages are encrypted -/
def CPlayer.side (A : CPlayer) (right : Bool) : Player := fun h => match A h with
  | .enc aad l r => .enc aad (if right then r else l)
  | .dec aad ct => .dec aad ct

open Classical in
/-- the answer of the holder of the key, who does not decrypt what was encrypted for the attacker -/
noncomputable def answerC (C : Cipher) (key nonce : Bytes) (t : List (Order × Res Unit Bytes)) : Order → Res Unit Bytes
  | .enc aad msg => encryptEasy C key nonce aad msg
  | .dec aad ct => if Made t aad ct then .err () else decryptEasy C key aad ct

/-- orders and answers of the first `n` steps (latest first) -/
noncomputable def playC (C : Cipher) (key : Bytes) (nonces : Nat → Bytes) (A : Player) : Nat → List (Order × Res Unit Bytes)
  | 0 => []
  | n + 1 =>
    let t := playC C key nonces A n
    (A (t.map Prod.snd), answerC C key (nonces n) t (A (t.map Prod.snd))) :: t

/-- the nonces drawn -/
def drawn {n : Nat} (ns : Fin n → Str 16) (i : Nat) : Bytes := if h : i < n then (ns ⟨i, h⟩).1 else List.replicate 16 0

theorem drawn_length {n : Nat} (ns : Fin n → Str 16) (i : Nat) : (drawn ns i).length = 16 := by
  unfold drawn
  split_ifs with h
  · exact (ns ⟨i, h⟩).2
  · exact List.length_replicate

/-- the number of blocks encrypted for these answers -/
def Player.blocks (A : Player) : List (Res Unit Bytes) → Nat
  | [] => 0
  | _ :: h => (match A h with | .enc _ msg => msg.length / 16 + 1 | .dec _ _ => 0) + A.blocks h

/-! ## Decryptions are useless -/

section wrap
variable (C : Cipher) (key : Bytes) (nonces : Nat → Bytes) (A : Player)

open Classical in
/-- the run with refusals, from the answers of the run without -/
noncomputable def refused : List (Res Unit Bytes) → List (Order × Res Unit Bytes)
  | [] => []
  | r :: h =>
    let t := refused h
    (A (t.map Prod.snd), match A (t.map Prod.snd) with
      | .enc _ _ => r
      | .dec aad ct => if Made t aad ct then .err () else r) :: t

/-- an attacker in the game of C214 -/
noncomputable def wrap : Player := fun h => A ((refused A h).map Prod.snd)

theorem refused_play (n : Nat) : refused A ((play C key nonces (wrap A) n).map Prod.snd) = playC C key nonces A n := by
  induction n with
  | zero => rfl
  | succ n ih =>
    simp only [play, List.map_cons, refused, playC, wrap, ih]
    congr 2
    cases ho : A ((playC C key nonces A n).map Prod.snd) with
    | enc aad msg => rfl
    | dec aad ct =>
      dsimp only
      rw [ih]
      rfl

theorem made_iff (n : Nat) (aad ct : Bytes) : Made (play C key nonces (wrap A) n) aad ct ↔ Made (playC C key nonces A n) aad ct := by
  induction n with
  | zero => rfl
  | succ n ih =>
    have hw : wrap A ((play C key nonces (wrap A) n).map Prod.snd) = A ((playC C key nonces A n).map Prod.snd) := by
      unfold wrap; rw [← refused_play]; rfl
    unfold Made at ih ⊢
    simp only [play, playC, List.mem_cons, Prod.mk.injEq, hw]
    constructor
    · rintro ⟨m, ⟨h1, h2⟩ | h⟩
      · exact ⟨m, .inl ⟨h1, by rw [← h1] at h2 ⊢; exact h2⟩⟩
      · obtain ⟨m, h⟩ := ih.1 ⟨m, h⟩
        exact ⟨m, .inr h⟩
    · rintro ⟨m, ⟨h1, h2⟩ | h⟩
      · exact ⟨m, .inl ⟨h1, by rw [← h1] at h2 ⊢; exact h2⟩⟩
      · obtain ⟨m, h⟩ := ih.2 ⟨m, h⟩
        exact ⟨m, .inr h⟩

/-- the messages encrypted, all decryptions being errors -/
def muted : OSender := fun h => match A h with
  | .enc aad msg => some (aad, msg)
  | .dec _ _ => none

/-- the answers when all decryptions are errors -/
def mute : Nat → List (Res Unit Bytes)
  | 0 => []
  | n + 1 => stepAnswer C key (nonces n) (muted A (mute n)) :: mute n

theorem mute_or_forged (hC : ∀ aad ct, decryptEasy C key aad ct ≠ .panic) (n : Nat) :
    (playC C key nonces A n).map Prod.snd = mute C key nonces A n ∨ Forged (play C key nonces (wrap A) n) := by
  induction n with
  | zero => exact .inl rfl
  | succ n ih =>
    rcases ih with ih | ih
    · have hw : wrap A ((play C key nonces (wrap A) n).map Prod.snd) = A (mute C key nonces A n) := by
        rw [← ih, ← refused_play]; rfl
      simp only [playC, List.map_cons, mute, play, Forged, hw]
      rw [ih]
      unfold muted
      cases ho : A (mute C key nonces A n) with
      | enc aad msg => exact .inl rfl
      | dec aad ct =>
        simp only [answerC, stepAnswer, answer]
        by_cases hm : Made (playC C key nonces A n) aad ct
        · rw [if_pos hm]; exact .inl rfl
        · rw [if_neg hm]
          cases hd : decryptEasy C key aad ct with
          | err e => exact .inl rfl
          | panic => exact absurd hd (hC aad ct)
          | ok pt =>
            right; right
            exact ⟨aad, ct, pt, rfl, rfl, fun h => hm ((made_iff C key nonces A n aad ct).1 h)⟩
    · right
      simp only [play, Forged]
      exact .inl ih

theorem wrap_fits (a L : Nat) (hA : A.Fits a L) : Player.Fits (wrap A) a L := fun h => hA _

theorem wrap_decs (h : List (Res Unit Bytes)) : Player.decs (wrap A) h = A.decs ((refused A h).map Prod.snd) := by
  induction h with
  | nil => rfl
  | cons r h ih =>
    simp only [Player.decs, refused, List.map_cons, ih, wrap]

theorem refused_length (h : List (Res Unit Bytes)) : (refused A h).length = h.length := by
  induction h with
  | nil => rfl
  | cons r h ih => simp only [refused, List.length_cons, ih]

theorem observeO_append (B : OSender) (l : List (Str 16)) (x : Str 16) (h : List (Res Unit Bytes)) :
    observeO C key B (l ++ [x]) h = stepAnswer C key x.1 (B (observeO C key B l h)) :: observeO C key B l h := by
  induction l generalizing h with
  | nil => rfl
  | cons y l ih => simp only [List.cons_append, observeO, ih]

theorem mute_take (m : Nat) (ns ns' : Nat → Bytes) (h : ∀ i < m, ns i = ns' i) : mute C key ns A m = mute C key ns' A m := by
  induction m with
  | zero => rfl
  | succ m ih =>
    simp only [mute]
    rw [ih (fun i hi => h i (Nat.lt_succ_of_lt hi)), h m (Nat.lt_succ_self m)]

theorem mute_observe (n : Nat) (ns : Fin n → Str 16) : mute C key (drawn ns) A n = observeO C key (muted A) (List.ofFn ns) [] := by
  induction n with
  | zero => rfl
  | succ n ih =>
    rw [List.ofFn_succ', List.concat_eq_append, observeO_append, ← ih]
    have h1 : drawn ns n = (ns (Fin.last n)).1 := by
      unfold drawn
      rw [dif_pos (Nat.lt_succ_self n)]
      rfl
    have h2 : mute C key (drawn ns) A n = mute C key (drawn (fun i => ns i.castSucc)) A n := by
      apply mute_take
      intro i hi
      unfold drawn
      rw [dif_pos (Nat.lt_succ_of_lt hi), dif_pos hi]
      rfl
    simp only [mute]
    rw [h1, h2]

theorem muted_blocks (h : List (Res Unit Bytes)) : (muted A).blocks h = A.blocks h := by
  induction h with
  | nil => rfl
  | cons r h ih =>
    simp only [OSender.blocks, Player.blocks, ih]
    congr 1
    unfold muted
    cases A h <;> rfl

end wrap

/-! ## The probability -/

theorem pr_close {Ω : Type} [Fintype Ω] (P Q Bad : Ω → Prop) (h : ∀ ω, ¬ Bad ω → (P ω ↔ Q ω)) : |pr P - pr Q| ≤ pr Bad := by
  have one : ∀ P Q : Ω → Prop, (∀ ω, ¬ Bad ω → (P ω ↔ Q ω)) → pr P ≤ pr Q + pr Bad := by
    intro P Q h
    refine le_trans (pr_mono (Q := fun ω => Q ω ∨ Bad ω) ?_) (pr_or _ _)
    intro ω hP
    by_cases hb : Bad ω
    · exact .inr hb
    · exact .inl ((h ω hb).1 hP)
  have h1 := one P Q h
  have h2 := one Q P (fun ω hω => (h ω hω).symm)
  rw [abs_le]
  constructor <;> linarith

theorem pr_close_fst {X Y : Type} [Fintype X] [Fintype Y] [Nonempty X] (P Q : X × Y → Prop) (δ : ℚ)
    (h : ∀ x, |pr (fun y => P (x, y)) - pr (fun y => Q (x, y))| ≤ δ) : |pr P - pr Q| ≤ δ := by
  rw [pr_prod, pr_prod, ← sub_div, ← Finset.sum_sub_distrib]
  have h0 : (0 : ℚ) < Fintype.card X := by exact_mod_cast Fintype.card_pos
  rw [abs_div, abs_of_pos h0, div_le_iff₀ h0]
  refine (Finset.abs_sum_le_sum_abs _ _).trans ((Finset.sum_le_sum fun x _ => h x).trans (le_of_eq ?_))
  rw [Finset.sum_const, nsmul_eq_mul, Finset.card_univ, mul_comm]

/-- the choices made at random: HMAC, AES and the nonces -/
abbrev Luck (L s n : Nat) := (Query L → Str s) × (Equiv.Perm (Str 16) × (Fin n → Str 16))

/-- what the attacker sees -/
noncomputable def view {L s n : Nat} (ak ks : Nat) (key : Bytes) (A : Player) (ω : Luck L s n) : List (Res Unit Bytes) :=
  (playC (cbcHmac (randomCipher ω.2.1) (randomMac ω.1) ak ks 16 s) key (drawn ω.2.2) A n).map Prod.snd

theorem view_close (ak ks : Nat) (key : Bytes) (A : Player) (a L s n d : Nat) (hA : A.Fits a L) (hd : ∀ h, h.length = n → A.decs h ≤ d)
    (E : List (Res Unit Bytes) → Prop) :
    |pr (fun ω : Luck L s n => E (view ak ks key A ω)) - pr (fun ω : Luck L s n =>
      E (observeO (cbcHmac (randomCipher ω.2.1) (randomMac ω.1) ak ks 16 s) key (muted A) (List.ofFn ω.2.2) []))| ≤ d / 256 ^ s := by
  refine le_trans (pr_close _ _ (fun ω : Luck L s n =>
    Forged (play (cbcHmac (randomCipher ω.2.1) (randomMac ω.1) ak ks 16 s) key (drawn ω.2.2) (wrap A) n)) ?_) ?_
  · intro ω hω
    rcases mute_or_forged (cbcHmac (randomCipher ω.2.1) (randomMac ω.1) ak ks 16 s) key (drawn ω.2.2) A
      (fun aad ct => dec_not_panic (randomCipher ω.2.1) (randomMac ω.1) ak ks key aad ct) n with h | h
    · rw [view, h, mute_observe]
    · exact absurd h hω
  · have hsw := pr_bijective (Equiv.prodComm (Equiv.Perm (Str 16) × (Fin n → Str 16)) (Query L → Str s)) (Equiv.bijective _) (fun ω : Luck L s n =>
      Forged (play (cbcHmac (randomCipher ω.2.1) (randomMac ω.1) ak ks 16 s) key (drawn ω.2.2) (wrap A) n))
    rw [← hsw, pr_prod]
    have h0 : (0 : ℚ) < Fintype.card (Equiv.Perm (Str 16) × (Fin n → Str 16)) := by exact_mod_cast Fintype.card_pos
    rw [div_le_iff₀ h0]
    refine (Finset.sum_le_sum fun x _ => ciphertexts_unforgeable (randomCipher x.1) ak ks key (drawn x.2) (drawn_length x.2) (wrap A) a L s
      (wrap_fits A a L hA) n d (fun h hh => by rw [wrap_decs]; exact hd _ (by rw [List.length_map, refused_length, hh]))).trans (le_of_eq ?_)
    rw [Finset.sum_const, nsmul_eq_mul, Finset.card_univ, mul_comm]

/-- C216: whoever chooses pairs of messages of equal length and ciphertexts to be decrypted adaptively — `n` orders, `s` blocks to
encrypt in total, `d` decryptions — draws every conclusion `E` equally often whether the left or the right messages are encrypted, up to
`2 s (s - 1) / 2^128 + 2 d / 256^t`. -/
theorem messages_hidden_cca (ak ks : Nat) (key : Bytes) (A : CPlayer) (hlen : ∀ h aad l r, A h = .enc aad l r → l.length = r.length)
    (a L t n s d : Nat) (hA : (A.side false).Fits a L) (hd : ∀ h, h.length = n → (A.side false).decs h ≤ d)
    (hs : ∀ h, h.length = n → (A.side false).blocks h ≤ s) (E : List (Res Unit Bytes) → Prop) :
    |pr (fun ω : Luck L t n => E (view ak ks key (A.side false) ω)) - pr (fun ω : Luck L t n => E (view ak ks key (A.side true) ω))| ≤
      2 * (s * (s - 1)) / 2 ^ 128 + 2 * d / 256 ^ t := by
  have hA' : (A.side true).Fits a L := by
    intro h
    have := hA h
    unfold CPlayer.side at this ⊢
    cases ho : A h with
    | enc aad l r =>
      rw [ho] at this
      simp only [Bool.false_eq_true, if_false, if_true] at this ⊢
      rw [← hlen h aad l r ho]
      exact this
    | dec aad ct =>
      rw [ho] at this
      exact this
  have hd' : ∀ h, (A.side true).decs h = (A.side false).decs h := by
    intro h
    induction h with
    | nil => rfl
    | cons r h ih =>
      simp only [Player.decs, ih]
      congr 1
      unfold CPlayer.side
      cases A h <;> rfl
  have hsh : ∀ h, SameShape (muted (A.side false) h) (muted (A.side true) h) := by
    intro h
    unfold muted CPlayer.side
    cases ho : A h with
    | enc aad l r => exact ⟨rfl, by simpa using hlen h aad l r ho⟩
    | dec aad ct => trivial
  have h1 := view_close ak ks key (A.side false) a L t n d hA hd E
  have h2 := view_close ak ks key (A.side true) a L t n d hA' (fun h hh => by rw [hd']; exact hd h hh) E
  have h3 := pr_close_fst (fun ω : Luck L t n =>
      E (observeO (cbcHmac (randomCipher ω.2.1) (randomMac ω.1) ak ks 16 t) key (muted (A.side false)) (List.ofFn ω.2.2) []))
    (fun ω : Luck L t n =>
      E (observeO (cbcHmac (randomCipher ω.2.1) (randomMac ω.1) ak ks 16 t) key (muted (A.side true)) (List.ofFn ω.2.2) []))
    (2 * (s * (s - 1)) / 2 ^ 128)
    (fun f => senders_alike (randomMac f) ak ks key (muted (A.side false)) (muted (A.side true)) hsh n s
      (fun h hh => by rw [muted_blocks]; exact hs h hh) E)
  have e : (2 : ℚ) * d / 256 ^ t = d / 256 ^ t + d / 256 ^ t := by ring
  rw [e]
  rw [abs_le] at h1 h2 h3 ⊢
  constructor <;> linarith [h1.1, h1.2, h2.1, h2.2, h3.1, h3.2]

/-! ## Associated data of different lengths -/

/-- an attacker who moves the nonce into the associated data (C71) -/
def shifter (l r : Bytes) : CPlayer
  | [.ok ct] => .dec (ct.take 16) (ct.drop 16)
  | _ => .enc [] l r

/-- Without the condition on the associated data C216 fails, whatever is drawn: two orders, and the answer to the second is the message
that was encrypted, without its first 16 bytes. -/
theorem shifter_reads (ak ks : Nat) (hak : ak ≤ 32) (key : Bytes) (l r : Bytes) (hl : 32 ≤ l.length) (hr : 32 ≤ r.length) (L t : Nat) (ht : 32 ≤ t)
    (ω : Luck L t 2) :
    (view ak ks key ((shifter l r).side false) ω).head? = some (.ok (l.drop 16)) ∧
    (view ak ks key ((shifter l r).side true) ω).head? = some (.ok (r.drop 16)) := by
  have main : ∀ (b : Bool) (m : Bytes), m = (if b then r else l) → 32 ≤ m.length →
      (view ak ks key ((shifter l r).side b) ω).head? = some (.ok (m.drop 16)) := by
    intro b m hm h32
    obtain ⟨C, hC⟩ : ∃ C, C = cbcHmac (randomCipher ω.2.1) (randomMac ω.1) ak ks 16 t := ⟨_, rfl⟩
    obtain ⟨ct, hct, -⟩ := enc_form (randomCipher ω.2.1) (randomMac ω.1) ak ks key (drawn ω.2.2 0) [] m (drawn_length _ _)
    have hd := aad_shift_forgery (randomCipher ω.2.1) (randomMac ω.1) ak ks key (drawn ω.2.2 0) [] m (drawn_length _ _) (by omega) (by omega) ht ct hct
    have hct : encryptEasy C key (drawn ω.2.2 0) [] m = .ok ct := by rw [hC]; exact hct
    have hd : decryptEasy C key (ct.take 16) (ct.drop 16) = .ok (m.drop 16) := by rw [hC]; exact hd
    have p1 : playC C key (drawn ω.2.2) ((shifter l r).side b) 1 = [(.enc [] m, .ok ct)] := by
      have : (shifter l r).side b [] = .enc [] m := by
        simp only [CPlayer.side, shifter, ← hm]
      simp only [playC, List.map_nil, this, answerC, hct]
    have p2 : (shifter l r).side b [.ok ct] = .dec (ct.take 16) (ct.drop 16) := rfl
    have hnm : ¬ Made [(Order.enc [] m, Res.ok ct)] (ct.take 16) (ct.drop 16) := by
      rintro ⟨m', h⟩
      rw [List.mem_singleton, Prod.mk.injEq, Order.enc.injEq, Res.ok.injEq] at h
      have h1 := congrArg List.length h.2
      have h2 := congrArg List.length h.1.1
      rw [List.length_drop] at h1
      rw [List.length_take, List.length_nil] at h2
      have h3 : ct = [] := List.eq_nil_of_length_eq_zero (by omega)
      rw [h3, hC] at hd
      simp [decryptEasy, cbcHmac] at hd
    unfold view
    rw [← hC]
    rw [playC, p1]
    simp only [List.map_cons, List.map_nil, List.head?_cons, p2, answerC]
    rw [if_neg hnm, hd]
  exact ⟨main false l rfl hl, main true r rfl hr⟩

/-- so the two cases are told apart with certainty -/
theorem shifter_certain (ak ks : Nat) (hak : ak ≤ 32) (key : Bytes) (l r : Bytes) (hl : 32 ≤ l.length) (hr : 32 ≤ r.length)
    (hlr : l.drop 16 ≠ r.drop 16) (L t : Nat) (ht : 32 ≤ t) :
    pr (fun ω : Luck L t 2 => (view ak ks key ((shifter l r).side false) ω).head? = some (.ok (l.drop 16))) = 1 ∧
    pr (fun ω : Luck L t 2 => (view ak ks key ((shifter l r).side true) ω).head? = some (.ok (l.drop 16))) = 0 := by
  refine ⟨pr_one fun ω => (shifter_reads ak ks hak key l r hl hr L t ht ω).1, pr_false _ fun ω h => ?_⟩
  rw [(shifter_reads ak ks hak key l r hl hr L t ht ω).2, Option.some.injEq, Res.ok.injEq] at h
  exact hlr h.symm

/-! ## The hypotheses are met -/

/-- an attacker who has one of two messages encrypted and then has the ciphertext decrypted with its last byte removed and another added -/
def meddler : CPlayer
  | [.ok ct] => .dec [7] (ct.take 95 ++ [0])
  | _ => .enc [7] (List.replicate 40 5) (List.replicate 40 6)

example : (∀ h aad l r, meddler h = .enc aad l r → l.length = r.length) ∧ (meddler.side false).Fits 1 200 ∧
    (∀ h, h.length = 2 → (meddler.side false).decs h ≤ 1) ∧ ∀ h, h.length = 2 → (meddler.side false).blocks h ≤ 6 := by
  have cases : ∀ h, (∃ ct : Bytes, meddler h = .dec [7] (ct.take 95 ++ [0])) ∨ meddler h = .enc [7] (List.replicate 40 5) (List.replicate 40 6) := by
    intro h
    unfold meddler
    split
    · exact .inl ⟨_, rfl⟩
    · exact .inr rfl
  have e0 : meddler [] = .enc [7] (List.replicate 40 5) (List.replicate 40 6) := rfl
  refine ⟨?_, ?_, ?_, ?_⟩
  · intro h aad l r hh
    rcases cases h with ⟨ct, e⟩ | e
    · rw [e] at hh; cases hh
    · rw [e] at hh; cases hh; rfl
  · intro h
    unfold CPlayer.side
    rcases cases h with ⟨ct, e⟩ | e
    · rw [e]
      refine ⟨rfl, ?_⟩
      rw [List.length_append, List.length_take, List.length_singleton]; omega
    · rw [e]
      exact ⟨rfl, by decide⟩
  · intro h hl
    match h, hl with
    | [x, y], _ =>
      simp only [Player.decs, CPlayer.side, e0]
      rcases cases [y] with ⟨ct, e⟩ | e
      · rw [e]
      · rw [e]
        exact Nat.zero_le 1
  · intro h hl
    match h, hl with
    | [x, y], _ =>
      simp only [Player.blocks, CPlayer.side, e0]
      rcases cases [y] with ⟨ct, e⟩ | e <;> rw [e]
      · dsimp only
        decide
      · decide

end Verif.Symm
