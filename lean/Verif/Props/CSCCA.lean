import Verif.Props.CSErrors
/-!
# C219: Camenisch–Shoup ciphertexts under chosen ciphertexts, when the errors do not print numbers
-/
set_option linter.unusedSectionVars false
set_option linter.unusedSimpArgs false
set_option linter.unusedVariables false
namespace Verif.CS.CCA
open Verif.BN Verif.CL Verif.Forking Verif.Symm Verif.CS

/-! ## Specification -/

/-- what decryption answers, without the numbers in the texts -/
abbrev Answer := Res String (List Int)

/-- Who tries to tell ciphertexts apart, with answers of a decryption service.  It sees the public key and asks for decryptions, each ciphertext and label depending on the answers
so far; then it names a label and two lists of messages, sees the encryption of one of them, asks again, and says yes or no. -/
structure Guesser where
  ask : PubKey → Option Cipher → List Answer → Bytes × Cipher
  choose : PubKey → List Answer → Bytes × List Int × List Int
  guess : PubKey → Cipher → List Answer → Prop

/-- the two lists are equally long, and no longer than the key allows -/
def Guesser.Legal (A : Guesser) (k : Nat) : Prop :=
  ∀ pk as, (A.choose pk as).2.1.length = (A.choose pk as).2.2.length ∧ (A.choose pk as).2.1.length ≤ k

/-- the first list (`false`) or the second one (`true`) -/
def Guesser.pick (A : Guesser) (pk : PubKey) (as : List Answer) (b : Bool) : List Int := if b then (A.choose pk as).2.2 else (A.choose pk as).2.1

/-- the answers to `j` questions, after those in `as` -/
def answers (ask : List Answer → Bytes × Cipher) (O : Bytes → Cipher → Answer) (as : List Answer) : Nat → List Answer
  | 0 => as
  | j + 1 => answers ask O as j ++ [O (ask (answers ask O as j)).1 (ask (answers ask O as j)).2]

/-- The decryption service: `decrypt`, for ciphertexts whose `u` is invertible. -/
def serve (H : Bytes → Int) (pk : PubKey) (sk : PriKey) : Bytes → Cipher → Answer := fun l x =>
  if Int.gcd x.u pk.n ≠ 1 then .err "u is not invertible" else decrypt H l x pk sk

/-- What is not decrypted after the ciphertext `c` for the label `l` is known: ciphertexts and labels with the same hash value. -/
def refuse (H : Bytes → Int) (l : Bytes) (c : Cipher) (O : Bytes → Cipher → Answer) : Bytes → Cipher → Answer := fun l' x =>
  if H (hashInput x.u x.e l') = H (hashInput c.u c.e l) then .err "not this one" else O l' x

/-- The guesser says yes to the list `b`, encrypted by `encrypt` under the key of `CSKeypair::new`, after `q1` questions, before `q2` questions. -/
def SaysYes (H : Bytes → Int) (p q : Nat) (g' : Int) (A : Guesser) (q1 q2 : Nat) {k : Nat} (b : Bool) (ω : Coins k (p * q)) : Prop :=
  ∃ pk sk as c, keypair p q g' ω.x1 (ω.2.1 : Nat) (ω.2.2.1 : Nat) = .ok (pk, sk) ∧
    as = answers (A.ask pk none) (serve H pk sk) [] q1 ∧
    encrypt H pk (ω.2.2.2 : Nat) (A.pick pk as b) (A.choose pk as).1 = .ok c ∧
    A.guess pk c (answers (A.ask pk (some c)) (refuse H (A.choose pk as).1 c (serve H pk sk)) as q2)

/-- The solver for the list `b`: it knows `n`, `g` and `U` (see `CS.Solver`), draws exponents, decrypts with them and repeats what the guesser says. -/
def Solver (H : Bytes → Int) (A : Guesser) (q1 q2 : Nat) (b : Bool) (n g U : Int) (x1 : List Int) (x2 x3 : Int) : Prop :=
  ∃ pk as c, solverKey n g x1 x2 x3 = .ok pk ∧ as = answers (A.ask pk none) (serve H pk ⟨x1, x2, x3⟩) [] q1 ∧
    solverCipher H pk.group U x1 x2 x3 (A.pick pk as b) (A.choose pk as).1 = .ok c ∧
    A.guess pk c (answers (A.ask pk (some c)) (refuse H (A.choose pk as).1 c (serve H pk ⟨x1, x2, x3⟩)) as q2)

/-- the solver says yes to a `U = g ^ r` -/
def YesToPower (H : Bytes → Int) (p q : Nat) (g' : Int) (A : Guesser) (q1 q2 : Nat) {k : Nat} (b : Bool) (ω : Coins k (p * q)) : Prop :=
  ∃ G U, Group.new (p * q) g' = .ok G ∧ modExp G.g (ω.2.2.2 : Nat) (p * q * (p * q)) = .ok U ∧
    Solver H A q1 q2 b (p * q) G.g U ω.x1 (ω.2.1 : Nat) (ω.2.2.1 : Nat)

/-- the solver says yes to a `U = g ^ r * (n + 1) ^ s` -/
def YesToBlind (H : Bytes → Int) (p q : Nat) (g' : Int) (A : Guesser) (q1 q2 : Nat) {k : Nat} (b : Bool) (ω : Coins k (p * q) × Fin (p * q)) : Prop :=
  ∃ G a c U, Group.new (p * q) g' = .ok G ∧ modExp G.g (ω.1.2.2.2 : Nat) (p * q * (p * q)) = .ok a ∧
    modExp (p * q + 1) (ω.2 : Nat) (p * q * (p * q)) = .ok c ∧ modMul a c (p * q * (p * q)) = .ok U ∧
    Solver H A q1 q2 b (p * q) G.g U ω.1.x1 (ω.1.2.1 : Nat) (ω.1.2.2.1 : Nat)

/-- how much better the solver does than saying the same to both -/
noncomputable def advantage (H : Bytes → Int) (p q : Nat) (g' : Int) (A : Guesser) (q1 q2 k : Nat) (b : Bool) : ℚ :=
  |pr (YesToPower H p q g' A q1 q2 (k := k) b) - pr (YesToBlind H p q g' A q1 q2 (k := k) b)|

/-! ## Decryption of elements without an `h` part -/

section decryption
variable {n n' : Nat} {pk : PubKey} {gU : (ZMod (n * n))ˣ}

theorem exp_unit {N : Nat} (hN : 1 < N) {a : Int} {u : (ZMod N)ˣ} (h : (a : ZMod N) = u) {k : Int} (hk : 0 ≤ k) : modExp a k N = .ok (val (u ^ k)) := by
  have := neZero_of hN
  rw [modExp_eq a k N hk (by omega)]
  congr 1
  apply eq_val (Int.emod_nonneg _ (by omega)) (Int.emod_lt_of_pos _ (by omega))
  obtain ⟨m, rfl⟩ := Int.eq_ofNat_of_zero_le hk
  rw [ZMod.intCast_mod, Int.cast_pow, h]
  simp

/-- what the model of decryption needs to know of the key -/
structure Shape (n : Nat) (pk : PubKey) : Prop where
  hn : 1 < n
  n_eq : pk.n = n
  mod : pk.group.modulus = ((n * n : Nat) : Int)
  two : ∃ t, 0 ≤ t ∧ pk.twoInvTimes2 = 2 * t

/-- `u` squared to the power `n'` is one -/
def Plain (n n' : Nat) (u : Int) : Prop := (u : ZMod (n * n)) ^ (2 * n') = 1

theorem zpow_two_congr {uU : (ZMod (n * n))ˣ} (hu : uU ^ (2 * n') = 1) {x y : Int} (h : x ≡ y [ZMOD n']) : uU ^ (2 * x) = uU ^ (2 * y) := by
  obtain ⟨d, hd⟩ := h.dvd
  have : y = x + n' * d := by linarith
  rw [this, show 2 * (x + n' * d) = 2 * x + ((2 * n' : Nat) : Int) * d by push_cast; ring, zpow_add, zpow_mul uU ((2 * n' : Nat) : Int), zpow_natCast uU, hu,
    one_zpow, mul_one]

theorem loop_congr (s : Shape n pk) (u : Int) {uU : (ZMod (n * n))ˣ} (hu : (u : ZMod (n * n)) = uU) (hp : uU ^ (2 * n') = 1) :
    ∀ (es xs ys : List Int) (i : Nat), List.Forall₂ (fun x y => 0 ≤ x ∧ 0 ≤ y ∧ x ≡ y [ZMOD n']) xs ys → decryptLoop pk u i es xs = decryptLoop pk u i es ys
  | [], xs, ys, i, _ => by unfold decryptLoop; rfl
  | _ :: _, [], [], i, _ => by unfold decryptLoop; rfl
  | _ :: _, [], _ :: _, i, h => by cases h
  | _ :: _, _ :: _, [], i, h => by cases h
  | e :: es, x :: xs, y :: ys, i, .cons ⟨hx, hy, hxy⟩ h => by
    have hn := s.hn
    have hN : 1 < n * n := by nlinarith
    have : NeZero (n * n) := neZero_of hN
    have hNn : (0 : Int) < ((n * n : Nat) : Int) := by omega
    obtain ⟨t, ht0, ht⟩ := s.two
    have ih := loop_congr s u hu hp es xs ys (i + 1) h
    have step : ∀ z : Int, 0 ≤ z → decryptLoop pk u i (e :: es) (z :: xs) =
        (let mHat := (e * val (uU ^ z)⁻¹ % ((n * n : Nat) : Int)) ^ (2 * t).toNat % ((n * n : Nat) : Int)
         do
          let one ← BN.modulus mHat pk.n
          if one = 1 then do
            let m ← BN.modulus mHat pk.group.modulus
            let m ← div (m - 1) pk.n
            let rest ← decryptLoop pk u (i + 1) es xs
            pure (m :: rest)
          else .err s!"Decryption failed for message {i + 1}") := by
      intro z hz
      conv_lhs => unfold decryptLoop
      simp only [Group.exp]
      rw [s.mod, exp_unit hN hu hz, Res.ok_bind, (rep_val _).inverse hN, Res.ok_bind]
      unfold modMul
      rw [modulus_eq_emod _ _ hNn, Res.ok_bind, ht, modExp_eq _ _ _ (by omega) (by omega), Res.ok_bind]
    have step' : decryptLoop pk u i (e :: es) (y :: ys) = decryptLoop pk u i (e :: es) (y :: xs) := by
      unfold decryptLoop
      rw [ih]
    have same : (e * val (uU ^ x)⁻¹ % ((n * n : Nat) : Int)) ^ (2 * t).toNat % ((n * n : Nat) : Int) =
        (e * val (uU ^ y)⁻¹ % ((n * n : Nat) : Int)) ^ (2 * t).toNat % ((n * n : Nat) : Int) := by
      apply (ZMod.intCast_eq_intCast_iff _ _ (n * n)).1
      obtain ⟨m, rfl⟩ := Int.eq_ofNat_of_zero_le ht0
      have hm : (2 * (m : Int)).toNat = 2 * m := by omega
      rw [hm, Int.cast_pow, Int.cast_pow, ZMod.intCast_mod, ZMod.intCast_mod, Int.cast_mul, Int.cast_mul, cast_val, cast_val, mul_pow, mul_pow]
      have h2 : ((uU ^ x)⁻¹ : (ZMod (n * n))ˣ) ^ (2 * m) = ((uU ^ y)⁻¹ : (ZMod (n * n))ˣ) ^ (2 * m) := by
        have h3 := zpow_two_congr hp hxy
        rw [inv_pow, inv_pow, pow_mul, pow_mul]
        congr 2
        rw [← zpow_natCast, ← zpow_natCast, ← zpow_mul, ← zpow_mul, mul_comm x, mul_comm y]
        exact h3
      have h4 := congrArg (fun z : (ZMod (n * n))ˣ => (z : ZMod (n * n))) h2
      simp only [Units.val_pow_eq_pow_val] at h4
      rw [h4]
    rw [step', step x hx, step y hy, same]

theorem exists_unit (s : Shape n pk) {u : Int} (h : Int.gcd u pk.n = 1) : ∃ uU : (ZMod (n * n))ˣ, (u : ZMod (n * n)) = uU := by
  have h1 : IsCoprime u (n : Int) := by
    rw [Int.isCoprime_iff_gcd_eq_one, ← s.n_eq]; exact h
  have h2 : IsCoprime ((n * n : Nat) : Int) u := by
    push_cast
    exact (h1.mul_right h1).symm
  have h3 := (ZMod.coe_int_isUnit_iff_isCoprime u (n * n)).2 h2
  exact ⟨h3.unit, rfl⟩

/-- Decryption of elements without an `h` part depends on the exponents modulo `n'` only. -/
theorem decrypt_congr (H : Bytes → Int) (hH : ∀ b, 0 ≤ H b) (s : Shape n pk) (l : Bytes) (c : Cipher) (hc : Int.gcd c.u pk.n = 1) (hp : Plain n n' c.u) (sk sk' : PriKey)
    (h1 : List.Forall₂ (fun x y => 0 ≤ x ∧ 0 ≤ y ∧ x ≡ y [ZMOD n']) sk.x1 sk'.x1) (h2 : 0 ≤ sk.x2 ∧ 0 ≤ sk'.x2 ∧ sk.x2 ≡ sk'.x2 [ZMOD n'])
    (h3 : 0 ≤ sk.x3 ∧ 0 ≤ sk'.x3 ∧ sk.x3 ≡ sk'.x3 [ZMOD n']) : decrypt H l c pk sk = decrypt H l c pk sk' := by
  have hn := s.hn
  have hN : 1 < n * n := by nlinarith
  obtain ⟨uU, hu⟩ := exists_unit s hc
  have hp' : uU ^ (2 * n') = 1 := by
    apply Units.ext
    rw [Units.val_pow_eq_pow_val, ← hu]
    exact hp
  have hh := hH (hashInput c.u c.e l)
  generalize hHv : H (hashInput c.u c.e l) = hash at hh
  have e1 : ∀ k : PriKey, 0 ≤ k.x2 → 0 ≤ k.x3 → pk.group.exp c.u (lshift1 (hash * k.x3 + k.x2)) = .ok (val (uU ^ (2 * (hash * k.x3 + k.x2)))) := by
    intro k h4 h5
    unfold Group.exp
    rw [s.mod, exp_unit hN hu (by unfold lshift1; positivity)]
    unfold lshift1
    rw [Int.mul_comm _ 2]
  unfold decrypt
  rw [hHv, e1 sk h2.1 h3.1, e1 sk' h2.2.1 h3.2.1, zpow_two_congr hp' ((h3.2.2.mul_left hash).add h2.2.2), h1.length_eq, loop_congr s c.u hu hp' c.e _ _ 0 h1]

/-- What is checked before the messages. -/
def Pass (H : Bytes → Int) (n : Nat) (l : Bytes) (c : Cipher) (x2 x3 : Int) : Prop :=
  ∃ uU : (ZMod (n * n))ˣ, (c.u : ZMod (n * n)) = uU ∧ (c.v : ZMod (n * n)) * c.v = ((uU ^ (2 * (H (hashInput c.u c.e l) * x3 + x2)) : (ZMod (n * n))ˣ) : ZMod (n * n))

open Classical in
/-- decryption that refuses elements with an `h` part -/
noncomputable def ideal (H : Bytes → Int) (n n' : Nat) (pk : PubKey) (sk : PriKey) : Bytes → Cipher → Answer := fun l x =>
  if Int.gcd x.u pk.n ≠ 1 then .err "u is not invertible"
  else if Plain n n' x.u then decrypt H l x pk sk
  else if x.e.length > sk.x1.length then .err "number of messages is more than supported by public key"
  else if pk.group.abs x.v ≠ .ok x.v then .err "absolute check failed for v" else .err "u^2 != v^2"

theorem ideal_congr (H : Bytes → Int) (hH : ∀ b, 0 ≤ H b) (s : Shape n pk) (sk sk' : PriKey)
    (h1 : List.Forall₂ (fun x y => 0 ≤ x ∧ 0 ≤ y ∧ x ≡ y [ZMOD n']) sk.x1 sk'.x1) (h2 : 0 ≤ sk.x2 ∧ 0 ≤ sk'.x2 ∧ sk.x2 ≡ sk'.x2 [ZMOD n'])
    (h3 : 0 ≤ sk.x3 ∧ 0 ≤ sk'.x3 ∧ sk.x3 ≡ sk'.x3 [ZMOD n']) : ideal H n n' pk sk = ideal H n n' pk sk' := by
  funext l x
  unfold ideal
  split
  · rfl
  · rename_i hc
    rw [not_not] at hc
    split
    · rename_i hp
      exact decrypt_congr H hH s l x hc hp sk sk' h1 h2 h3
    · rw [h1.length_eq]

/-- The two services differ only on ciphertexts that have an `h` part and pass the check. -/
theorem serve_ideal (H : Bytes → Int) (hH : ∀ b, 0 ≤ H b) (s : Shape n pk) (sk : PriKey) (h2 : 0 ≤ sk.x2) (h3 : 0 ≤ sk.x3) (l : Bytes) (x : Cipher)
    (hd : serve H pk sk l x ≠ ideal H n n' pk sk l x) : Int.gcd x.u pk.n = 1 ∧ ¬ Plain n n' x.u ∧ Pass H n l x sk.x2 sk.x3 := by
  have hn := s.hn
  have hN : 1 < n * n := by nlinarith
  have : NeZero (n * n) := neZero_of hN
  have hNn : (0 : Int) < ((n * n : Nat) : Int) := by omega
  unfold serve ideal at hd
  split at hd
  · exact absurd rfl hd
  rename_i hc
  rw [not_not] at hc
  split at hd
  · exact absurd rfl hd
  rename_i hp
  refine ⟨hc, hp, ?_⟩
  obtain ⟨uU, hu⟩ := exists_unit s hc
  refine ⟨uU, hu, ?_⟩
  have hh := hH (hashInput x.u x.e l)
  generalize hHv : H (hashInput x.u x.e l) = hash at hh hd ⊢
  have e1 : pk.group.exp x.u (lshift1 (hash * sk.x3 + sk.x2)) = .ok (val (uU ^ (2 * (hash * sk.x3 + sk.x2)))) := by
    unfold Group.exp
    rw [s.mod, exp_unit hN hu (by unfold lshift1; positivity)]
    unfold lshift1
    rw [Int.mul_comm _ 2]
  unfold decrypt at hd
  split at hd
  · exact absurd rfl hd
  obtain ⟨b, hb, -⟩ := abs_spec pk.group s.mod x.v
  rw [hb, Res.ok_bind] at hd
  by_cases hv : x.v = b
  · rw [if_neg (by simpa using hv), if_neg (by simp [← hv]), hHv, e1, Res.ok_bind] at hd
    unfold Group.sqr at hd
    rw [s.mod, modulus_eq_emod _ _ hNn, Res.ok_bind] at hd
    split at hd
    · exact absurd rfl hd
    · rename_i heq
      rw [not_not] at heq
      rw [← cast_val, ← heq, ZMod.intCast_mod, Int.cast_mul]
  · rw [if_pos (by simpa using hv), if_pos (by simpa [eq_comm] using hv)] at hd
    exact absurd rfl hd

end decryption

/-! ## The runs in closed form -/

section closed

/-- the guesser says yes, for a service `O` and an element `U` -/
def Yes (H : Bytes → Int) (A : Guesser) (q1 q2 : Nat) (b : Bool) {n : Nat} (pk : PubKey) (O : Bytes → Cipher → Answer) (U : (ZMod (n * n))ˣ) (x1 : List Int) (x2 x3 : Int) :
    Prop :=
  A.guess pk (cipherOf H U x1 x2 x3 (A.pick pk (answers (A.ask pk none) O [] q1) b) (A.choose pk (answers (A.ask pk none) O [] q1)).1)
    (answers (A.ask pk (some (cipherOf H U x1 x2 x3 (A.pick pk (answers (A.ask pk none) O [] q1) b) (A.choose pk (answers (A.ask pk none) O [] q1)).1)))
      (refuse H (A.choose pk (answers (A.ask pk none) O [] q1)).1
        (cipherOf H U x1 x2 x3 (A.pick pk (answers (A.ask pk none) O [] q1) b) (A.choose pk (answers (A.ask pk none) O [] q1)).1) O)
      (answers (A.ask pk none) O [] q1) q2)

variable {p q p' q' : Nat} {g' : Int}

theorem solver_yes (H : Bytes → Int) (A : Guesser) (q1 q2 : Nat) (b : Bool) {n : Nat} (hn : 1 < n) {i : Int} (hi : inverse 2 (n : Int) = .ok i)
    (gU U : (ZMod (n * n))ˣ) (x1 : List Int) (x2 x3 : Int) : Solver H A q1 q2 b n (val gU) (val U) x1 x2 x3 ↔
      Yes H A q1 q2 b (keyOf n (lshift1 i) gU x1 x2 x3) (serve H (keyOf n (lshift1 i) gU x1 x2 x3) ⟨x1, x2, x3⟩) U x1 x2 x3 := by
  unfold Solver Yes
  constructor
  · rintro ⟨pk, as, c, h1, rfl, h2, h3⟩
    rw [solverKey_ok hn hi] at h1
    cases h1
    rw [show (keyOf n (lshift1 i) gU x1 x2 x3).group = grp n gU from rfl, solverCipher_ok H hn] at h2
    cases h2
    exact h3
  · intro h
    exact ⟨_, _, _, solverKey_ok hn hi _ _ _ _, rfl, solverCipher_ok H hn gU U _ _ _ _ _, h⟩

theorem pick_length {A : Guesser} {k : Nat} (hA : A.Legal k) (pk : PubKey) (as : List Answer) (b : Bool) : (A.pick pk as b).length ≤ k := by
  obtain ⟨h1, h2⟩ := hA pk as
  unfold Guesser.pick
  cases b
  · exact h2
  · simpa [← h1] using h2

theorem says_yes_iff (H : Bytes → Int) {A : Guesser} {k : Nat} (q1 q2 : Nat) (hk : 1 ≤ k) (hA : A.Legal k) (b : Bool) {gU : (ZMod ((p * q) * (p * q)))ˣ} {i : Int}
    (hn : 1 < p * q) (ht : ∃ t, lshift1 i = 2 * t ∧ 2 * t ≡ 1 [ZMOD ((p * q : Nat) : Int)])
    (hrun : ∀ (x1 : List Int) (x2 x3 : Int), 1 ≤ x1.length →
      keypair p q g' x1 x2 x3 = .ok (keyOf (p * q) (lshift1 i) gU x1 x2 x3, ⟨x1, x2, x3⟩)) (ω : Coins k (p * q)) :
    SaysYes H p q g' A q1 q2 b ω ↔ Yes H A q1 q2 b (keyOf (p * q) (lshift1 i) gU ω.x1 (ω.2.1 : Nat) (ω.2.2.1 : Nat))
      (serve H (keyOf (p * q) (lshift1 i) gU ω.x1 (ω.2.1 : Nat) (ω.2.2.1 : Nat)) ⟨ω.x1, (ω.2.1 : Nat), (ω.2.2.1 : Nat)⟩)
      (gU ^ ((ω.2.2.2 : Nat) : Int)) ω.x1 (ω.2.1 : Nat) (ω.2.2.1 : Nat) := by
  have hr := hrun ω.x1 (ω.2.1 : Nat) (ω.2.2.1 : Nat) (by rw [Coins.x1_length]; exact hk)
  have he := fun pk as => encrypt_closed H hn ht gU ω.x1 (ω.2.1 : Nat) (ω.2.2.1 : Nat) (ω.2.2.2 : Nat) (A.pick pk as b)
    (by rw [Coins.x1_length]; exact pick_length hA pk as b) (A.choose pk as).1
  unfold SaysYes Yes
  constructor
  · rintro ⟨pk, sk, as, c, h1, rfl, h2, h3⟩
    rw [hr] at h1
    cases h1
    rw [he] at h2
    cases h2
    exact h3
  · intro h
    exact ⟨_, _, _, _, hr, rfl, he _ _, h⟩

theorem yes_to_power_iff (H : Bytes → Int) (A : Guesser) (q1 q2 : Nat) {k : Nat} (b : Bool) {gU : (ZMod ((p * q) * (p * q)))ˣ} {i : Int}
    (hn : 1 < p * q) (hi : inverse 2 ((p * q : Nat) : Int) = .ok i) (hG : Group.new ((p : Int) * q) g' = .ok (grp (p * q) gU)) (ω : Coins k (p * q)) :
    YesToPower H p q g' A q1 q2 b ω ↔ Yes H A q1 q2 b (keyOf (p * q) (lshift1 i) gU ω.x1 (ω.2.1 : Nat) (ω.2.2.1 : Nat))
      (serve H (keyOf (p * q) (lshift1 i) gU ω.x1 (ω.2.1 : Nat) (ω.2.2.1 : Nat)) ⟨ω.x1, (ω.2.1 : Nat), (ω.2.2.1 : Nat)⟩)
      (gU ^ ((ω.2.2.2 : Nat) : Int)) ω.x1 (ω.2.1 : Nat) (ω.2.2.1 : Nat) := by
  have hN : 1 < (p * q) * (p * q) := by nlinarith
  have : NeZero ((p * q) * (p * q)) := neZero_of hN
  have hmod : (p : Int) * q * (p * q) = (((p * q) * (p * q) : Nat) : Int) := by push_cast; ring
  have hmod1 : (p : Int) * q = ((p * q : Nat) : Int) := by push_cast; ring
  have hU : modExp (grp (p * q) gU).g (ω.2.2.2 : Nat) (p * q * (p * q)) = .ok (val (gU ^ ((ω.2.2.2 : Nat) : Int))) := by
    rw [hmod]; exact (rep_val gU).modExp hN _
  rw [← solver_yes H A q1 q2 b hn hi]
  unfold YesToPower
  rw [hG]
  constructor
  · rintro ⟨G, U, h1, h2, h3⟩
    cases h1
    rw [hU] at h2
    cases h2
    rwa [← hmod1]
  · intro h
    rw [← hmod1] at h
    exact ⟨_, _, rfl, hU, h⟩

theorem yes_to_blind_iff (H : Bytes → Int) (A : Guesser) (q1 q2 : Nat) {k : Nat} (b : Bool) {gU : (ZMod ((p * q) * (p * q)))ˣ} {i : Int}
    (hn : 1 < p * q) (hi : inverse 2 ((p * q : Nat) : Int) = .ok i) (hG : Group.new ((p : Int) * q) g' = .ok (grp (p * q) gU))
    (ω : Coins k (p * q) × Fin (p * q)) :
    YesToBlind H p q g' A q1 q2 b ω ↔ Yes H A q1 q2 b (keyOf (p * q) (lshift1 i) gU ω.1.x1 (ω.1.2.1 : Nat) (ω.1.2.2.1 : Nat))
      (serve H (keyOf (p * q) (lshift1 i) gU ω.1.x1 (ω.1.2.1 : Nat) (ω.1.2.2.1 : Nat)) ⟨ω.1.x1, (ω.1.2.1 : Nat), (ω.1.2.2.1 : Nat)⟩)
      (gU ^ ((ω.1.2.2.2 : Nat) : Int) * hU (p * q) ^ ((ω.2 : Nat) : Int)) ω.1.x1 (ω.1.2.1 : Nat) (ω.1.2.2.1 : Nat) := by
  have hN : 1 < (p * q) * (p * q) := by nlinarith
  have : NeZero ((p * q) * (p * q)) := neZero_of hN
  have hmod : (p : Int) * q * (p * q) = (((p * q) * (p * q) : Nat) : Int) := by push_cast; ring
  have hmod1 : (p : Int) * q = ((p * q : Nat) : Int) := by push_cast; ring
  have hU : modExp (grp (p * q) gU).g (ω.1.2.2.2 : Nat) (p * q * (p * q)) = .ok (val (gU ^ ((ω.1.2.2.2 : Nat) : Int))) := by
    rw [hmod]; exact (rep_val gU).modExp hN _
  have hH : modExp (p * q + 1) (ω.2 : Nat) (p * q * (p * q)) = .ok (val (CS.hU (p * q) ^ ((ω.2 : Nat) : Int))) := by
    rw [hmod, hmod1]; exact (rep_h (p * q)).modExp hN _
  have hM : modMul (val (gU ^ ((ω.1.2.2.2 : Nat) : Int))) (val (CS.hU (p * q) ^ ((ω.2 : Nat) : Int))) (p * q * (p * q)) =
      .ok (val (gU ^ ((ω.1.2.2.2 : Nat) : Int) * CS.hU (p * q) ^ ((ω.2 : Nat) : Int))) := by
    rw [hmod]; exact (rep_val _).modMul (rep_val _)
  rw [← solver_yes H A q1 q2 b hn hi]
  unfold YesToBlind
  rw [hG]
  constructor
  · rintro ⟨G, a, c, U, h1, h2, h3, h4, h5⟩
    cases h1
    rw [hU] at h2
    cases h2
    rw [hH] at h3
    cases h3
    rw [hM] at h4
    cases h4
    rwa [← hmod1]
  · intro h
    rw [← hmod1] at h
    exact ⟨_, _, _, _, rfl, hU, hH, hM, h⟩

end closed

/-! ## Shifts that the guesser does not see -/

section views
variable {n n' k : Nat}

theorem shiftBy_modEq (hn : 0 < n) (t d : Int) (x : Nat) : ((shiftBy n n' t d x : Nat) : Int) ≡ x [ZMOD n'] := by
  obtain ⟨K, hK⟩ := shiftBy_int (n' := n') hn t d x
  rw [hK, Int.modEq_iff_dvd]
  exact ⟨-(d * t) - n * K, by ring⟩

/-- the coins with shifted exponents `x2` and `x3` -/
def shiftKey (hX : n * n' ≤ n * n / 4) (h0 : 0 < n * n') (d2 d3 : Int) (ω : Coins k n) : Coins k n :=
  (ω.1, ⟨shiftBy n n' 1 d2 ω.2.1, lt_of_lt_of_le (Nat.mod_lt _ h0) hX⟩, ⟨shiftBy n n' 1 d3 ω.2.2.1, lt_of_lt_of_le (Nat.mod_lt _ h0) hX⟩, ω.2.2.2)

/-- the public key -/
def pkOf (i : Int) (gU : (ZMod (n * n))ˣ) (ω : Coins k n) : PubKey := keyOf n (lshift1 i) gU ω.x1 (ω.2.1 : Nat) (ω.2.2.1 : Nat)

/-- the private key -/
def skOf (ω : Coins k n) : PriKey := ⟨ω.x1, (ω.2.1 : Nat), (ω.2.2.1 : Nat)⟩

/-- the service that refuses elements with an `h` part -/
noncomputable def idealOf (H : Bytes → Int) (n' : Nat) (i : Int) (gU : (ZMod (n * n))ˣ) (ω : Coins k n) : Bytes → Cipher → Answer :=
  ideal H n n' (pkOf i gU ω) (skOf ω)

theorem pkOf_shape (hn : 1 < n) {i : Int} (hi : 0 ≤ i) (gU : (ZMod (n * n))ˣ) (ω : Coins k n) : Shape n (pkOf i gU ω) :=
  ⟨hn, rfl, rfl, i, hi, by show lshift1 i = _; unfold lshift1; ring⟩

theorem same_class (hn : 0 < n) (x : Nat) (t d : Int) : 0 ≤ (x : Int) ∧ 0 ≤ ((shiftBy n n' t d x : Nat) : Int) ∧ (x : Int) ≡ ((shiftBy n n' t d x : Nat) : Int) [ZMOD n'] :=
  ⟨by positivity, by positivity, (shiftBy_modEq hn t d x).symm⟩

theorem self_class (x : Nat) : 0 ≤ (x : Int) ∧ 0 ≤ (x : Int) ∧ (x : Int) ≡ x [ZMOD n'] := ⟨by positivity, by positivity, Int.ModEq.refl _⟩

theorem forall₂_ofFn {α β : Type} {R : α → β → Prop} : ∀ {m : Nat} (f : Fin m → α) (g : Fin m → β), (∀ j, R (f j) (g j)) → List.Forall₂ R (List.ofFn f) (List.ofFn g)
  | 0, f, g, h => by simp
  | m + 1, f, g, h => by
    rw [List.ofFn_succ, List.ofFn_succ]
    exact .cons (h 0) (forall₂_ofFn _ _ fun j => h j.succ)

section
variable (H : Bytes → Int) (hH : ∀ b, 0 ≤ H b) (hn : 1 < n) {i : Int} (hi : 0 ≤ i) {gU : (ZMod (n * n))ˣ} (hg : gU ^ n' = 1) (hX : n * n' ≤ n * n / 4) (h0 : 0 < n * n')
include hn hg

theorem pkOf_shiftCoins (t : Int) (d : Fin k → Int) (ω : Coins k n) : pkOf i gU (shiftCoins hX h0 t d ω) = pkOf i gU ω :=
  keyOf_shift (by omega) hg hX h0 _ t d ω _ _

theorem pkOf_shiftKey (d2 d3 : Int) (ω : Coins k n) : pkOf i gU (shiftKey hX h0 d2 d3 ω) = pkOf i gU ω := by
  unfold pkOf keyOf
  have e2 : gU ^ (((shiftKey hX h0 d2 d3 ω).2.1 : Nat) : Int) = gU ^ ((ω.2.1 : Nat) : Int) := shift_key (by omega) hg 1 d2 ω.2.1
  have e3 : gU ^ (((shiftKey hX h0 d2 d3 ω).2.2.1 : Nat) : Int) = gU ^ ((ω.2.2.1 : Nat) : Int) := shift_key (by omega) hg 1 d3 ω.2.2.1
  rw [e2, e3]
  rfl

include hH hi

theorem idealOf_shiftCoins (t : Int) (d : Fin k → Int) (ω : Coins k n) : idealOf H n' i gU (shiftCoins hX h0 t d ω) = idealOf H n' i gU ω := by
  unfold idealOf
  rw [pkOf_shiftCoins hn hg hX h0]
  refine (ideal_congr H hH (pkOf_shape hn hi gU ω) _ _ ?_ (self_class _) (self_class _)).symm
  exact forall₂_ofFn _ _ fun j => same_class (by omega) _ t (d j)

theorem idealOf_shiftKey (d2 d3 : Int) (ω : Coins k n) : idealOf H n' i gU (shiftKey hX h0 d2 d3 ω) = idealOf H n' i gU ω := by
  unfold idealOf
  rw [pkOf_shiftKey hn hg hX h0]
  refine (ideal_congr H hH (pkOf_shape hn hi gU ω) _ _ ?_ (same_class (by omega) _ 1 d2) (same_class (by omega) _ 1 d3)).symm
  exact forall₂_ofFn _ _ fun j => self_class _

end

/-- the element `U` of a blind instance -/
def blindOf (gU : (ZMod (n * n))ˣ) (ω : Coins k n × Fin n) : (ZMod (n * n))ˣ := gU ^ ((ω.1.2.2.2 : Nat) : Int) * hU n ^ ((ω.2 : Nat) : Int)

/-- answers before the ciphertext, from the service that refuses elements with an `h` part -/
noncomputable def first (H : Bytes → Int) (A : Guesser) (n' : Nat) (i : Int) (gU : (ZMod (n * n))ˣ) (ω : Coins k n × Fin n) (j : Nat) : List Answer :=
  answers (A.ask (pkOf i gU ω.1) none) (idealOf H n' i gU ω.1) [] j

/-- the ciphertext -/
noncomputable def target (H : Bytes → Int) (A : Guesser) (q1 : Nat) (b : Bool) (n' : Nat) (i : Int) (gU : (ZMod (n * n))ˣ) (ω : Coins k n × Fin n) : Cipher :=
  cipherOf H (blindOf gU ω) ω.1.x1 (ω.1.2.1 : Nat) (ω.1.2.2.1 : Nat) (A.pick (pkOf i gU ω.1) (first H A n' i gU ω q1) b) (A.choose (pkOf i gU ω.1) (first H A n' i gU ω q1)).1

/-- answers after the ciphertext -/
noncomputable def second (H : Bytes → Int) (A : Guesser) (q1 : Nat) (b : Bool) (n' : Nat) (i : Int) (gU : (ZMod (n * n))ˣ) (ω : Coins k n × Fin n) (j : Nat) : List Answer :=
  answers (A.ask (pkOf i gU ω.1) (some (target H A q1 b n' i gU ω)))
    (refuse H (A.choose (pkOf i gU ω.1) (first H A n' i gU ω q1)).1 (target H A q1 b n' i gU ω) (idealOf H n' i gU ω.1)) (first H A n' i gU ω q1) j

/-- the guesser says yes, with that service -/
def YesIdeal (H : Bytes → Int) (A : Guesser) (q1 q2 : Nat) (b : Bool) (n' : Nat) (i : Int) (gU : (ZMod (n * n))ˣ) (ω : Coins k n × Fin n) : Prop :=
  Yes H A q1 q2 b (pkOf i gU ω.1) (idealOf H n' i gU ω.1) (blindOf gU ω) ω.1.x1 (ω.1.2.1 : Nat) (ω.1.2.2.1 : Nat)

theorem yesIdeal_iff (H : Bytes → Int) (A : Guesser) (q1 q2 : Nat) (b : Bool) (i : Int) (gU : (ZMod (n * n))ˣ) (ω : Coins k n × Fin n) :
    YesIdeal H A q1 q2 b n' i gU ω ↔ A.guess (pkOf i gU ω.1) (target H A q1 b n' i gU ω) (second H A q1 b n' i gU ω q2) := Iff.rfl

theorem yesIdeal_shift (H : Bytes → Int) (hH : ∀ b, 0 ≤ H b) (A : Guesser) (hA : A.Legal k) (q1 q2 : Nat) (b : Bool) (hn : 1 < n) {i : Int} (hi : 0 ≤ i)
    {gU : (ZMod (n * n))ˣ} (hg : gU ^ n' = 1) (hX : n * n' ≤ n * n / 4) (h0 : 0 < n * n') (t : Int) (ω : Coins k n × Fin n)
    (ht : ((ω.2 : Nat) : Int) * n' * t ≡ 1 [ZMOD n]) (h : YesIdeal H A q1 q2 b n' i gU ω) :
    YesIdeal H A q1 q2 (!b) n' i gU (shiftCoins hX h0 t (gap (A.pick (pkOf i gU ω.1) (first H A n' i gU ω q1) b) (A.pick (pkOf i gU ω.1) (first H A n' i gU ω q1) (!b))) ω.1, ω.2) := by
  have hl : (A.pick (pkOf i gU ω.1) (first H A n' i gU ω q1) b).length = (A.pick (pkOf i gU ω.1) (first H A n' i gU ω q1) (!b)).length := by
    have := (hA (pkOf i gU ω.1) (first H A n' i gU ω q1)).1
    cases b <;> simp [Guesser.pick, this]
  generalize hd : gap (k := k) (A.pick (pkOf i gU ω.1) (first H A n' i gU ω q1) b) (A.pick (pkOf i gU ω.1) (first H A n' i gU ω q1) (!b)) = d
  have e1 := pkOf_shiftCoins (i := i) hn hg hX h0 t d ω.1
  have e2 := idealOf_shiftCoins H hH hn hi hg hX h0 t d ω.1
  have e3 : first H A n' i gU (shiftCoins hX h0 t d ω.1, ω.2) q1 = first H A n' i gU ω q1 := by
    unfold first; dsimp only; rw [e1, e2]
  have e4 : target H A q1 (!b) n' i gU (shiftCoins hX h0 t d ω.1, ω.2) = target H A q1 b n' i gU ω := by
    unfold target
    rw [e3]
    dsimp only
    rw [e1]
    have e5 := eOf_shift (by omega) hg hX h0 ((ω.1.2.2.2 : Nat) : Int) ((ω.2 : Nat) : Int) t ht _ _ hl ω.1
    rw [hd] at e5
    have e6 : blindOf gU (shiftCoins hX h0 t d ω.1, ω.2) = gU ^ ((ω.1.2.2.2 : Nat) : Int) * hU n ^ ((ω.2 : Nat) : Int) := rfl
    have e7 : blindOf gU ω = gU ^ ((ω.1.2.2.2 : Nat) : Int) * hU n ^ ((ω.2 : Nat) : Int) := rfl
    unfold cipherOf
    rw [e6, e7, e5]
    rfl
  rw [yesIdeal_iff] at h ⊢
  have e8 : second H A q1 (!b) n' i gU (shiftCoins hX h0 t d ω.1, ω.2) q2 = second H A q1 b n' i gU ω q2 := by
    unfold second
    rw [e4, e3]
    dsimp only
    rw [e1, e2]
  rw [e4, e8]
  dsimp only
  rw [e1]
  exact h

theorem ideal_le (H : Bytes → Int) (hH : ∀ b, 0 ≤ H b) (A : Guesser) (hA : A.Legal k) (q1 q2 : Nat) (b : Bool) (hn : 1 < n) {i : Int} (hi : 0 ≤ i)
    {gU : (ZMod (n * n))ˣ} (hg : gU ^ n' = 1) (hc : Nat.Coprime n n') (hX : n * n' ≤ n * n / 4) (h0 : 0 < n * n') (hne : Nonempty (Coins k n × Fin n)) :
    pr (fun ω : Coins k n × Fin n => (YesIdeal H A q1 q2 b n' i gU ω ∧ (∀ j, (ω.1.1 j : Nat) < n * n')) ∧ Nat.Coprime n ω.2) ≤ pr (YesIdeal (k := k) H A q1 q2 (!b) n' i gU) := by
  let f : Coins k n × Fin n → Coins k n × Fin n := fun ω =>
    (shiftCoins hX h0 (invOf n n' ω.2) (gap (A.pick (pkOf i gU ω.1) (first H A n' i gU ω q1) b) (A.pick (pkOf i gU ω.1) (first H A n' i gU ω q1) (!b))) ω.1, ω.2)
  have key := pr_embed (fun ω : Coins k n × Fin n => (YesIdeal H A q1 q2 b n' i gU ω ∧ (∀ j, (ω.1.1 j : Nat) < n * n')) ∧ Nat.Coprime n ω.2)
    (YesIdeal (k := k) H A q1 q2 (!b) n' i gU) f ?_ ?_
  · have hpos : (0 : ℚ) < Fintype.card (Coins k n × Fin n) := by exact_mod_cast Fintype.card_pos
    exact le_of_mul_le_mul_right key hpos
  · rintro ⟨⟨x, x2, x3, r⟩, s⟩ ⟨⟨-, hx⟩, -⟩ ⟨⟨y, y2, y3, r'⟩, s'⟩ ⟨⟨-, hy⟩, -⟩ hab
    have inv : ∀ ω : Coins k n × Fin n, pkOf i gU (f ω).1 = pkOf i gU ω.1 ∧ first H A n' i gU (f ω) q1 = first H A n' i gU ω q1 := by
      intro ω
      have e1 : pkOf i gU (f ω).1 = pkOf i gU ω.1 := pkOf_shiftCoins hn hg hX h0 _ _ _
      have e2 : idealOf H n' i gU (f ω).1 = idealOf H n' i gU ω.1 := idealOf_shiftCoins H hH hn hi hg hX h0 _ _ _
      refine ⟨e1, ?_⟩
      unfold first
      rw [e1, e2]
    have hpk : pkOf i gU (x, x2, x3, r) = pkOf i gU (y, y2, y3, r') := by
      rw [← (inv ((x, x2, x3, r), s)).1, ← (inv ((y, y2, y3, r'), s')).1, hab]
    have hfi : first H A n' i gU ((x, x2, x3, r), s) q1 = first H A n' i gU ((y, y2, y3, r'), s') q1 := by
      rw [← (inv ((x, x2, x3, r), s)).2, ← (inv ((y, y2, y3, r'), s')).2, hab]
    simp only [f, hpk, hfi, shiftCoins, Prod.mk.injEq] at hab
    obtain ⟨⟨h1, h2, h3, h4⟩, h5⟩ := hab
    subst h2 h3 h4 h5
    have : x = y := by
      funext j
      have := congrArg Fin.val (congrFun h1 j)
      exact Fin.ext (shiftBy_inj (hx j) (hy j) this)
    rw [this]
  · rintro ω ⟨⟨h, -⟩, hs⟩
    have ht := invOf_spec (n := n) (n' := n') (ω.2 : Nat) (Nat.Coprime.mul_left hs.symm hc.symm)
    exact yesIdeal_shift H hH A hA q1 q2 b hn hi hg hX h0 _ ω ht h

end views

/-! ## Elements with an `h` part are refused -/

section bad
variable {n n' k : Nat}

/-- A ciphertext with an `h` part does not pass the check for two pairs of exponents whose combinations differ by `n' * D`, with `D` coprime to `n`. -/
theorem pass_once {H : Bytes → Int} (hexp : ∀ w : (ZMod (n * n))ˣ, w ^ (2 * (n * n')) = 1) {l : Bytes} {x : Cipher} {x2 x3 y2 y3 D K : Int}
    (hnp : ¬ Plain n n' x.u) (hx : Pass H n l x x2 x3) (hy : Pass H n l x y2 y3)
    (hd : H (hashInput x.u x.e l) * x3 + x2 - (H (hashInput x.u x.e l) * y3 + y2) = n' * D + n * n' * K) : Int.gcd D n ≠ 1 := by
  intro hD
  obtain ⟨uU, hu, h1⟩ := hx
  obtain ⟨uU', hu', h2⟩ := hy
  have : uU' = uU := Units.ext (hu'.symm.trans hu)
  subst this
  rw [h1] at h2
  have h3 := Units.ext h2
  generalize H (hashInput x.u x.e l) * x3 + x2 = a at h3 hd
  generalize H (hashInput x.u x.e l) * y3 + y2 = b at h3 hd
  have h4 : (uU' ^ (2 * n')) ^ D = 1 := by
    have h5 : uU' ^ (2 * (a - b)) = 1 := by rw [show 2 * (a - b) = 2 * a - 2 * b by ring, zpow_sub, h3, mul_inv_cancel]
    rw [hd, show 2 * (n' * D + n * n' * K) = ((2 * n' : Nat) : Int) * D + ((2 * (n * n') : Nat) : Int) * K by push_cast; ring, zpow_add,
      zpow_mul uU' ((2 * (n * n') : Nat) : Int), zpow_natCast uU' (2 * (n * n')), hexp, one_zpow, mul_one, zpow_mul uU', zpow_natCast uU'] at h5
    exact h5
  have h6 : (uU' ^ (2 * n')) ^ (n : Int) = 1 := by
    rw [zpow_natCast, ← pow_mul, show 2 * n' * n = 2 * (n * n') by ring]; exact hexp uU'
  obtain ⟨s, t, hst⟩ := Int.isCoprime_iff_gcd_eq_one.2 hD
  have h7 : uU' ^ (2 * n') = 1 := by
    rw [← zpow_one (uU' ^ (2 * n')), ← hst, zpow_add, mul_comm s, mul_comm t, zpow_mul, zpow_mul, h4, h6, one_zpow, one_zpow, mul_one]
  apply hnp
  unfold Plain
  rw [hu, ← Units.val_pow_eq_pow_val, h7, Units.val_one]

/-- question `j` before the ciphertext has an `h` part and passes the check -/
def Bad1 (H : Bytes → Int) (A : Guesser) (n' : Nat) (i : Int) (gU : (ZMod (n * n))ˣ) (j : Nat) (ω : Coins k n × Fin n) : Prop :=
  ¬ Plain n n' (A.ask (pkOf i gU ω.1) none (first H A n' i gU ω j)).2.u ∧
    Pass H n (A.ask (pkOf i gU ω.1) none (first H A n' i gU ω j)).1 (A.ask (pkOf i gU ω.1) none (first H A n' i gU ω j)).2 (ω.1.2.1 : Nat) (ω.1.2.2.1 : Nat)

/-- the hash value of the ciphertext -/
noncomputable def star (H : Bytes → Int) (A : Guesser) (q1 : Nat) (b : Bool) (n' : Nat) (i : Int) (gU : (ZMod (n * n))ˣ) (ω : Coins k n × Fin n) : Int :=
  H (hashInput (target H A q1 b n' i gU ω).u (target H A q1 b n' i gU ω).e (A.choose (pkOf i gU ω.1) (first H A n' i gU ω q1)).1)

/-- question `j` after the ciphertext -/
noncomputable def later (H : Bytes → Int) (A : Guesser) (q1 : Nat) (b : Bool) (n' : Nat) (i : Int) (gU : (ZMod (n * n))ˣ) (j : Nat) (ω : Coins k n × Fin n) : Bytes × Cipher :=
  A.ask (pkOf i gU ω.1) (some (target H A q1 b n' i gU ω)) (second H A q1 b n' i gU ω j)

/-- question `j` after the ciphertext has another hash value and an `h` part and passes the check -/
def Bad2 (H : Bytes → Int) (A : Guesser) (q1 : Nat) (b : Bool) (n' : Nat) (i : Int) (gU : (ZMod (n * n))ˣ) (j : Nat) (ω : Coins k n × Fin n) : Prop :=
  H (hashInput (later H A q1 b n' i gU j ω).2.u (later H A q1 b n' i gU j ω).2.e (later H A q1 b n' i gU j ω).1) ≠ star H A q1 b n' i gU ω ∧
    ¬ Plain n n' (later H A q1 b n' i gU j ω).2.u ∧
    Pass H n (later H A q1 b n' i gU j ω).1 (later H A q1 b n' i gU j ω).2 (ω.1.2.1 : Nat) (ω.1.2.2.1 : Nat)

/-- the exponents `x2` and `x3` are below `n * n'` -/
def Low (n' : Nat) (ω : Coins k n × Fin n) : Prop := (ω.1.2.1 : Nat) < n * n' ∧ (ω.1.2.2.1 : Nat) < n * n'

variable (H : Bytes → Int) {B : Nat} (hH : ∀ b, 0 ≤ H b ∧ H b < B) (hB : ∀ d : Int, d ≠ 0 → |d| < B → IsCoprime d (n : Int)) (hB0 : 0 < B)
  (hexp : ∀ w : (ZMod (n * n))ˣ, w ^ (2 * (n * n')) = 1) (A : Guesser) (hn : 1 < n) {i : Int} (hi : 0 ≤ i) {gU : (ZMod (n * n))ˣ} (hg : gU ^ n' = 1)
  (hX : n * n' ≤ n * n / 4) (h0 : 0 < n * n') (hne : Nonempty (Coins k n × Fin n))
include hH hB hexp hn hi hg hX h0 hne hB0

theorem first_shiftKey (d2 d3 : Int) (ω : Coins k n × Fin n) (j : Nat) : first H A n' i gU (shiftKey hX h0 d2 d3 ω.1, ω.2) j = first H A n' i gU ω j := by
  unfold first
  dsimp only
  rw [pkOf_shiftKey hn hg hX h0, idealOf_shiftKey H (fun b => (hH b).1) hn hi hg hX h0]

theorem bad1_le (j : Nat) : pr (fun ω : Coins k n × Fin n => Bad1 H A n' i gU j ω ∧ Low n' ω) ≤ 1 / B := by
  have : Nonempty (Fin B) := ⟨⟨0, hB0⟩⟩
  have key := SDH.pr_line (F := Fin B) (fun ω : Coins k n × Fin n => Bad1 H A n' i gU j ω ∧ Low n' ω) (fun ω δ => (shiftKey hX h0 (δ : Nat) 0 ω.1, ω.2)) ?_
  · rwa [Fintype.card_fin] at key
  · rintro a b ⟨ha, la⟩ ⟨hb, lb⟩ δ δ' hab
    have hpk : pkOf i gU a.1 = pkOf i gU b.1 := by
      rw [← pkOf_shiftKey hn hg hX h0 (δ : Nat) 0 a.1, ← pkOf_shiftKey hn hg hX h0 (δ' : Nat) 0 b.1]
      exact congrArg (fun z : Coins k n × Fin n => pkOf i gU z.1) hab
    have hfi : first H A n' i gU a j = first H A n' i gU b j := by
      rw [← first_shiftKey H hH hB hB0 hexp A hn hi hg hX h0 hne (δ : Nat) 0 a j, ← first_shiftKey H hH hB hB0 hexp A hn hi hg hX h0 hne (δ' : Nat) 0 b j]
      exact congrArg (fun z => first H A n' i gU z j) hab
    obtain ⟨⟨x, x2, x3, r⟩, s⟩ := a
    obtain ⟨⟨y, y2, y3, r'⟩, s'⟩ := b
    simp only [shiftKey, Prod.mk.injEq] at hab
    obtain ⟨⟨h1, f2, f3, h4⟩, h5⟩ := hab
    have h3 : x3 = y3 := Fin.ext (shiftBy_inj la.2 lb.2 (congrArg Fin.val f3))
    have h2 : shiftBy n n' 1 (δ : Nat) (x2 : Nat) = shiftBy n n' 1 (δ' : Nat) (y2 : Nat) := congrArg Fin.val f2
    clear f2 f3
    subst h1 h3 h4 h5
    have hδ : δ = δ' := by
      by_contra hne'
      unfold Bad1 at ha hb
      rw [hpk, hfi] at ha
      obtain ⟨K, hK⟩ := shiftBy_int (n := n) (n' := n') (by omega) 1 ((δ : Nat) : Int) x2
      obtain ⟨K', hK'⟩ := shiftBy_int (n := n) (n' := n') (by omega) 1 ((δ' : Nat) : Int) y2
      have h6 : (x2 : Int) + n' * (((δ : Nat) : Int) * 1) + n * n' * K = y2 + n' * (((δ' : Nat) : Int) * 1) + n * n' * K' := by rw [← hK, ← hK', h2]
      refine pass_once (D := ((δ' : Nat) : Int) - (δ : Nat)) (K := K' - K) hexp hb.1 ha.2 hb.2 ?_ ?_
      · dsimp only
        linarith
      · refine Int.isCoprime_iff_gcd_eq_one.1 (hB _ ?_ ?_)
        · intro h
          exact hne' (Fin.ext (by omega))
        · have := δ.2
          have := δ'.2
          rw [abs_lt]
          constructor <;> omega
    subst hδ
    have : x2 = y2 := Fin.ext (shiftBy_inj la.1 lb.1 h2)
    subst this
    exact ⟨rfl, rfl⟩

theorem target_shiftKey (q1 : Nat) (b : Bool) (ω : Coins k n × Fin n) (δ : Int) :
    target H A q1 b n' i gU (shiftKey hX h0 (-(star H A q1 b n' i gU ω * δ)) δ ω.1, ω.2) = target H A q1 b n' i gU ω := by
  have e1 := fun d2 d3 => pkOf_shiftKey (i := i) hn hg hX h0 d2 d3 ω.1
  have e2 := fun d2 d3 => first_shiftKey H hH hB hB0 hexp A hn hi hg hX h0 hne d2 d3 ω q1
  unfold target
  rw [e2]
  dsimp only
  rw [e1]
  have e3 : ∀ d2 d3 : Int, blindOf gU (shiftKey hX h0 d2 d3 ω.1, ω.2) = blindOf gU ω := fun _ _ => rfl
  have e4 : ∀ d2 d3 : Int, (shiftKey hX h0 d2 d3 ω.1).x1 = ω.1.x1 := fun _ _ => rfl
  unfold cipherOf
  rw [e3, e4]
  congr 2
  have hs : star H A q1 b n' i gU ω = H (hashInput (val (blindOf gU ω)) (eOf (blindOf gU ω) (A.pick (pkOf i gU ω.1) (first H A n' i gU ω q1) b) ω.1.x1)
      (A.choose (pkOf i gU ω.1) (first H A n' i gU ω q1)).1) := rfl
  rw [← hs]
  generalize star H A q1 b n' i gU ω = h
  obtain ⟨K2, hK2⟩ := shiftBy_int (n := n) (n' := n') (by omega) 1 (-(h * δ)) ω.1.2.1
  obtain ⟨K3, hK3⟩ := shiftBy_int (n := n) (n' := n') (by omega) 1 δ ω.1.2.2.1
  have e5 : (((shiftKey hX h0 (-(h * δ)) δ ω.1).2.1 : Nat) : Int) = (ω.1.2.1 : Nat) + n' * (-(h * δ) * 1) + n * n' * K2 := hK2
  have e6 : (((shiftKey hX h0 (-(h * δ)) δ ω.1).2.2.1 : Nat) : Int) = (ω.1.2.2.1 : Nat) + n' * (δ * 1) + n * n' * K3 := hK3
  rw [e5, e6]
  have hone : blindOf gU ω ^ ((n : Int) * n') = 1 := by
    unfold blindOf
    rw [mul_zpow, zpow_comm gU, mul_comm (n : Int) n', zpow_mul gU, zpow_natCast gU n', hg, one_zpow, one_zpow, one_mul, ← zpow_mul]
    rw [hU_congr n _ 0 (Int.modEq_iff_dvd.2 ⟨-((ω.2 : Nat) * n'), by ring⟩), zpow_zero]
  have e7 : h * (((ω.1.2.2.1 : Nat) : Int) + n' * (δ * 1) + n * n' * K3) + (((ω.1.2.1 : Nat) : Int) + n' * (-(h * δ) * 1) + n * n' * K2) =
      (h * ((ω.1.2.2.1 : Nat) : Int) + (ω.1.2.1 : Nat)) + (n : Int) * n' * (h * K3 + K2) := by ring
  rw [e7, zpow_add, zpow_mul (blindOf gU ω) ((n : Int) * n'), hone, one_zpow, mul_one]

theorem bad2_le (q1 : Nat) (b : Bool) (j : Nat) : pr (fun ω : Coins k n × Fin n => Bad2 H A q1 b n' i gU j ω ∧ Low n' ω) ≤ 1 / B := by
  have : Nonempty (Fin B) := ⟨⟨0, hB0⟩⟩
  have key := SDH.pr_line (F := Fin B) (fun ω : Coins k n × Fin n => Bad2 H A q1 b n' i gU j ω ∧ Low n' ω)
    (fun ω δ => (shiftKey hX h0 (-(star H A q1 b n' i gU ω * (δ : Nat))) (δ : Nat) ω.1, ω.2)) ?_
  · rwa [Fintype.card_fin] at key
  · rintro a c ⟨ha, la⟩ ⟨hb, lb⟩ δ δ' hab
    have inv : ∀ (ω : Coins k n × Fin n) (δ : Fin B) (z : Coins k n × Fin n), z = (shiftKey hX h0 (-(star H A q1 b n' i gU ω * (δ : Nat))) (δ : Nat) ω.1, ω.2) →
        pkOf i gU z.1 = pkOf i gU ω.1 ∧ first H A n' i gU z q1 = first H A n' i gU ω q1 ∧ target H A q1 b n' i gU z = target H A q1 b n' i gU ω ∧
        second H A q1 b n' i gU z j = second H A q1 b n' i gU ω j := by
      rintro ω δ z rfl
      have e1 := pkOf_shiftKey (i := i) hn hg hX h0 (-(star H A q1 b n' i gU ω * (δ : Nat))) (δ : Nat) ω.1
      have e2 := first_shiftKey H hH hB hB0 hexp A hn hi hg hX h0 hne (-(star H A q1 b n' i gU ω * (δ : Nat))) (δ : Nat) ω q1
      have e3 := target_shiftKey H hH hB hB0 hexp A hn hi hg hX h0 hne q1 b ω (δ : Nat)
      have e4 := idealOf_shiftKey H (fun b => (hH b).1) hn hi hg hX h0 (-(star H A q1 b n' i gU ω * (δ : Nat))) (δ : Nat) ω.1
      refine ⟨e1, e2, e3, ?_⟩
      unfold second
      rw [e3, e2]
      dsimp only
      rw [e1, e4]
    obtain ⟨i1, i2, i3, i4⟩ := inv a δ _ rfl
    obtain ⟨j1, j2, j3, j4⟩ := inv c δ' _ hab
    have hpk : pkOf i gU a.1 = pkOf i gU c.1 := i1.symm.trans j1
    have hfi : first H A n' i gU a q1 = first H A n' i gU c q1 := i2.symm.trans j2
    have hta : target H A q1 b n' i gU a = target H A q1 b n' i gU c := i3.symm.trans j3
    have hse : second H A q1 b n' i gU a j = second H A q1 b n' i gU c j := i4.symm.trans j4
    have hst : star H A q1 b n' i gU a = star H A q1 b n' i gU c := by unfold star; rw [hpk, hfi, hta]
    have hla : later H A q1 b n' i gU j a = later H A q1 b n' i gU j c := by unfold later; rw [hpk, hta, hse]
    unfold Bad2 at ha hb
    rw [hst, hla] at ha
    rw [hst] at hab
    clear inv i1 i2 i3 i4 j1 j2 j3 j4 hpk hfi hta hse hst hla
    have hsb : 0 ≤ star H A q1 b n' i gU c ∧ star H A q1 b n' i gU c < B := hH _
    generalize star H A q1 b n' i gU c = h at *
    generalize later H A q1 b n' i gU j c = lx at *
    obtain ⟨⟨x, x2, x3, r⟩, s⟩ := a
    obtain ⟨⟨y, y2, y3, r'⟩, s'⟩ := c
    simp only [shiftKey, Prod.mk.injEq] at hab
    obtain ⟨⟨h1, f2, f3, h4⟩, h5⟩ := hab
    have h3 : shiftBy n n' 1 (δ : Nat) (x3 : Nat) = shiftBy n n' 1 (δ' : Nat) (y3 : Nat) := congrArg Fin.val f3
    have h2 : shiftBy n n' 1 (-(h * (δ : Nat))) (x2 : Nat) = shiftBy n n' 1 (-(h * (δ' : Nat))) (y2 : Nat) := congrArg Fin.val f2
    clear f2 f3
    subst h1 h4 h5
    have hδ : δ = δ' := by
      by_contra hne'
      obtain ⟨K, hK⟩ := shiftBy_int (n := n) (n' := n') (by omega) 1 (-(h * (δ : Nat))) x2
      obtain ⟨K', hK'⟩ := shiftBy_int (n := n) (n' := n') (by omega) 1 (-(h * (δ' : Nat))) y2
      obtain ⟨L, hL⟩ := shiftBy_int (n := n) (n' := n') (by omega) 1 ((δ : Nat) : Int) x3
      obtain ⟨L', hL'⟩ := shiftBy_int (n := n) (n' := n') (by omega) 1 ((δ' : Nat) : Int) y3
      have h6 : (x2 : Int) + n' * (-(h * (δ : Nat)) * 1) + n * n' * K = y2 + n' * (-(h * (δ' : Nat)) * 1) + n * n' * K' := by rw [← hK, ← hK', h2]
      have h7 : (x3 : Int) + n' * (((δ : Nat) : Int) * 1) + n * n' * L = y3 + n' * (((δ' : Nat) : Int) * 1) + n * n' * L' := by rw [← hL, ← hL', h3]
      have hhv := hH (hashInput lx.2.u lx.2.e lx.1)
      refine pass_once (D := (H (hashInput lx.2.u lx.2.e lx.1) - h) * (((δ' : Nat) : Int) - (δ : Nat))) (K := H (hashInput lx.2.u lx.2.e lx.1) * (L' - L) + (K' - K))
        hexp hb.2.1 ha.2.2 hb.2.2 ?_ ?_
      · dsimp only
        linear_combination (H (hashInput lx.2.u lx.2.e lx.1)) * h7 + h6
      · refine Int.isCoprime_iff_gcd_eq_one.1 (IsCoprime.mul_left (hB _ (sub_ne_zero.2 hb.1) ?_) (hB _ ?_ ?_))
        · rw [abs_lt]
          constructor <;> linarith [hhv.1, hhv.2, hsb.1, hsb.2]
        · intro h
          exact hne' (Fin.ext (by omega))
        · have := δ.2
          have := δ'.2
          rw [abs_lt]
          constructor <;> omega
    subst hδ
    have e3 : x3 = y3 := Fin.ext (shiftBy_inj la.2 lb.2 h3)
    have e2 : x2 = y2 := Fin.ext (shiftBy_inj la.1 lb.1 h2)
    subst e3 e2
    exact ⟨rfl, rfl⟩

end bad

/-! ## The bound -/

/-- Answers of two services agree as long as they do on the questions asked of the second one. -/
theorem answers_congr (ask : List Answer → Bytes × Cipher) (O O' : Bytes → Cipher → Answer) (as : List Answer) : ∀ m : Nat,
    (∀ j < m, O (ask (answers ask O' as j)).1 (ask (answers ask O' as j)).2 = O' (ask (answers ask O' as j)).1 (ask (answers ask O' as j)).2) →
    answers ask O as m = answers ask O' as m
  | 0, _ => rfl
  | m + 1, h => by
    have ih := answers_congr ask O O' as m fun j hj => h j (by omega)
    unfold answers
    rw [ih, h m (by omega)]

section final
variable {n n' k : Nat}

/-- Without bad questions it does not matter which service answers. -/
theorem real_ideal (H : Bytes → Int) (hH : ∀ b, 0 ≤ H b) (A : Guesser) (q1 q2 : Nat) (b : Bool) (hn : 1 < n) {i : Int} (hi : 0 ≤ i) (gU : (ZMod (n * n))ˣ)
    (ω : Coins k n × Fin n) (h1 : ∀ j < q1, ¬ Bad1 H A n' i gU j ω) (h2 : ∀ j < q2, ¬ Bad2 H A q1 b n' i gU j ω) :
    Yes H A q1 q2 b (pkOf i gU ω.1) (serve H (pkOf i gU ω.1) (skOf ω.1)) (blindOf gU ω) ω.1.x1 (ω.1.2.1 : Nat) (ω.1.2.2.1 : Nat) ↔ YesIdeal H A q1 q2 b n' i gU ω := by
  have sh := pkOf_shape hn hi gU ω.1
  have hs := serve_ideal (n' := n') H hH sh (skOf ω.1) (Int.natCast_nonneg _) (Int.natCast_nonneg _)
  have e1 : answers (A.ask (pkOf i gU ω.1) none) (serve H (pkOf i gU ω.1) (skOf ω.1)) [] q1 = first H A n' i gU ω q1 := by
    refine answers_congr _ _ _ _ _ fun j hj => ?_
    by_contra hne
    obtain ⟨-, c2, c3⟩ := hs _ _ hne
    exact h1 j hj ⟨c2, c3⟩
  have e2 : answers (A.ask (pkOf i gU ω.1) (some (target H A q1 b n' i gU ω))) (refuse H (A.choose (pkOf i gU ω.1) (first H A n' i gU ω q1)).1
      (target H A q1 b n' i gU ω) (serve H (pkOf i gU ω.1) (skOf ω.1))) (first H A n' i gU ω q1) q2 = second H A q1 b n' i gU ω q2 := by
    refine answers_congr _ _ _ _ _ fun j hj => ?_
    by_contra hne
    unfold refuse at hne
    split at hne
    · exact hne rfl
    · rename_i hh
      obtain ⟨-, c2, c3⟩ := hs _ _ hne
      exact h2 j hj ⟨hh, c2, c3⟩
  rw [yesIdeal_iff, ← e2]
  unfold Yes
  rw [e1]
  rfl

end final

/-- the numbers of a key give what the steps need -/
theorem _root_.Verif.CS.SafeKey.inv_nonneg {p q p' q' : Nat} {g' : Int} (h : SafeKey p q p' q' g') {i : Int} (hi : inverse 2 ((p * q : Nat) : Int) = .ok i) : 0 ≤ i := by
  have hn := h.hn
  have : NeZero (p * q) := neZero_of hn
  have hodd : (p * q) % 2 = 1 := odd_mul (by have := h.p_eq; omega) (by have := h.q_eq; omega)
  have h2 : Int.gcd 2 ((p * q : Nat) : Int) = 1 := by
    have : Nat.Coprime 2 (p * q) := (Nat.coprime_two_left).mpr (Nat.odd_iff.mpr hodd)
    exact_mod_cast this
  obtain ⟨w2, hw2⟩ := exists_rep (n := p * q) (by norm_num : (0 : Int) ≤ 2) h2
  have hinv := hw2.inverse hn
  rw [hi] at hinv
  cases hinv
  exact Int.natCast_nonneg _

theorem _root_.Verif.CS.SafeKey.small {p q p' q' : Nat} {g' : Int} (h : SafeKey p q p' q' g') (d : Int) (h0 : d ≠ 0) (hd : |d| < (min p q : Nat)) :
    IsCoprime d ((p * q : Nat) : Int) := by
  have one : ∀ r : Nat, r.Prime → |d| < r → IsCoprime d (r : Int) := by
    intro r hr hlt
    rw [Int.isCoprime_iff_gcd_eq_one, Int.gcd_comm]
    have hnd : ¬ (r ∣ d.natAbs) := fun hdvd => by
      have := Nat.le_of_dvd (Int.natAbs_pos.2 h0) hdvd
      rw [Int.abs_eq_natAbs] at hlt
      omega
    have := (Nat.Prime.coprime_iff_not_dvd hr).2 hnd
    simpa [Int.gcd] using this
  push_cast
  have hm : ((min p q : Nat) : Int) ≤ p ∧ ((min p q : Nat) : Int) ≤ q := ⟨by exact_mod_cast min_le_left p q, by exact_mod_cast min_le_right p q⟩
  exact (one p h.prime_p (by omega)).mul_right (one q h.prime_q (by omega))

/-- **C219** Whatever guesser asks for decryptions, before and after it sees the ciphertext, of any ciphertexts with another hash value: the probabilities with which it says
yes to the encryptions of the two lists differ by no more than the advantages of the two solvers and `2 * (q1 + q2) / min p q + (k + 5) * (p + q) / n`. -/
theorem chosen_ciphertexts_hide {p q p' q' : Nat} {g' : Int} (key : SafeKey p q p' q' g') (H : Bytes → Int) (hH : ∀ b, 0 ≤ H b ∧ H b < p ∧ H b < q) (A : Guesser)
    (q1 q2 : Nat) {k : Nat} (hk : 1 ≤ k) (hA : A.Legal k) :
    |pr (SaysYes H p q g' A q1 q2 (k := k) false) - pr (SaysYes H p q g' A q1 q2 (k := k) true)| ≤
      advantage H p q g' A q1 q2 k false + advantage H p q g' A q1 q2 k true + 2 * (q1 + q2) / (min p q : Nat) + (k + 5) * ((p : ℚ) + q) / (p * q) := by
  obtain ⟨gU, i, hg, hG, hi, ht, hrun⟩ := key.run
  have hn := key.hn
  obtain ⟨hn9, h0, h4, hX, hX4⟩ := key.sizes
  have hXpos : 0 < p * q * (p * q) / 4 := by omega
  have hRpos : 0 < p * q / 4 := by omega
  have : Nonempty (Fin (p * q * (p * q) / 4)) := ⟨⟨0, hXpos⟩⟩
  have : Nonempty (Fin (p * q / 4)) := ⟨⟨0, hRpos⟩⟩
  have : Nonempty (Fin (p * q)) := ⟨⟨0, by omega⟩⟩
  have hne : Nonempty (Coins k (p * q) × Fin (p * q)) := inferInstance
  have hi0 := key.inv_nonneg hi
  have hB0 : 0 < min p q := lt_min key.prime_p.pos key.prime_q.pos
  have hH0 : ∀ b, 0 ≤ H b := fun b => (hH b).1
  have hHB : ∀ b, 0 ≤ H b ∧ H b < (min p q : Nat) := fun b => ⟨(hH b).1, by push_cast; exact lt_min (hH b).2.1 (hH b).2.2⟩
  have hexp : ∀ w : (ZMod ((p * q) * (p * q)))ˣ, w ^ (2 * (p * q * (p' * q'))) = 1 := fun w => by
    rw [← unit_exponent key.prime_p key.prime_q key.p_eq key.q_eq key.ne w]
    congr 1
    ring
  -- the probabilities of failure
  have hbox : pr (fun ω : Coins k (p * q) × Fin (p * q) => ∃ j, p * q * (p' * q') ≤ (ω.1.1 j : Nat)) ≤ k * (((p : ℚ) + q) / (p * q)) := by
    refine SDH.pr_exists_fin (fun j (ω : Coins k (p * q) × Fin (p * q)) => p * q * (p' * q') ≤ (ω.1.1 j : Nat)) _ fun j => ?_
    rw [pr_fst (fun ω : Coins k (p * q) => p * q * (p' * q') ≤ (ω.1 j : Nat)),
      pr_fst (fun x : Fin k → Fin (p * q * (p * q) / 4) => p * q * (p' * q') ≤ (x j : Nat)),
      pr_coord (fun x : Fin (p * q * (p * q) / 4) => p * q * (p' * q') ≤ (x : Nat)) j]
    exact key.high
  have hcop : pr (fun ω : Coins k (p * q) × Fin (p * q) => ¬ Nat.Coprime (p * q) ω.2) ≤ ((p : ℚ) + q) / (p * q) := by
    rw [pr_snd (X := Coins k (p * q)) (fun s : Fin (p * q) => ¬ Nat.Coprime (p * q) s)]
    exact key.clash
  have hlow2 : pr (fun ω : Coins k (p * q) × Fin (p * q) => p * q * (p' * q') ≤ (ω.1.2.1 : Nat)) ≤ ((p : ℚ) + q) / (p * q) := by
    rw [pr_fst (fun ω : Coins k (p * q) => p * q * (p' * q') ≤ (ω.2.1 : Nat)),
      pr_snd (X := Fin k → Fin (p * q * (p * q) / 4)) (fun ω : Fin (p * q * (p * q) / 4) × Fin (p * q * (p * q) / 4) × Fin (p * q / 4) => p * q * (p' * q') ≤ (ω.1 : Nat)),
      pr_fst (fun x : Fin (p * q * (p * q) / 4) => p * q * (p' * q') ≤ (x : Nat))]
    exact key.high
  have hlow3 : pr (fun ω : Coins k (p * q) × Fin (p * q) => p * q * (p' * q') ≤ (ω.1.2.2.1 : Nat)) ≤ ((p : ℚ) + q) / (p * q) := by
    rw [pr_fst (fun ω : Coins k (p * q) => p * q * (p' * q') ≤ (ω.2.2.1 : Nat)),
      pr_snd (X := Fin k → Fin (p * q * (p * q) / 4)) (fun ω : Fin (p * q * (p * q) / 4) × Fin (p * q * (p * q) / 4) × Fin (p * q / 4) => p * q * (p' * q') ≤ (ω.2.1 : Nat)),
      pr_snd (X := Fin (p * q * (p * q) / 4)) (fun ω : Fin (p * q * (p * q) / 4) × Fin (p * q / 4) => p * q * (p' * q') ≤ (ω.1 : Nat)),
      pr_fst (fun x : Fin (p * q * (p * q) / 4) => p * q * (p' * q') ≤ (x : Nat))]
    exact key.high
  have hlow : pr (fun ω : Coins k (p * q) × Fin (p * q) => ¬ Low (p' * q') ω) ≤ 2 * (((p : ℚ) + q) / (p * q)) := by
    have h1 := pr_or (fun ω : Coins k (p * q) × Fin (p * q) => p * q * (p' * q') ≤ (ω.1.2.1 : Nat)) (fun ω => p * q * (p' * q') ≤ (ω.1.2.2.1 : Nat))
    have h2 : pr (fun ω : Coins k (p * q) × Fin (p * q) => ¬ Low (p' * q') ω) ≤
        pr (fun ω : Coins k (p * q) × Fin (p * q) => p * q * (p' * q') ≤ (ω.1.2.1 : Nat) ∨ p * q * (p' * q') ≤ (ω.1.2.2.1 : Nat)) := by
      refine pr_mono fun ω hω => ?_
      unfold Low at hω
      omega
    linarith
  -- the services
  have serv : ∀ b, |pr (YesToBlind H p q g' A q1 q2 (k := k) b) - pr (YesIdeal (k := k) H A q1 q2 b (p' * q') i gU)| ≤
      (q1 + q2) / (min p q : Nat) + 2 * (((p : ℚ) + q) / (p * q)) := by
    intro b
    have hE : YesToBlind H p q g' A q1 q2 (k := k) b = fun ω => Yes H A q1 q2 b (pkOf i gU ω.1) (serve H (pkOf i gU ω.1) (skOf ω.1)) (blindOf gU ω) ω.1.x1
        (ω.1.2.1 : Nat) (ω.1.2.2.1 : Nat) := funext fun ω => propext (yes_to_blind_iff H A q1 q2 b hn hi hG ω)
    have b1 := pr_exists_lt q1 (fun j (ω : Coins k (p * q) × Fin (p * q)) => Bad1 H A (p' * q') i gU j ω ∧ Low (p' * q') ω) (1 / (min p q : Nat))
      fun j _ => bad1_le H hHB (fun d h0 hd => key.small d h0 hd) hB0 hexp A hn hi0 hg hX h0 hne j
    have b2 := pr_exists_lt q2 (fun j (ω : Coins k (p * q) × Fin (p * q)) => Bad2 H A q1 b (p' * q') i gU j ω ∧ Low (p' * q') ω) (1 / (min p q : Nat))
      fun j _ => bad2_le H hHB (fun d h0 hd => key.small d h0 hd) hB0 hexp A hn hi0 hg hX h0 hne q1 b j
    have b3 := pr_or (fun ω : Coins k (p * q) × Fin (p * q) => ∃ j < q1, Bad1 H A (p' * q') i gU j ω ∧ Low (p' * q') ω)
      (fun ω => ∃ j < q2, Bad2 H A q1 b (p' * q') i gU j ω ∧ Low (p' * q') ω)
    have b4 := pr_or (fun ω : Coins k (p * q) × Fin (p * q) => (∃ j < q1, Bad1 H A (p' * q') i gU j ω ∧ Low (p' * q') ω) ∨
      (∃ j < q2, Bad2 H A q1 b (p' * q') i gU j ω ∧ Low (p' * q') ω)) (fun ω => ¬ Low (p' * q') ω)
    have b5 := pr_close (YesToBlind H p q g' A q1 q2 (k := k) b) (YesIdeal (k := k) H A q1 q2 b (p' * q') i gU)
      (fun ω => ((∃ j < q1, Bad1 H A (p' * q') i gU j ω ∧ Low (p' * q') ω) ∨ (∃ j < q2, Bad2 H A q1 b (p' * q') i gU j ω ∧ Low (p' * q') ω)) ∨ ¬ Low (p' * q') ω) (by
        intro ω hω
        rw [hE]
        simp only [not_or, not_not] at hω
        obtain ⟨⟨c1, c2⟩, c3⟩ := hω
        exact real_ideal H hH0 A q1 q2 b hn hi0 gU ω (fun j hj hb => c1 ⟨j, hj, hb, c3⟩) fun j hj hb => c2 ⟨j, hj, hb, c3⟩)
    have e : ((q1 : ℚ) + q2) / (min p q : Nat) = q1 * (1 / (min p q : Nat)) + q2 * (1 / (min p q : Nat)) := by ring
    rw [e]
    linarith
  -- blind instances
  have one : ∀ b, pr (YesIdeal (k := k) H A q1 q2 b (p' * q') i gU) ≤ pr (YesIdeal (k := k) H A q1 q2 (!b) (p' * q') i gU) + (k + 1) * ((p : ℚ) + q) / (p * q) := by
    intro b
    have h1 := ideal_le H hH0 A hA q1 q2 b hn hi0 hg key.coprime hX h0 hne
    have h2 : pr (YesIdeal (k := k) H A q1 q2 b (p' * q') i gU) ≤ pr (fun ω : Coins k (p * q) × Fin (p * q) =>
        ((YesIdeal H A q1 q2 b (p' * q') i gU ω ∧ (∀ j, (ω.1.1 j : Nat) < p * q * (p' * q'))) ∧ Nat.Coprime (p * q) ω.2) ∨
          ((∃ j, p * q * (p' * q') ≤ (ω.1.1 j : Nat)) ∨ ¬ Nat.Coprime (p * q) ω.2)) := by
      refine pr_mono fun ω hω => ?_
      by_cases hb : ∃ j, p * q * (p' * q') ≤ (ω.1.1 j : Nat)
      · exact Or.inr (Or.inl hb)
      · by_cases hc : Nat.Coprime (p * q) ω.2
        · push Not at hb
          exact Or.inl ⟨⟨hω, hb⟩, hc⟩
        · exact Or.inr (Or.inr hc)
    have h3 := pr_or (fun ω : Coins k (p * q) × Fin (p * q) =>
        ((YesIdeal H A q1 q2 b (p' * q') i gU ω ∧ (∀ j, (ω.1.1 j : Nat) < p * q * (p' * q'))) ∧ Nat.Coprime (p * q) ω.2))
        (fun ω => (∃ j, p * q * (p' * q') ≤ (ω.1.1 j : Nat)) ∨ ¬ Nat.Coprime (p * q) ω.2)
    have h4 := pr_or (fun ω : Coins k (p * q) × Fin (p * q) => ∃ j, p * q * (p' * q') ≤ (ω.1.1 j : Nat)) (fun ω => ¬ Nat.Coprime (p * q) ω.2)
    have e : (k + 1) * ((p : ℚ) + q) / (p * q) = k * (((p : ℚ) + q) / (p * q)) + ((p : ℚ) + q) / (p * q) := by ring
    rw [e]
    linarith
  have three : ∀ b, SaysYes H p q g' A q1 q2 (k := k) b = YesToPower H p q g' A q1 q2 (k := k) b := fun b => funext fun ω => propext
    ((says_yes_iff H q1 q2 hk hA b hn ht hrun ω).trans (yes_to_power_iff H A q1 q2 b hn hi hG ω).symm)
  rw [three, three]
  unfold advantage
  have o1 := one false
  have o2 := one true
  simp only [Bool.not_false, Bool.not_true] at o1 o2
  have s1 := abs_le.1 (serv false)
  have s2 := abs_le.1 (serv true)
  have a1 := abs_le.1 (le_refl |pr (YesToPower H p q g' A q1 q2 (k := k) false) - pr (YesToBlind H p q g' A q1 q2 (k := k) false)|)
  have a2 := abs_le.1 (le_refl |pr (YesToPower H p q g' A q1 q2 (k := k) true) - pr (YesToBlind H p q g' A q1 q2 (k := k) true)|)
  have e1 : 2 * ((q1 : ℚ) + q2) / (min p q : Nat) = (q1 + q2) / (min p q : Nat) + (q1 + q2) / (min p q : Nat) := by ring
  have e2 : ((k : ℚ) + 5) * ((p : ℚ) + q) / (p * q) = (k + 1) * ((p : ℚ) + q) / (p * q) + 2 * (((p : ℚ) + q) / (p * q)) + 2 * (((p : ℚ) + q) / (p * q)) := by ring
  rw [abs_le, e1, e2]
  constructor <;> linarith [s1.1, s1.2, s2.1, s2.2, a1.1, a1.2, a2.1, a2.2]

/-! ## Why equal hash values must be refused -/

/-- a service that refuses only the ciphertext itself, under its label -/
def refuseSame (l : Bytes) (c : Cipher) (O : Bytes → Cipher → Answer) : Bytes → Cipher → Answer := fun l' x =>
  if l' = l ∧ x = c then .err "not this one" else O l' x

/-- as `SaysYes`, with that service -/
def SaysYesSame (H : Bytes → Int) (p q : Nat) (g' : Int) (A : Guesser) (q1 q2 : Nat) {k : Nat} (b : Bool) (ω : Coins k (p * q)) : Prop :=
  ∃ pk sk as c, keypair p q g' ω.x1 (ω.2.1 : Nat) (ω.2.2.1 : Nat) = .ok (pk, sk) ∧
    as = answers (A.ask pk none) (serve H pk sk) [] q1 ∧
    encrypt H pk (ω.2.2.2 : Nat) (A.pick pk as b) (A.choose pk as).1 = .ok c ∧
    A.guess pk c (answers (A.ask pk (some c)) (refuseSame (A.choose pk as).1 c (serve H pk sk)) as q2)

/-- it cuts off the last of two messages and asks for the rest -/
def cutGuesser (m m' : Int) : Guesser where
  ask _ c _ := match c with
    | none => ([], ⟨0, [], 0⟩)
    | some c => ((c.e.drop 1).flatMap toBytes, ⟨c.u, c.e.take 1, c.v⟩)
  choose _ _ := ([], [m, 0], [m', 0])
  guess pk _ as := as = [.ok [m % pk.n]]

theorem cutGuesser_legal (m m' : Int) {k : Nat} (hk : 2 ≤ k) : (cutGuesser m m').Legal k := fun _ _ => ⟨rfl, hk⟩

/-- If only the ciphertext itself is refused, one question tells which list was encrypted: always. -/
theorem cut_tells {p q p' q' : Nat} {g' : Int} (key : SafeKey p q p' q' g') (H : Bytes → Int) {k : Nat} (hk : 2 ≤ k) (m m' : Int)
    (hm : ¬ m ≡ m' [ZMOD ((p * q : Nat) : Int)]) (ω : Coins k (p * q)) :
    SaysYesSame H p q g' (cutGuesser m m') 0 1 false ω ∧ ¬ SaysYesSame H p q g' (cutGuesser m m') 0 1 true ω := by
  obtain ⟨gU, i, hg, hG, hi, ht, hrun⟩ := key.run
  have hn := key.hn
  have hN : 1 < (p * q) * (p * q) := by nlinarith
  have : NeZero ((p * q) * (p * q)) := neZero_of hN
  have hr := hrun ω.x1 (ω.2.1 : Nat) (ω.2.2.1 : Nat) (by rw [Coins.x1_length]; omega)
  have hpk : HonestKey p q g' (keyOf (p * q) (lshift1 i) gU ω.x1 (ω.2.1 : Nat) (ω.2.2.1 : Nat)) ⟨ω.x1, (ω.2.1 : Nat), (ω.2.2.1 : Nat)⟩ :=
    ⟨key.prime_p, key.prime_q, by have := key.p_eq; omega, by have := key.q_eq; omega, key.g_nonneg, key.g_coprime, hr⟩
  have enc := fun z : Int => encrypt_closed H hn ht gU ω.x1 (ω.2.1 : Nat) (ω.2.2.1 : Nat) (ω.2.2.2 : Nat) [z, 0]
    (by rw [Coins.x1_length]; exact hk) []
  have hlen : ∀ z : Int, (eOf (gU ^ ((ω.2.2.2 : Nat) : Int)) [z, 0] ω.x1).length = 2 := by
    intro z
    unfold eOf
    rw [List.length_zipWith, Coins.x1_length]
    simpa using hk
  have ans : ∀ z : Int, answers ((cutGuesser m m').ask (keyOf (p * q) (lshift1 i) gU ω.x1 (ω.2.1 : Nat) (ω.2.2.1 : Nat))
      (some (cipherOf H (gU ^ ((ω.2.2.2 : Nat) : Int)) ω.x1 (ω.2.1 : Nat) (ω.2.2.1 : Nat) [z, 0] [])))
      (refuseSame [] (cipherOf H (gU ^ ((ω.2.2.2 : Nat) : Int)) ω.x1 (ω.2.1 : Nat) (ω.2.2.1 : Nat) [z, 0] [])
        (serve H (keyOf (p * q) (lshift1 i) gU ω.x1 (ω.2.1 : Nat) (ω.2.2.1 : Nat)) ⟨ω.x1, (ω.2.1 : Nat), (ω.2.2.1 : Nat)⟩)) [] 1 =
      [.ok [z % ((p * q : Nat) : Int)]] := by
    intro z
    have hd := decrypt_cut H hpk (ω.2.2.2 : Nat) [z] [0] (by show 2 ≤ ω.x1.length; rw [Coins.x1_length]; exact hk) [] _ (enc z)
    have hne : ¬ ((cipherOf H (gU ^ ((ω.2.2.2 : Nat) : Int)) ω.x1 (ω.2.1 : Nat) (ω.2.2.1 : Nat) [z, 0] []).e.take 1 =
        (cipherOf H (gU ^ ((ω.2.2.2 : Nat) : Int)) ω.x1 (ω.2.1 : Nat) (ω.2.2.1 : Nat) [z, 0] []).e) := by
      intro h
      have h2 := congrArg List.length h
      have h3 := hlen z
      unfold cipherOf at h2
      dsimp only at h2
      rw [List.length_take, h3] at h2
      omega
    have hcop : Int.gcd (val (gU ^ ((ω.2.2.2 : Nat) : Int))) ((p * q : Nat) : Int) = 1 := by
      have h1 := (ZMod.coe_int_isUnit_iff_isCoprime (val (gU ^ ((ω.2.2.2 : Nat) : Int))) ((p * q) * (p * q))).1 (by rw [cast_val]; exact Units.isUnit _)
      have h2 : IsCoprime ((p * q : Nat) : Int) (val (gU ^ ((ω.2.2.2 : Nat) : Int))) := by
        refine IsCoprime.of_mul_left_left (y := ((p * q : Nat) : Int)) ?_
        exact_mod_cast h1
      exact Int.isCoprime_iff_gcd_eq_one.1 h2.symm
    unfold answers answers
    simp only [cutGuesser, List.nil_append, List.cons.injEq, and_true]
    unfold refuseSame
    rw [if_neg (by
      rintro ⟨-, h⟩
      exact hne (congrArg Cipher.e h))]
    unfold serve
    rw [if_neg (by
      rw [not_not]
      exact hcop)]
    rw [List.append_nil] at hd
    exact hd
  unfold SaysYesSame
  constructor
  · exact ⟨_, _, _, _, hr, rfl, enc m, ans m⟩
  · rintro ⟨pk, sk, as, c, h1, rfl, h2, h3⟩
    rw [hr] at h1
    cases h1
    rw [show (cutGuesser m m').pick (keyOf (p * q) (lshift1 i) gU ω.x1 (ω.2.1 : Nat) (ω.2.2.1 : Nat)) (answers _ _ [] 0) true = [m', 0] from rfl,
      show ((cutGuesser m m').choose (keyOf (p * q) (lshift1 i) gU ω.x1 (ω.2.1 : Nat) (ω.2.2.1 : Nat)) (answers _ _ [] 0)).1 = [] from rfl, enc m'] at h2
    cases h2
    have h4 := (ans m').symm.trans h3
    simp only [List.cons.injEq, Res.ok.injEq, and_true] at h4
    exact hm h4.symm

/-- a hash function whose values are below the primes -/
example : |pr (SaysYes (fun b => (b.length % 7 : Nat)) 7 11 2 (cutGuesser 1 2) 3 4 (k := 2) false) -
    pr (SaysYes (fun b => (b.length % 7 : Nat)) 7 11 2 (cutGuesser 1 2) 3 4 (k := 2) true)| ≤
    advantage (fun b => (b.length % 7 : Nat)) 7 11 2 (cutGuesser 1 2) 3 4 2 false + advantage (fun b => (b.length % 7 : Nat)) 7 11 2 (cutGuesser 1 2) 3 4 2 true +
      2 * (3 + 4) / (min 7 11 : Nat) + (2 + 5) * (7 + 11) / (7 * 11) := by
  simpa using chosen_ciphertexts_hide key77 (fun b => (b.length % 7 : Nat)) (fun b => by have := Nat.mod_lt b.length (show 0 < 7 by norm_num); omega)
    (cutGuesser 1 2) 3 4 (k := 2) (by norm_num) (cutGuesser_legal 1 2 (by norm_num))

example (ω : Coins 2 (7 * 11)) : SaysYesSame (fun b => (b.length % 7 : Nat)) 7 11 2 (cutGuesser 1 2) 0 1 false ω ∧
    ¬ SaysYesSame (fun b => (b.length % 7 : Nat)) 7 11 2 (cutGuesser 1 2) 0 1 true ω := cut_tells key77 _ (by norm_num) 1 2 (by decide) ω

end Verif.CS.CCA
