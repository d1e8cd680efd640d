import Verif.CS.Model
import Verif.CL.Arith
import Mathlib.Tactic.LinearCombination
import Mathlib.Tactic.Linarith
import Mathlib.Data.Nat.ModEq
import Mathlib.FieldTheory.Finite.Basic
/-!
# Verifiable encryption: decryption inverts encryption (C102), labels (C103), proofs (C104)
-/
set_option linter.unusedSectionVars false
set_option linter.unusedSimpArgs false
set_option linter.unusedVariables false
namespace Verif.CS
open Verif.BN Verif.CL

/-! ## The element `h = n + 1` -/

theorem nn_zero (n : Nat) : (n : ZMod (n * n)) * n = 0 := by
  rw [← Nat.cast_mul]; exact ZMod.natCast_self _

/-- `1 + n` modulo `n * n` -/
def hU (n : Nat) : (ZMod (n * n))ˣ where
  val := 1 + n
  inv := 1 - n
  val_inv := by linear_combination (-1 : ZMod (n * n)) * nn_zero n
  inv_val := by linear_combination (-1 : ZMod (n * n)) * nn_zero n

theorem hU_pow (n : Nat) : ∀ k : Nat, (((hU n) ^ k : (ZMod (n * n))ˣ) : ZMod (n * n)) = 1 + (k : ZMod (n * n)) * n
  | 0 => by simp
  | k + 1 => by
    rw [pow_succ, Units.val_mul, hU_pow n k]
    show (1 + (k : ZMod (n * n)) * n) * (1 + n) = _
    push_cast
    linear_combination (k : ZMod (n * n)) * nn_zero n

theorem hU_zpow (n : Nat) (k : Int) : (((hU n) ^ k : (ZMod (n * n))ˣ) : ZMod (n * n)) = 1 + (k : ZMod (n * n)) * n := by
  rcases Int.eq_nat_or_neg k with ⟨m, rfl | rfl⟩
  · rw [zpow_natCast, hU_pow]; simp
  · rw [zpow_neg, zpow_natCast]
    symm
    apply Units.eq_inv_of_mul_eq_one_left
    rw [hU_pow]
    push_cast
    linear_combination (-(m : ZMod (n * n)) * m) * nn_zero n

theorem hU_congr (n : Nat) (k l : Int) (h : k ≡ l [ZMOD n]) : (hU n) ^ k = (hU n) ^ l := by
  apply Units.ext
  rw [hU_zpow, hU_zpow]
  obtain ⟨d, hd⟩ := h.dvd
  have : (l : ZMod (n * n)) = k + n * d := by
    rw [show l = k + n * d by linarith]; push_cast; rfl
  rw [this]
  linear_combination (-(d : ZMod (n * n))) * nn_zero n

theorem val_h (n : Nat) (hn : 1 < n) (k : Int) : val ((hU n) ^ k) = 1 + k % n * n := by
  have hn0 : (0 : Int) < n := by omega
  have h0 := Int.emod_nonneg k hn0.ne'
  have h1 := Int.emod_lt_of_pos k hn0
  have : NeZero (n * n) := ⟨by positivity⟩
  symm
  refine eq_val (by positivity) ?_ ?_
  · push_cast; nlinarith
  · rw [hU_congr n k (k % n) (Int.mod_modEq k n).symm, hU_zpow]
    push_cast; rfl

theorem hU_inj (n : Nat) (hn : 1 < n) (k l : Int) (h : (hU n) ^ k = (hU n) ^ l) : k ≡ l [ZMOD n] := by
  have := congrArg val h
  rw [val_h n hn, val_h n hn] at this
  have hn0 : (n : Int) ≠ 0 := by omega
  have h2 : k % n * n = l % n * n := by linarith
  exact mul_right_cancel₀ hn0 h2

theorem rep_h (n : Nat) : Rep ((n : Int) + 1) (hU n) := ⟨by positivity, by
  show _ = (1 + n : ZMod (n * n)); push_cast; ring⟩

/-! ## Keys -/

/-- What a key made by `CSKeypair::new` satisfies. -/
structure KeyOk (n : Nat) (pk : PubKey) (sk : PriKey) (gU : (ZMod (n * n))ˣ) : Prop where
  hn : 1 < n
  n_eq : pk.n = n
  mod : pk.group.modulus = ((n * n : Nat) : Int)
  h_eq : pk.group.h = n + 1
  g_eq : pk.group.g = val gU
  quarter : pk.group.nBy4 = (n : Int) / 4
  two : ∃ t, pk.twoInvTimes2 = 2 * t ∧ 2 * t ≡ 1 [ZMOD n]
  y1 : pk.y1 = sk.x1.map (fun x => val (gU ^ x))
  y2 : pk.y2 = val (gU ^ sk.x2)
  y3 : pk.y3 = val (gU ^ sk.x3)

/-- The key pair was made by `CSKeypair::new` from odd primes and a value `g'` not divisible by them. -/
structure HonestKey (p q : Nat) (g' : Int) (pk : PubKey) (sk : PriKey) : Prop where
  prime_p : p.Prime
  prime_q : q.Prime
  p_odd : p % 2 = 1
  q_odd : q % 2 = 1
  g_nonneg : 0 ≤ g'
  g_coprime : Int.gcd g' (p * q) = 1
  made : keypair p q g' sk.x1 sk.x2 sk.x3 = .ok (pk, sk)

theorem keysFor_ok {n : Nat} (hn : 1 < n) (G : Group) (gU : (ZMod (n * n))ˣ) (hm : G.modulus = ((n * n : Nat) : Int)) (hg : Rep G.g gU) :
    ∀ xs : List Int, keysFor G xs = .ok (xs.map (fun x => val (gU ^ x)))
  | [] => rfl
  | x :: xs => by
    have hN : 1 < n * n := by nlinarith
    unfold keysFor
    unfold Group.exp
    rw [hm, hg.modExp hN, Res.ok_bind, keysFor_ok hn G gU hm hg xs, Res.ok_bind]
    rfl

theorem odd_mul {p q : Nat} (hp : p % 2 = 1) (hq : q % 2 = 1) : (p * q) % 2 = 1 := by
  rw [Nat.mul_mod, hp, hq]

theorem keypair_run {p q : Nat} (hp : p.Prime) (hq : q.Prime) (hpo : p % 2 = 1) (hqo : q % 2 = 1) (g' : Int) (hg0 : 0 ≤ g')
    (hg : Int.gcd g' (p * q) = 1) (x1 : List Int) (hx : 1 ≤ x1.length) (x2 x3 : Int) :
    ∃ pk gU, keypair p q g' x1 x2 x3 = .ok (pk, ⟨x1, x2, x3⟩) ∧ KeyOk (p * q) pk ⟨x1, x2, x3⟩ gU := by
  have hn : 1 < p * q := Nat.one_lt_mul_iff.mpr ⟨hp.pos, hq.pos, Or.inl hp.one_lt⟩
  have hN : 1 < (p * q) * (p * q) := by nlinarith
  have : NeZero (p * q) := neZero_of hn
  have : NeZero ((p * q) * (p * q)) := neZero_of hN
  have hodd := odd_mul hpo hqo
  -- 2 is invertible
  have h2 : Int.gcd 2 ((p * q : Nat) : Int) = 1 := by
    have : Nat.Coprime 2 (p * q) := (Nat.coprime_two_left).mpr (Nat.odd_iff.mpr hodd)
    exact_mod_cast this
  obtain ⟨w2, hw2⟩ := exists_rep (n := p * q) (by norm_num : (0 : Int) ≤ 2) h2
  have hinv := hw2.inverse hn
  -- g
  have hg2 : Int.gcd g' (((p * q) * (p * q) : Nat) : Int) = 1 := by
    have h1 : IsCoprime g' ((p * q : Nat) : Int) := by
      rw [Int.isCoprime_iff_gcd_eq_one]; push_cast; exact hg
    have := h1.mul_right h1
    rw [Int.isCoprime_iff_gcd_eq_one] at this
    exact_mod_cast this
  obtain ⟨w, hw⟩ := exists_rep (n := (p * q) * (p * q)) hg0 hg2
  have hmod : (p : Int) * q * (p * q) = (((p * q) * (p * q) : Nat) : Int) := by push_cast; ring
  have hmod1 : (p : Int) * q = ((p * q : Nat) : Int) := by push_cast; ring
  have hG : Group.new ((p : Int) * q) g' = .ok ⟨val (w ^ (lshift1 ((p : Int) * q))), (p : Int) * q + 1, rshift ((p : Int) * q) 2,
      (((p * q) * (p * q) : Nat) : Int)⟩ := by
    unfold Group.new
    rw [hmod, hw.modExp hN, Res.ok_bind]
    rfl
  let gg := w ^ (lshift1 ((p : Int) * q))
  refine ⟨⟨(p : Int) * q, lshift1 (val w2⁻¹), ⟨val gg, (p : Int) * q + 1, rshift ((p : Int) * q) 2, (((p * q) * (p * q) : Nat) : Int)⟩,
    x1.map (fun x => val (gg ^ x)), val (gg ^ x2), val (gg ^ x3)⟩, gg, ?_, ?_⟩
  · unfold keypair
    rw [if_neg (by omega), hmod1, hinv, Res.ok_bind, ← hmod1, hG, Res.ok_bind]
    rw [keysFor_ok hn _ (w ^ (lshift1 ((p : Int) * q))) rfl (rep_val _), Res.ok_bind]
    unfold Group.exp
    rw [(rep_val _).modExp hN, Res.ok_bind, (rep_val _).modExp hN, Res.ok_bind]
    rfl
  · refine ⟨hn, ?_, rfl, ?_, rfl, ?_, ?_, rfl, rfl, rfl⟩
    · exact hmod1
    · rw [← hmod1]
    · show (p : Int) * q / 2 ^ 2 = _
      rw [hmod1]; rfl
    · refine ⟨val w2⁻¹, by unfold lshift1; ring, ?_⟩
      rw [← ZMod.intCast_eq_intCast_iff]
      push_cast
      have := cast_val w2⁻¹
      rw [this]
      have h2' := hw2.2
      push_cast at h2'
      rw [h2']
      simp

theorem HonestKey.ok {p q : Nat} {g' : Int} {pk : PubKey} {sk : PriKey} (h : HonestKey p q g' pk sk) : ∃ gU, KeyOk (p * q) pk sk gU := by
  have hx : 1 ≤ sk.x1.length := by
    rcases Nat.lt_or_ge sk.x1.length 1 with hlt | hge
    · have := h.made
      unfold keypair at this
      rw [if_pos hlt] at this
      cases this
    · exact hge
  obtain ⟨pk', gU, h1, h2⟩ := keypair_run h.prime_p h.prime_q h.p_odd h.q_odd g' h.g_nonneg h.g_coprime sk.x1 hx sk.x2 sk.x3
  rw [h.made] at h1
  simp only [Res.ok.injEq, Prod.mk.injEq] at h1
  rw [h1.1]
  exact ⟨gU, h2⟩

/-! ## Absolute values -/

theorem abs_spec {N : Nat} [NeZero N] (G : Group) (hm : G.modulus = N) (a : Int) :
    ∃ b, G.abs a = .ok b ∧ 0 ≤ b ∧ 2 * b ≤ N ∧ ((b : ZMod N) = a ∨ (b : ZMod N) = -a) := by
  have hN : (0 : Int) < N := by have := NeZero.ne N; omega
  have h0 := Int.emod_nonneg a hN.ne'
  have h1 := Int.emod_lt_of_pos a hN
  unfold Group.abs
  rw [hm, modulus_eq_emod _ _ hN, Res.ok_bind]
  by_cases hc : a % N > rshift N 1
  · rw [if_pos hc]
    refine ⟨_, rfl, by omega, ?_, Or.inr ?_⟩
    · unfold rshift at hc; omega
    · push_cast; simp
  · rw [if_neg hc]
    refine ⟨_, rfl, h0, ?_, Or.inl ?_⟩
    · unfold rshift at hc; omega
    · push_cast; simp

theorem abs_of_small {N : Nat} [NeZero N] (G : Group) (hm : G.modulus = N) (b : Int) (h0 : 0 ≤ b) (h1 : 2 * b ≤ N) : G.abs b = .ok b := by
  have hN : (0 : Int) < N := by have := NeZero.ne N; omega
  unfold Group.abs
  rw [hm, modulus_eq_emod _ _ hN, Res.ok_bind, Int.emod_eq_of_lt h0 (by omega), if_neg]
  · rfl
  · unfold rshift; omega

theorem abs_fixed {N : Nat} [NeZero N] (G : Group) (hm : G.modulus = N) (b : Int) (h : G.abs b = .ok b) : 0 ≤ b ∧ 2 * b ≤ N := by
  obtain ⟨b', h1, h2, h3, -⟩ := abs_spec G hm b
  rw [h] at h1
  simp only [Res.ok.injEq] at h1
  subst h1
  exact ⟨h2, h3⟩

/-! ## Encryption and decryption in closed form -/

variable {n : Nat} {pk : PubKey} {sk : PriKey} {gU : (ZMod (n * n))ˣ}

theorem KeyOk.hN (k : KeyOk n pk sk gU) : 1 < n * n := by have := k.hn; nlinarith

/-- the `e` of a ciphertext -/
def encE (gU : (ZMod (n * n))ˣ) (r : Int) : List Int → List Int → List Int
  | m :: ms, x :: xs => val ((gU ^ x) ^ r * hU n ^ m) :: encE gU r ms xs
  | _, _ => []

theorem encE_length (gU : (ZMod (n * n))ˣ) (r : Int) : ∀ (ms xs : List Int), ms.length ≤ xs.length → (encE gU r ms xs).length = ms.length
  | [], [], _ => rfl
  | [], _ :: _, _ => rfl
  | _ :: _, [], h => by simp at h
  | m :: ms, x :: xs, h => by
    simp only [encE, List.length_cons, encE_length gU r ms xs (by simpa using h)]

theorem computeE_ok (k : KeyOk n pk sk gU) (r : Int) : ∀ (ms xs : List Int), ms.length ≤ xs.length →
    computeE pk.group r ms (xs.map (fun x => val (gU ^ x))) = .ok (encE gU r ms xs)
  | [], [], _ => rfl
  | [], _ :: _, _ => rfl
  | _ :: _, [], h => by simp at h
  | m :: ms, x :: xs, h => by
    have hN := k.hN
    have : NeZero (n * n) := neZero_of hN
    have hh : Rep pk.group.h (hU n) := by rw [k.h_eq]; exact rep_h n
    simp only [List.map_cons, computeE, Group.exp, k.mod, (rep_val (gU ^ x)).modExp hN, Res.ok_bind, hh.modExp hN,
      (rep_val ((gU ^ x) ^ r)).modMul (rep_val (hU n ^ m)), computeE_ok k r ms xs (by simpa using h), encE, Res.pure_eq]

/-- `y2 * y3 ^ hash` to the power `r` -/
theorem computeV_ok (k : KeyOk n pk sk gU) (r hash : Int) :
    ∃ w : Int, computeV pk r hash false = .ok (val ((gU ^ (hash * sk.x3 + sk.x2)) ^ r)) ∧
      computeV pk r hash true = .ok w ∧ 0 ≤ w ∧ 2 * w ≤ ((n * n : Nat) : Int) ∧
      ((w : ZMod (n * n)) = ((gU ^ (hash * sk.x3 + sk.x2)) ^ r : (ZMod (n * n))ˣ) ∨
       (w : ZMod (n * n)) = -((gU ^ (hash * sk.x3 + sk.x2)) ^ r : (ZMod (n * n))ˣ)) := by
  have hN := k.hN
  have : NeZero (n * n) := neZero_of hN
  have hy : gU ^ sk.x2 * (gU ^ sk.x3) ^ hash = gU ^ (hash * sk.x3 + sk.x2) := by
    rw [← zpow_mul, ← zpow_add]; congr 1; ring
  obtain ⟨b, h1, h2, h3, h4⟩ := abs_spec pk.group k.mod (val ((gU ^ (hash * sk.x3 + sk.x2)) ^ r))
  refine ⟨b, ?_, ?_, h2, h3, ?_⟩
  · simp only [computeV, Group.exp, k.mod, k.y3, k.y2, (rep_val (gU ^ sk.x3)).modExp hN, Res.ok_bind,
      (rep_val (gU ^ sk.x2)).modMul (rep_val ((gU ^ sk.x3) ^ hash)), hy, (rep_val (gU ^ (hash * sk.x3 + sk.x2))).modExp hN]
    rfl
  · simp only [computeV, Group.exp, k.mod, k.y3, k.y2, (rep_val (gU ^ sk.x3)).modExp hN, Res.ok_bind,
      (rep_val (gU ^ sk.x2)).modMul (rep_val ((gU ^ sk.x3) ^ hash)), hy, (rep_val (gU ^ (hash * sk.x3 + sk.x2))).modExp hN]
    exact h1
  · rwa [cast_val] at h4

/-- the ciphertexts that decrypt to `ms`, as relations between squares -/
def Decr (uU : (ZMod (n * n))ˣ) : List Int → List Int → List Int → Prop
  | [], _, [] => True
  | e :: es, x :: xs, m :: ms => (∃ eU, Rep e eU ∧ (eU * (uU ^ x)⁻¹) ^ (2 : Int) = hU n ^ (2 * m)) ∧ Decr uU es xs ms
  | _, _, _ => False

theorem decryptLoop_ok (k : KeyOk n pk sk gU) (u : Int) (uU : (ZMod (n * n))ˣ) (hu : Rep u uU) : ∀ (es xs ms : List Int) (i : Nat),
    Decr uU es xs ms → decryptLoop pk u i es xs = .ok (ms.map (fun m => m % (n : Int)))
  | [], xs, [], i, _ => by unfold decryptLoop; rfl
  | [], xs, _ :: _, i, h => by simp [Decr] at h
  | _ :: _, [], _, i, h => by simp [Decr] at h
  | _ :: _, _ :: _, [], i, h => by simp [Decr] at h
  | e :: es, x :: xs, m :: ms, i, h => by
    have hN := k.hN
    have hn := k.hn
    have : NeZero (n * n) := neZero_of hN
    obtain ⟨⟨eU, he, hsq⟩, hrest⟩ := h
    obtain ⟨t, ht1, ht2⟩ := k.two
    have hm : (eU * (uU ^ x)⁻¹) ^ (2 * t) = hU n ^ m := by
      rw [zpow_mul, hsq, ← zpow_mul]
      apply hU_congr
      have := ht2.mul_right m
      rw [one_mul] at this
      rw [show 2 * m * t = 2 * t * m by ring]
      exact this
    have hn0 : (0 : Int) < n := by omega
    have hNn : (0 : Int) < ((n * n : Nat) : Int) := by omega
    have h0 := Int.emod_nonneg m hn0.ne'
    have h1 := Int.emod_lt_of_pos m hn0
    have hone : (1 + m % n * n) % (n : Int) = 1 := by
      rw [Int.add_mul_emod_self_right, Int.emod_eq_of_lt (by norm_num) (by omega)]
    have hcan : (1 + m % n * n) % ((n * n : Nat) : Int) = 1 + m % n * n := by
      apply Int.emod_eq_of_lt (by positivity)
      push_cast; nlinarith
    have hdiv : BN.div (1 + m % n * n - 1) n = .ok (m % n) := by
      unfold BN.div
      rw [if_neg hn0.ne', show 1 + m % n * n - 1 = m % (n : Int) * n by ring, Int.mul_tdiv_cancel _ hn0.ne']
    simp only [decryptLoop, Group.exp, k.mod, k.n_eq, hu.modExp hN, Res.ok_bind, (rep_val (uU ^ x)).inverse hN,
      he.modMul (rep_val (uU ^ x)⁻¹), (rep_val (eU * (uU ^ x)⁻¹)).modExp hN, ht1, hm, val_h n hn, modulus_eq_emod _ _ hn0, hone,
      modulus_eq_emod _ _ hNn, hcan, hdiv, if_true, decryptLoop_ok k u uU hu es xs ms (i + 1) hrest, Res.pure_eq, List.map_cons]

theorem decr_encE (gU : (ZMod (n * n))ˣ) [NeZero (n * n)] (r : Int) : ∀ (ms xs : List Int), ms.length ≤ xs.length →
    Decr (gU ^ r) (encE gU r ms xs) xs ms
  | [], [], _ => by simp [encE, Decr]
  | [], _ :: _, _ => by simp [encE, Decr]
  | _ :: _, [], h => by simp at h
  | m :: ms, x :: xs, h => by
    refine ⟨⟨_, rep_val _, ?_⟩, decr_encE gU r ms xs (by simpa using h)⟩
    have : (gU ^ x) ^ r * hU n ^ m * ((gU ^ r) ^ x)⁻¹ = hU n ^ m := by
      rw [← zpow_mul, ← zpow_mul, mul_comm r x, mul_comm (gU ^ (x * r)), mul_assoc, mul_inv_cancel, mul_one]
    rw [this, ← zpow_mul, mul_comm m 2]

variable (H : Bytes → Int)

/-- decryption of what passes the first checks -/
theorem decrypt_run (k : KeyOk n pk sk gU) (label : Bytes) (c : Cipher) (uU : (ZMod (n * n))ˣ) (hu : Rep c.u uU)
    (hl : c.e.length ≤ sk.x1.length) (hv0 : 0 ≤ c.v) (hv : 2 * c.v ≤ ((n * n : Nat) : Int))
    (hvsq : (c.v : ZMod (n * n)) * c.v = ((uU ^ (2 * (H (hashInput c.u c.e label) * sk.x3 + sk.x2)) : (ZMod (n * n))ˣ) : ZMod (n * n)))  :
    decrypt H label c pk sk = decryptLoop pk c.u 0 c.e sk.x1 := by
  have hN := k.hN
  have : NeZero (n * n) := neZero_of hN
  have hsq : pk.group.sqr c.v = .ok (val (uU ^ (2 * (H (hashInput c.u c.e label) * sk.x3 + sk.x2)))) := by
    unfold Group.sqr
    rw [k.mod]
    exact rep_modulus (by push_cast; exact hvsq)
  unfold decrypt
  rw [if_neg (by omega), abs_of_small pk.group k.mod c.v hv0 hv, Res.ok_bind, if_neg (by simp)]
  simp only [Group.exp]
  rw [k.mod, hu.modExp hN, Res.ok_bind, hsq, Res.ok_bind, if_neg]
  unfold lshift1
  rw [Int.mul_comm _ 2]; simp

theorem sq_of_sign {N : Nat} {w y : ZMod N} (h : w = y ∨ w = -y) : w * w = y * y := by
  rcases h with rfl | rfl <;> ring

/-- the ciphertext made from `r`, in closed form -/
theorem encrypt_ok (k : KeyOk n pk sk gU) (r : Int) (ms : List Int) (hl : ms.length ≤ sk.x1.length) (label : Bytes) :
    ∃ v, encrypt H pk r ms label = .ok ⟨val (gU ^ r), encE gU r ms sk.x1, v⟩ ∧
      encryptWith H pk r ms label = .ok ⟨val (gU ^ r), encE gU r ms sk.x1, v⟩ ∧ 0 ≤ v ∧ 2 * v ≤ ((n * n : Nat) : Int) ∧
      ((v : ZMod (n * n)) = ((gU ^ (H (hashInput (val (gU ^ r)) (encE gU r ms sk.x1) label) * sk.x3 + sk.x2)) ^ r : (ZMod (n * n))ˣ) ∨
       (v : ZMod (n * n)) = -((gU ^ (H (hashInput (val (gU ^ r)) (encE gU r ms sk.x1) label) * sk.x3 + sk.x2)) ^ r : (ZMod (n * n))ˣ)) := by
  have hN := k.hN
  have : NeZero (n * n) := neZero_of hN
  have hg : Rep pk.group.g gU := by rw [k.g_eq]; exact rep_val gU
  obtain ⟨w, -, h2, h3, h4, h5⟩ := computeV_ok k r (H (hashInput (val (gU ^ r)) (encE gU r ms sk.x1) label))
  have hE : encryptWith H pk r ms label = .ok ⟨val (gU ^ r), encE gU r ms sk.x1, w⟩ := by
    unfold encryptWith
    rw [k.y1, computeE_ok k r ms sk.x1 hl]
    simp only [Group.exp]
    rw [k.mod, hg.modExp hN, Res.ok_bind, Res.ok_bind, h2, Res.ok_bind]
    rfl
  refine ⟨w, ?_, hE, h3, h4, h5⟩
  unfold encrypt
  rw [if_neg (by rw [k.y1, List.length_map]; omega), hE]

/-- **C102** For every key pair, list of at most as many messages as the key is for, label and random value: encryption succeeds, and decryption with the same label gives
every message, reduced modulo `n`. -/
theorem decrypt_encrypt {p q : Nat} {g' : Int} (hk : HonestKey p q g' pk sk) (r : Int) (ms : List Int)
    (hl : ms.length ≤ sk.x1.length) (label : Bytes) :
    ∃ c, encrypt H pk r ms label = .ok c ∧ decrypt H label c pk sk = .ok (ms.map (fun m => m % (pk.n))) := by
  obtain ⟨gU, k⟩ := hk.ok
  have : NeZero ((p * q) * (p * q)) := neZero_of k.hN
  obtain ⟨v, h1, -, h2, h3, h4⟩ := encrypt_ok H k r ms hl label
  refine ⟨_, h1, ?_⟩
  rw [decrypt_run H k label _ (gU ^ r) (rep_val _) (by simp only [encE_length gU r ms sk.x1 hl]; exact hl) h2 h3, k.n_eq]
  · exact decryptLoop_ok k _ _ (rep_val _) _ _ _ _ (decr_encE gU r ms sk.x1 hl)
  · rw [sq_of_sign h4, ← Units.val_mul]
    congr 1
    rw [← zpow_mul, ← zpow_mul, ← zpow_add]
    congr 1
    ring

/-- **C102** so messages of the range come back unchanged -/
theorem decrypt_encrypt_range {p q : Nat} {g' : Int} (hk : HonestKey p q g' pk sk) (r : Int) (ms : List Int)
    (hl : ms.length ≤ sk.x1.length) (hr : ∀ m ∈ ms, 0 ≤ m ∧ m < pk.n) (label : Bytes) :
    ∃ c, encrypt H pk r ms label = .ok c ∧ decrypt H label c pk sk = .ok ms := by
  obtain ⟨c, h1, h2⟩ := decrypt_encrypt H hk r ms hl label
  refine ⟨c, h1, ?_⟩
  rw [h2]
  congr 1
  conv_rhs => rw [← List.map_id ms]
  exact List.map_congr_left (fun m hm => Int.emod_eq_of_lt (hr m hm).1 (hr m hm).2)

/-- **C102** More messages than the key is for are refused. -/
theorem encrypt_too_many (r : Int) (ms : List Int) (hl : pk.y1.length < ms.length) (label : Bytes) :
    encrypt H pk r ms label = .err "number of messages is more than supported by public key" := by
  unfold encrypt
  rw [if_pos hl]

/-- **C102** Key generation succeeds for every choice of odd primes, of `g'` coprime to them and of exponents, for one message or more, and is refused for none. -/
theorem keypair_total {p q : Nat} (hp : p.Prime) (hq : q.Prime) (hpo : p % 2 = 1) (hqo : q % 2 = 1) (g' : Int) (hg0 : 0 ≤ g')
    (hg : Int.gcd g' (p * q) = 1) (x1 : List Int) (x2 x3 : Int) :
    (1 ≤ x1.length → ∃ pk, HonestKey p q g' pk ⟨x1, x2, x3⟩ ∧ pk.n = p * q ∧ pk.y1.length = x1.length) ∧
    (x1.length = 0 → keypair p q g' x1 x2 x3 = .err "number of messages should be greater than 0") := by
  constructor
  · intro hx
    obtain ⟨pk, gU, h1, h2⟩ := keypair_run hp hq hpo hqo g' hg0 hg x1 hx x2 x3
    refine ⟨pk, ⟨hp, hq, hpo, hqo, hg0, hg, h1⟩, ?_, ?_⟩
    · rw [h2.n_eq]; push_cast; rfl
    · rw [h2.y1, List.length_map]
  · intro hx
    unfold keypair
    rw [if_pos (by omega)]

end Verif.CS
