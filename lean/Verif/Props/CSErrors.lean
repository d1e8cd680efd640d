import Verif.CS.Texts
import Verif.Props.CSSecrecy
import Verif.Props.CSReject
/-!
# C218: the errors of Camenisch–Shoup decryption reveal messages
-/
set_option linter.unusedSectionVars false
set_option linter.unusedSimpArgs false
set_option linter.unusedVariables false
namespace Verif.CS
open Verif.BN Verif.CL

/-! ## Specification -/

/-- what someone offers who decrypts everything but the ciphertext `c` under the label `label`, and hands out the errors -/
def service (H : Bytes → Int) (pk : PubKey) (sk : PriKey) (c : Cipher) (label : Bytes) : Bytes → Cipher → Res DecErr (List Int) := fun l x =>
  if l = label ∧ x = c then .err (.number "not this one") else decryptText H l x pk sk

/-- the left hand side that the error prints for the ciphertext `u`, no `e`, `v = 0` -/
def leftSide (O : Bytes → Cipher → Res DecErr (List Int)) (label : Bytes) (u : Int) : Res String Int :=
  match O label ⟨u, [], 0⟩ with
  | .err (.square us _) => .ok us
  | _ => .err "no text"

/-- From the public key, a ciphertext `c` and the answers of the service, with any three labels: two errors give what is needed to make a ciphertext whose
decryption is asked for. -/
def attack (H : Bytes → Int) (pk : PubKey) (c : Cipher) (O : Bytes → Cipher → Res DecErr (List Int)) (l1 l2 l3 : Bytes) : Res String (List Int) := do
  let N := pk.n * pk.n
  let w1 ← leftSide O l1 c.u
  let w2 ← leftSide O l2 c.u
  let h1 := H (hashInput c.u [] l1)
  let d := H (hashInput c.u [] l2) - h1
  let u ← modExp c.u (2 * d) N
  let e ← c.e.mapM (fun x => modExp x (2 * d) N)
  let h3 := H (hashInput u e l3)
  let w ← inverse w1 N
  let w ← modMul w2 w N
  let a ← modExp w1 d N
  let b ← modExp w (h3 - h1) N
  let v ← modMul a b N
  let v ← pk.group.abs v
  let ms ← match O l3 ⟨u, e, v⟩ with
    | .ok ms => .ok ms
    | _ => .err "refused"
  let i ← inverse (2 * d % pk.n) pk.n
  pure (ms.map (fun m => m * i % pk.n))

/-! ## The attack succeeds -/

section
variable {n : Nat} {pk : PubKey} {sk : PriKey} {gU : (ZMod (n * n))ˣ} (H : Bytes → Int)

theorem KeyOk.eq_keyOf (k : KeyOk n pk sk gU) : pk = keyOf n pk.twoInvTimes2 gU sk.x1 sk.x2 sk.x3 := by
  obtain ⟨a, b, ⟨g, h, f, m⟩, y1, y2, y3⟩ := pk
  obtain ⟨hn, h1, h2, h3, h4, h5, h6, h7, h8, h9⟩ := k
  simp only at *
  subst h1 h2 h3 h4 h5 h7 h8 h9
  simp only [keyOf, grp, rshift]
  norm_num

/-- encryption in closed form -/
theorem KeyOk.encrypt (k : KeyOk n pk sk gU) (r : Int) (ms : List Int) (hl : ms.length ≤ sk.x1.length) (label : Bytes) :
    CS.encrypt H pk r ms label = .ok (cipherOf H (gU ^ r) sk.x1 sk.x2 sk.x3 ms label) := by
  obtain ⟨t, h1, h2⟩ := k.two
  have hi : pk.twoInvTimes2 = lshift1 t := by rw [h1]; unfold lshift1; ring
  have hpk := k.eq_keyOf
  rw [hi] at hpk
  rw [hpk]
  exact encrypt_closed H k.hn ⟨t, by unfold lshift1; ring, h2⟩ gU sk.x1 sk.x2 sk.x3 r ms hl label

theorem val_ne_zero (hn : 1 < n) (w : (ZMod (n * n))ˣ) : val w ≠ 0 := by
  have hN : 1 < n * n := by nlinarith
  have : NeZero (n * n) := neZero_of hN
  have : Fact (1 < n * n) := ⟨hN⟩
  intro h
  have h2 := cast_val w
  rw [h, Int.cast_zero] at h2
  exact w.ne_zero h2.symm

theorem leftSide_ok (k : KeyOk n pk sk gU) (c : Cipher) (label l : Bytes) (hl : l ≠ label) (uU : (ZMod (n * n))ˣ) :
    leftSide (service H pk sk c label) l (val uU) = .ok (val (uU ^ (2 * (H (hashInput (val uU) [] l) * sk.x3 + sk.x2)))) := by
  have hN := k.hN
  have : NeZero (n * n) := neZero_of hN
  have hNn : (0 : Int) < ((n * n : Nat) : Int) := by omega
  unfold leftSide service
  rw [if_neg (fun h => hl h.1)]
  unfold decryptText
  rw [if_neg (by simp), abs_of_small pk.group k.mod 0 (le_refl _) (by omega)]
  simp only [ofNumber, Res.ok_bind, ne_eq, not_true_eq_false, if_false, Group.exp, Group.sqr, k.mod, (rep_val uU).modExp hN, modulus_eq_emod _ _ hNn]
  rw [if_pos]
  · simp only [lshift1, mul_comm]
  · simpa using (val_ne_zero k.hn _).symm

theorem mapM_eOf (hn : 1 < n) (U : (ZMod (n * n))ˣ) (d : Int) : ∀ ms xs : List Int,
    (eOf U ms xs).mapM (fun x => modExp x d ((n * n : Nat) : Int)) = (.ok (eOf (U ^ d) (ms.map (d * ·)) xs) : Res String (List Int))
  | [], _ => by simp [eOf]
  | _ :: _, [] => by simp [eOf]
  | m :: ms, x :: xs => by
    have hN : 1 < n * n := by nlinarith
    have : NeZero (n * n) := neZero_of hN
    have ih := mapM_eOf hn U d ms xs
    simp only [eOf, List.zipWith_cons_cons, List.map_cons, List.mapM_cons] at ih ⊢
    rw [(rep_val _).modExp hN, Res.ok_bind, ih, Res.ok_bind]
    have : (U ^ x * hU n ^ m) ^ d = (U ^ d) ^ x * hU n ^ (d * m) := by
      rw [mul_zpow, zpow_comm U x d, zpow_comm (hU n) m d, zpow_mul (hU n) d m]
    rw [this]
    rfl

end

/-- **C218, negation** Whoever gets a ciphertext, however it was made, and may have other ciphertexts decrypted, with the errors as the code words them, learns
its messages: for all keys, messages, random values and labels, provided the hash values of two labels differ by a number coprime to `n`. -/
theorem errors_reveal_messages (H : Bytes → Int) {p q : Nat} {g' : Int} {pk : PubKey} {sk : PriKey} (hk : HonestKey p q g' pk sk) (r : Int) (ms : List Int)
    (hl : ms.length ≤ sk.x1.length) (label : Bytes) (c : Cipher) (hc : encrypt H pk r ms label = .ok c) (l1 l2 l3 : Bytes)
    (h1 : l1 ≠ label) (h2 : l2 ≠ label) (h3 : l3 ≠ label)
    (hd : Int.gcd (H (hashInput c.u [] l2) - H (hashInput c.u [] l1)) pk.n = 1) :
    attack H pk c (service H pk sk c label) l1 l2 l3 = .ok (ms.map (fun m => m % pk.n)) := by
  obtain ⟨gU, k⟩ := hk.ok
  have hn := k.hn
  have hN := k.hN
  have : NeZero ((p * q) * (p * q)) := neZero_of hN
  have : NeZero (p * q) := neZero_of hn
  have hn0 : (0 : Int) < ((p * q : Nat) : Int) := by omega
  rw [k.encrypt H r ms hl label] at hc
  cases hc
  have hnn : pk.n * pk.n = (((p * q) * (p * q) : Nat) : Int) := by rw [k.n_eq]; push_cast; ring
  have hg : pk.group = grp (p * q) gU := by rw [k.eq_keyOf]; rfl
  unfold attack
  simp only [cipherOf] at hd ⊢
  rw [leftSide_ok H k _ label l1 h1, Res.ok_bind, leftSide_ok H k _ label l2 h2, Res.ok_bind, hnn, (rep_val _).modExp hN, Res.ok_bind,
    mapM_eOf hn, Res.ok_bind, (rep_val _).inverse hN, Res.ok_bind, (rep_val _).modMul (rep_val _), Res.ok_bind, (rep_val _).modExp hN, Res.ok_bind,
    (rep_val _).modExp hN, Res.ok_bind, (rep_val _).modMul (rep_val _), Res.ok_bind]
  generalize hH1 : H (hashInput (val (gU ^ r)) [] l1) = a1 at hd ⊢
  generalize hH2 : H (hashInput (val (gU ^ r)) [] l2) = a2 at hd ⊢
  generalize hU' : (gU ^ r) ^ (2 * (a2 - a1)) = U
  generalize hE : eOf U (ms.map (2 * (a2 - a1) * ·)) sk.x1 = E
  generalize hH3 : H (hashInput (val U) E l3) = a3
  have hv : ((gU ^ r) ^ (2 * (a1 * sk.x3 + sk.x2))) ^ (a2 - a1) *
      ((gU ^ r) ^ (2 * (a2 * sk.x3 + sk.x2)) * ((gU ^ r) ^ (2 * (a1 * sk.x3 + sk.x2)))⁻¹) ^ (a3 - a1) = U ^ (a3 * sk.x3 + sk.x2) := by
    rw [← hU']
    generalize gU ^ r = w
    rw [← zpow_neg, ← zpow_add, ← zpow_mul, ← zpow_mul, ← zpow_mul, ← zpow_add]
    congr 1
    ring
  rw [hv, hg, abs_grp hn, Res.ok_bind]
  have hmake : encrypt H pk (r * (2 * (a2 - a1))) (ms.map (2 * (a2 - a1) * ·)) l3 =
      .ok ⟨val U, E, absOf (((p * q) * (p * q) : Nat) : Int) (val (U ^ (a3 * sk.x3 + sk.x2)))⟩ := by
    rw [k.encrypt H _ _ (by simpa using hl) l3]
    unfold cipherOf
    rw [zpow_mul, hU', hE, hH3]
  obtain ⟨c', hc', hdec⟩ := decrypt_encrypt H hk (r * (2 * (a2 - a1))) (ms.map (2 * (a2 - a1) * ·)) (by simpa using hl) l3
  rw [hmake] at hc'
  cases hc'
  have hserv : ∀ c0, service H pk sk c0 label l3 ⟨val U, E, absOf (((p * q) * (p * q) : Nat) : Int) (val (U ^ (a3 * sk.x3 + sk.x2)))⟩ =
      .ok ((ms.map (2 * (a2 - a1) * ·)).map (fun m => m % pk.n)) := by
    intro c0
    unfold service
    rw [if_neg (fun h => h3 h.1)]
    exact decryptText_ok hdec
  rw [hserv]
  dsimp only
  rw [Res.ok_bind]
  rw [k.n_eq] at hd ⊢
  have hodd : Int.gcd 2 ((p * q : Nat) : Int) = 1 := by
    have : Nat.Coprime 2 (p * q) := (Nat.coprime_two_left).mpr (Nat.odd_iff.mpr (odd_mul hk.p_odd hk.q_odd))
    exact_mod_cast this
  have hcop : Int.gcd (2 * (a2 - a1) % ((p * q : Nat) : Int)) ((p * q : Nat) : Int) = 1 := by
    have h4 : IsCoprime (2 * (a2 - a1)) ((p * q : Nat) : Int) :=
      IsCoprime.mul_left (Int.isCoprime_iff_gcd_eq_one.2 hodd) (Int.isCoprime_iff_gcd_eq_one.2 hd)
    rw [Int.gcd_emod]
    exact Int.isCoprime_iff_gcd_eq_one.1 h4
  obtain ⟨w, hw⟩ := exists_rep (n := p * q) (Int.emod_nonneg _ hn0.ne') hcop
  rw [hw.inverse hn, Res.ok_bind, Res.pure_eq, List.map_map, List.map_map]
  congr 1
  refine List.map_congr_left fun m _ => ?_
  show 2 * (a2 - a1) * m % ((p * q : Nat) : Int) * val w⁻¹ % ((p * q : Nat) : Int) = m % ((p * q : Nat) : Int)
  have hz : ((2 * (a2 - a1) * m % ((p * q : Nat) : Int) * val w⁻¹ : Int) : ZMod (p * q)) = (m : ZMod (p * q)) := by
    have h5 := hw.2
    rw [ZMod.intCast_mod] at h5
    rw [Int.cast_mul, ZMod.intCast_mod, cast_val, Int.cast_mul, h5, mul_right_comm, Units.mul_inv, one_mul]
  exact (ZMod.intCast_eq_intCast_iff _ _ _).1 hz

/-- the hypotheses are met: a hash that adds the bytes, labels of one byte, modulus 77 -/
example : ∃ pk sk c, HonestKey 7 11 2 pk sk ∧ encrypt (fun b => (b.map fun x => (x.toNat : Int)).sum) pk 9 [70, 100] [0] = .ok c ∧
    attack (fun b => (b.map fun x => (x.toNat : Int)).sum) pk c (service (fun b => (b.map fun x => (x.toNat : Int)).sum) pk sk c [0]) [1] [2] [3] = .ok [70, 23] := by
  obtain ⟨pk, gU, hmade, k⟩ := keypair_run (p := 7) (q := 11) (by norm_num) (by norm_num) rfl rfl 2 (by norm_num) (by decide) [5, 13] (by simp) 3 4
  have hk : HonestKey 7 11 2 pk ⟨[5, 13], 3, 4⟩ := ⟨by norm_num, by norm_num, rfl, rfl, by norm_num, by decide, hmade⟩
  have henc := k.encrypt (fun b => (b.map fun x => (x.toNat : Int)).sum) 9 [70, 100] (by simp) [0]
  refine ⟨pk, _, _, hk, henc, ?_⟩
  have := errors_reveal_messages _ hk 9 [70, 100] (by simp) [0] _ henc [1] [2] [3] (by decide) (by decide) (by decide) (by
    simp [hashInput])
  rw [this, k.n_eq]
  decide

end Verif.CS
