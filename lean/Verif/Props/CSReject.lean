import Verif.Props.CSSound
set_option linter.unusedSectionVars false
set_option linter.unusedSimpArgs false
set_option linter.unusedVariables false
/-!
# Verifiable encryption: what decryption accepts (C108)
-/
namespace Verif.CS
open Verif.BN Verif.CL

variable {n : Nat} {pk : PubKey} {sk : PriKey} {gU : (ZMod (n * n))ˣ} (H : Bytes → Int)

/-- each `e` of the ciphertext, divided by `u^x` and raised to `2·(2⁻¹ mod n)`, is `(1+n)^m` modulo `n²`, for the `m` that is returned -/
def Opens (n : Nat) (t : Int) (uU : (ZMod (n * n))ˣ) : List ((ZMod (n * n))ˣ) → List Int → List Int → Prop
  | [], _, [] => True
  | e :: es, x :: xs, m :: ms => ((e * (uU ^ x)⁻¹) ^ t = hU n ^ m ∧ 0 ≤ m ∧ m < n) ∧ Opens n t uU es xs ms
  | _, _, _ => False

theorem decryptLoop_sound (k : KeyOk n pk sk gU) (u : Int) (uU : (ZMod (n * n))ˣ) (hu : Rep u uU) :
    ∀ (es : List Int) (eUs : List ((ZMod (n * n))ˣ)) (xs ms : List Int) (i : Nat), List.Forall₂ Rep es eUs →
    decryptLoop pk u i es xs = .ok ms → Opens n pk.twoInvTimes2 uU eUs xs ms
  | [], _, xs, ms, i, .nil, h => by
    simp only [decryptLoop, Res.ok.injEq] at h; subst h; simp [Opens]
  | _ :: _, _, [], ms, i, .cons _ _, h => by simp [decryptLoop] at h
  | e :: es, eU :: eUs, x :: xs, ms, i, .cons he hes, h => by
    have hN := k.hN
    have hn := k.hn
    have : NeZero (n * n) := neZero_of hN
    have hn0 : (0 : Int) < n := by omega
    have hNn : (0 : Int) < ((n * n : Nat) : Int) := by omega
    simp only [decryptLoop, Group.exp, k.mod, k.n_eq, hu.modExp hN, Res.ok_bind, (rep_val (uU ^ x)).inverse hN,
      he.modMul (rep_val (uU ^ x)⁻¹), (rep_val (eU * (uU ^ x)⁻¹)).modExp hN, modulus_eq_emod _ _ hn0, modulus_eq_emod _ _ hNn] at h
    generalize hw : (eU * (uU ^ x)⁻¹) ^ pk.twoInvTimes2 = w at h
    split at h
    swap
    · simp at h
    rename_i hone
    have hv0 : 0 ≤ val w := (rep_val w).1
    have hvN : val w < ((n * n : Nat) : Int) := by
      have := rep_modulus (cast_val w)
      rw [modulus_eq_emod _ _ hNn] at this
      simp only [Res.ok.injEq] at this
      rw [← this]; exact Int.emod_lt_of_pos _ hNn
    rw [Int.emod_eq_of_lt hv0 hvN] at h
    have hdm := Int.emod_add_mul_ediv (val w) n
    rw [hone] at hdm
    have hdiv : BN.div (val w - 1) n = .ok (val w / n) := by
      unfold BN.div
      rw [if_neg hn0.ne', show val w - 1 = val w / (n : Int) * n by linarith, Int.mul_tdiv_cancel _ hn0.ne']
    rw [hdiv, Res.ok_bind] at h
    obtain ⟨rest, hr, h⟩ := Res.bind_eq_ok.1 h
    simp only [Res.pure_eq, Res.ok.injEq] at h
    subst h
    have hq0 : 0 ≤ val w / (n : Int) := Int.ediv_nonneg hv0 hn0.le
    have hqn : val w / (n : Int) < n := by
      apply Int.ediv_lt_of_lt_mul hn0
      push_cast at hvN; linarith
    refine ⟨⟨?_, hq0, hqn⟩, decryptLoop_sound k u uU hu es eUs xs rest (i + 1) hes hr⟩
    rw [hw]
    apply val_injective
    rw [val_h n hn, Int.emod_eq_of_lt hq0 hqn]
    linarith

/-- **C108** Whatever ciphertext decryption accepts under a label: it has at most as many parts as the key, `v` is at most half of `n²`, its square is
`u^(2(hash·x3 + x2))` with the hash of `u`, all `e` and the label, and every part opens to the message that is returned. -/
theorem decrypt_sound {p q : Nat} {g' : Int} (hk : HonestKey p q g' pk sk) (label : Bytes) (c : Cipher) (uU : (ZMod ((p * q) * (p * q)))ˣ)
    (eUs : List ((ZMod ((p * q) * (p * q)))ˣ)) (hu : Rep c.u uU) (he : List.Forall₂ Rep c.e eUs) (ms : List Int)
    (h : decrypt H label c pk sk = .ok ms) :
    c.e.length ≤ sk.x1.length ∧ 0 ≤ c.v ∧ 2 * c.v ≤ pk.n * pk.n ∧
    (c.v : ZMod ((p * q) * (p * q))) * c.v =
      ((uU ^ (2 * (H (toBytes c.u ++ c.e.flatMap toBytes ++ label) * sk.x3 + sk.x2)) : (ZMod ((p * q) * (p * q)))ˣ) : ZMod ((p * q) * (p * q))) ∧
    Opens (p * q) pk.twoInvTimes2 uU eUs sk.x1 ms := by
  obtain ⟨gU, k⟩ := hk.ok
  have hN := k.hN
  have : NeZero ((p * q) * (p * q)) := neZero_of hN
  have hNn : (0 : Int) < (((p * q) * (p * q) : Nat) : Int) := by omega
  have hnn : pk.n * pk.n = (((p * q) * (p * q) : Nat) : Int) := by rw [k.n_eq]; push_cast; ring
  unfold decrypt at h
  split at h
  · simp at h
  rename_i hlen
  obtain ⟨a, ha, h⟩ := Res.bind_eq_ok.1 h
  split at h
  · simp at h
  rename_i hva
  rw [not_not] at hva
  rw [← hva] at ha
  obtain ⟨v0, v1⟩ := abs_fixed pk.group k.mod c.v ha
  obtain ⟨us, hus, h⟩ := Res.bind_eq_ok.1 h
  obtain ⟨vs, hvs, h⟩ := Res.bind_eq_ok.1 h
  split at h
  · simp at h
  rename_i heq
  rw [not_not] at heq
  simp only [Group.exp, k.mod, hu.modExp hN, Res.ok.injEq] at hus
  simp only [Group.sqr, k.mod, modulus_eq_emod _ _ hNn, Res.ok.injEq] at hvs
  refine ⟨by omega, v0, by rw [hnn]; exact v1, ?_, decryptLoop_sound k c.u uU hu c.e eUs sk.x1 ms 0 he h⟩
  have : ((c.v * c.v % (((p * q) * (p * q) : Nat) : Int) : Int) : ZMod ((p * q) * (p * q))) = ((val (uU ^ lshift1 (H (hashInput c.u c.e label) * sk.x3 + sk.x2)) : Int) : ZMod ((p * q) * (p * q))) := by
    rw [hvs, heq, hus]
  rw [cast_val] at this
  rw [lshift1, Int.mul_comm _ 2] at this
  simp only [hashInput] at this
  rw [← this, ZMod.intCast_mod, Int.cast_mul]

/-- The hypotheses of `decrypt_sound` are met by honest ciphertexts (`exists_key`, `decrypt_encrypt`). -/
theorem decrypt_sound_met {p q : Nat} {g' : Int} (hk : HonestKey p q g' pk sk) (r : Int) (ms : List Int) (hl : ms.length ≤ sk.x1.length) (label : Bytes) :
    ∃ (c : Cipher) (uU : (ZMod ((p * q) * (p * q)))ˣ) (eUs : List ((ZMod ((p * q) * (p * q)))ˣ)),
      Rep c.u uU ∧ List.Forall₂ Rep c.e eUs ∧ decrypt H label c pk sk = .ok (ms.map (fun m => m % pk.n)) := by
  obtain ⟨c, h1, h2⟩ := decrypt_encrypt H hk r ms hl label
  obtain ⟨gU, k⟩ := hk.ok
  have : NeZero ((p * q) * (p * q)) := neZero_of k.hN
  obtain ⟨v, h3, -⟩ := encrypt_ok H k r ms hl label
  rw [h1] at h3
  simp only [Res.ok.injEq] at h3
  exact ⟨c, gU ^ r, _, by rw [h3]; exact rep_val _, by rw [h3]; exact encE_rep gU r ms sk.x1, h2⟩

end Verif.CS
