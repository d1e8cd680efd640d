import Verif.Props.CSProof
import Verif.Props.BNShamir
import Mathlib.FieldTheory.Finite.Basic
import Mathlib.Data.Nat.Totient
/-!
# Verifiable encryption: what an accepted proof of encryption says (C105), crashes (C106), what a response gives away (C107)
-/
set_option linter.unusedSectionVars false
set_option linter.unusedSimpArgs false
set_option linter.unusedVariables false
namespace Verif.CS
open Verif.BN Verif.CL

variable {n : Nat} {pk : PubKey} {sk : PriKey} {gU : (ZMod (n * n))ˣ} (H : Bytes → Int)

/-! ## The exponent of the group -/

theorem pow_mod_sq {p : Nat} (p' : Nat) (hp : p.Prime) (hpp : p = 2 * p' + 1) (a : Nat) (ha : a.Coprime p) (k : Nat) (hk : 2 * p * p' ∣ k) :
    a ^ k ≡ 1 [MOD p * p] := by
  obtain ⟨d, rfl⟩ := hk
  have hc : a.Coprime (p * p) := Nat.Coprime.mul_right ha ha
  have h := Nat.ModEq.pow_totient hc
  have ht : Nat.totient (p * p) = 2 * p * p' := by
    have := Nat.totient_prime_pow_succ hp 1
    rw [show p ^ (1 + 1) = p * p by ring] at this
    rw [this, hpp]
    simp only [Nat.add_sub_cancel, pow_one]
    ring
  rw [ht] at h
  rw [pow_mul]
  simpa using h.pow d

/-- every unit modulo `n²` is one to the power `2 * n * p' * q'` -/
theorem unit_exponent {p q p' q' : Nat} (hp : p.Prime) (hq : q.Prime) (hpp : p = 2 * p' + 1) (hqq : q = 2 * q' + 1) (hne : p ≠ q)
    (w : (ZMod ((p * q) * (p * q)))ˣ) : w ^ (2 * (p * q * p' * q')) = 1 := by
  have hN : 1 < (p * q) * (p * q) := by
    have := hp.two_le; have := hq.two_le
    have : 4 ≤ p * q := by nlinarith
    nlinarith
  have : NeZero ((p * q) * (p * q)) := neZero_of hN
  have hcop : Nat.Coprime (w : ZMod ((p * q) * (p * q))).val ((p * q) * (p * q)) := ZMod.val_coe_unit_coprime w
  have hcp : Nat.Coprime (w : ZMod ((p * q) * (p * q))).val p := Nat.Coprime.coprime_dvd_right ⟨q * (p * q), by ring⟩ hcop
  have hcq : Nat.Coprime (w : ZMod ((p * q) * (p * q))).val q := Nat.Coprime.coprime_dvd_right ⟨p * (p * q), by ring⟩ hcop
  have h1 := pow_mod_sq p' hp hpp _ hcp (2 * (p * q * p' * q')) ⟨q * q', by ring⟩
  have h2 := pow_mod_sq q' hq hqq _ hcq (2 * (p * q * p' * q')) ⟨p * p', by ring⟩
  have hpq : Nat.Coprime (p * p) (q * q) := by
    have h := (Nat.coprime_primes hp hq).mpr hne
    exact Nat.Coprime.mul_left (Nat.Coprime.mul_right h h) (Nat.Coprime.mul_right h h)
  have h3 := (Nat.modEq_and_modEq_iff_modEq_mul hpq).mp ⟨h1, h2⟩
  rw [show p * p * (q * q) = (p * q) * (p * q) by ring] at h3
  apply Units.ext
  rw [Units.val_pow_eq_pow_val, Units.val_one]
  have h4 := (ZMod.natCast_eq_natCast_iff _ _ _).mpr h3
  push_cast at h4
  rwa [ZMod.natCast_zmod_val] at h4

/-- The two challenges are so close that their difference has an inverse modulo the odd part of the exponent. -/
theorem inverse_of_difference {p q p' q' : Nat} (hp : p.Prime) (hq : q.Prime) (hp' : p'.Prime) (hq' : q'.Prime)
    (hpp : p = 2 * p' + 1) (hqq : q = 2 * q' + 1) (d : Int) (hd : d ≠ 0) (h1 : |d| < p') (h2 : |d| < q') :
    ∃ D k : Int, d * D = 1 + (p * q * p' * q' : Nat) * k := by
  have hc : ∀ r : Nat, r.Prime → |d| < r → IsCoprime d (r : Int) := by
    intro r hr hlt
    have hnd : ¬ ((r : Int) ∣ d) := by
      intro hdv
      have := Int.le_of_dvd (abs_pos.mpr hd) ((dvd_abs _ _).mpr hdv)
      omega
    exact ((Nat.prime_iff_prime_int.mp hr).coprime_iff_not_dvd.mpr hnd).symm
  have hall : IsCoprime d ((p * q * p' * q' : Nat) : Int) := by
    push_cast
    exact (((hc p hp (by omega)).mul_right (hc q hq (by omega))).mul_right (hc p' hp' h1)).mul_right (hc q' hq' h2)
  obtain ⟨a, b, hab⟩ := hall
  exact ⟨a, -b, by linarith⟩

section extraction
variable {G : Type} [CommGroup G]

/-- roots of one -/
theorem sq_one_of {w : G} {E : Nat} {d D k : Int} (hE : w ^ (2 * E) = 1) (hd : d * D = 1 + E * k) (hw : w ^ (2 * d) = 1) : w ^ (2 : Int) = 1 := by
  have h1 : w ^ (2 * d * D) = 1 := by rw [zpow_mul, hw, one_zpow]
  have h2 : w ^ ((2 * E : Nat) : Int) = 1 := by rw [zpow_natCast, hE]
  rw [show 2 * d * D = 2 + ((2 * E : Nat) : Int) * k by push_cast; linarith, zpow_add, zpow_mul, h2, one_zpow, mul_one] at h1
  exact h1

theorem sq_eq_of {w z : G} {E : Nat} {d D k : Int} (hE : ∀ w : G, w ^ (2 * E) = 1) (hd : d * D = 1 + E * k) {j : Int} (hw : w ^ (2 * d) = z ^ j) :
    w ^ (2 : Int) = z ^ (j * D) := by
  have h1 : w ^ (2 * d * D) = z ^ (j * D) := by rw [zpow_mul, hw, ← zpow_mul]
  have h2 : w ^ ((2 * E : Nat) : Int) = 1 := by rw [zpow_natCast, hE]
  rw [show 2 * d * D = 2 + ((2 * E : Nat) : Int) * k by push_cast; linarith, zpow_add, zpow_mul, h2, one_zpow, mul_one] at h1
  exact h1

/-- the two equations for one place -/
theorem cancel_u {e u g y h : G} {x a a' b b' : Int} {i i' : Int} (hy : y = g ^ x) (hu : u ^ a * g ^ b = u ^ a' * g ^ b')
    (he : e ^ a * y ^ b * h ^ i = e ^ a' * y ^ b' * h ^ i') : (e * (u ^ x)⁻¹) ^ (a - a') = h ^ (i' - i) := by
  subst hy
  have h1 : u ^ (x * a) * g ^ (x * b) = u ^ (x * a') * g ^ (x * b') := by
    have := congrArg (· ^ x) hu
    simp only [mul_zpow, ← zpow_mul] at this
    rwa [mul_comm x a, mul_comm x b, mul_comm x a', mul_comm x b']
  rw [← zpow_mul, ← zpow_mul] at he
  rw [mul_zpow, zpow_sub, inv_zpow, ← zpow_mul, zpow_sub h, mul_sub, zpow_sub u]
  generalize e ^ a = E at *
  generalize e ^ a' = E' at *
  generalize u ^ (x * a) = U at *
  generalize u ^ (x * a') = U' at *
  generalize g ^ (x * b) = B at *
  generalize g ^ (x * b') = B' at *
  generalize h ^ i = I at *
  generalize h ^ i' = I' at *
  have hE : E = E' * B' * I' * I⁻¹ * B⁻¹ := by rw [← he]; simp [mul_assoc, mul_comm, mul_left_comm]
  have hU : U = U' * B' * B⁻¹ := by rw [← h1]; simp [mul_assoc]
  rw [hE, hU]
  simp only [mul_inv_rev, inv_inv]
  calc E' * B' * I' * I⁻¹ * B⁻¹ * E'⁻¹ * (U' * (B * (B'⁻¹ * U'⁻¹))) = (E' * E'⁻¹) * (B' * B'⁻¹) * (B * B⁻¹) * (U' * U'⁻¹) * (I' * I⁻¹) := by
        simp only [mul_assoc, mul_comm, mul_left_comm]
    _ = _ := by simp
end extraction

/-- The messages that two answers to different challenges fix, place by place: in the range, and `m * (c - c') = s' - s` modulo `n`. -/
def Extracted (n : Nat) (ch ch' : Int) : List Int → List Int → List Int → Prop
  | [], [], [] => True
  | m :: ms, s :: ss, s' :: ss' => (0 ≤ m ∧ m < n ∧ m * (ch - ch') ≡ s' - s [ZMOD n]) ∧ Extracted n ch ch' ms ss ss'
  | _, _, _ => False

theorem extract_places {p q p' q' : Nat} (hE : ∀ w : (ZMod ((p * q) * (p * q)))ˣ, w ^ (2 * (p * q * p' * q')) = 1) (hn : 1 < p * q)
    (gU uU : (ZMod ((p * q) * (p * q)))ˣ) (ch ch' rHat rHat' D k : Int) (hD : (ch - ch') * D = 1 + (p * q * p' * q' : Nat) * k)
    (hu : uU ^ (lshift1 ch) * gU ^ (lshift1 rHat) = uU ^ (lshift1 ch') * gU ^ (lshift1 rHat')) :
    ∀ (es : List Int) (eUs : List ((ZMod ((p * q) * (p * q)))ˣ)) (ss ss' xs : List Int), List.Forall₂ Rep es eUs → ss.length = es.length → ss'.length = es.length →
      es.length ≤ xs.length →
      recE gU (lshift1 ch) (lshift1 rHat) ss eUs xs = recE gU (lshift1 ch') (lshift1 rHat') ss' eUs xs →
      ∃ ms, Decr uU es xs ms ∧ ms.map (fun m => m % ((p * q : Nat) : Int)) = ms ∧ Extracted (p * q) ch ch' ms ss ss'
  | [], [], [], [], xs, _, _, _, _, _ => ⟨[], by simp [Decr], rfl, by simp [Extracted]⟩
  | [], _, _ :: _, _, _, _, h, _, _, _ => by simp at h
  | [], _, _, _ :: _, _, _, _, h, _, _ => by simp at h
  | _ :: _, _, [], _, _, _, h, _, _, _ => by simp at h
  | _ :: _, _, _, [], _, _, _, h, _, _ => by simp at h
  | _ :: _, _, _, _, [], _, _, _, h, _ => by simp at h
  | e :: es, eU :: eUs, s :: ss, s' :: ss', x :: xs, h, hl, hl', hx, heq => by
    have hN : 1 < (p * q) * (p * q) := by nlinarith
    have : NeZero ((p * q) * (p * q)) := neZero_of hN
    cases h with
    | cons he hes =>
      simp only [recE, List.cons.injEq] at heq
      obtain ⟨h0, hrest⟩ := heq
      obtain ⟨ms, h1, h2, h3⟩ := extract_places hE hn gU uU ch ch' rHat rHat' D k hD hu es eUs ss ss' xs hes (by simpa using hl) (by simpa using hl')
        (by simpa using hx) hrest
      have h4 := cancel_u (x := x) rfl hu (val_injective h0)
      rw [show lshift1 ch - lshift1 ch' = 2 * (ch - ch') by unfold lshift1; ring] at h4
      have h5 := sq_eq_of hE hD h4
      have hn0 : (0 : Int) < ((p * q : Nat) : Int) := by omega
      refine ⟨((s' - s) * D) % ((p * q : Nat) : Int) :: ms, ⟨⟨eU, he, ?_⟩, h1⟩, ?_, ⟨⟨Int.emod_nonneg _ hn0.ne', Int.emod_lt_of_pos _ hn0, ?_⟩, h3⟩⟩
      · rw [h5]
        apply hU_congr
        have := ((Int.mod_modEq ((s' - s) * D) ((p * q : Nat) : Int)).mul_left 2).symm
        refine Int.ModEq.trans ?_ this
        unfold lshift1
        rw [show (s' * 2 - s * 2) * D = 2 * ((s' - s) * D) by ring]
      · simp only [List.map_cons, Int.emod_emod_of_dvd _ (dvd_refl _), h2]
      · refine ((Int.mod_modEq _ _).mul_right _).trans ?_
        rw [show (s' - s) * D * (ch - ch') = (s' - s) * ((ch - ch') * D) by ring, hD]
        rw [Int.modEq_iff_dvd]
        exact ⟨-((s' - s) * (p' * q' * k)), by push_cast; ring⟩

/-- a number prime to `p * q` is a unit modulo its square -/
theorem rep_of_coprime {p q : Nat} {a : Int} (h0 : 0 ≤ a) (h : Int.gcd a ((p * q : Nat) : Int) = 1) :
    ∃ w : (ZMod ((p * q) * (p * q)))ˣ, Rep a w := by
  have h1 : IsCoprime a ((p * q : Nat) : Int) := Int.isCoprime_iff_gcd_eq_one.mpr h
  have := Int.isCoprime_iff_gcd_eq_one.mp (h1.mul_right h1)
  exact exists_rep h0 (by exact_mod_cast this)

theorem reps_of_coprime {p q : Nat} : ∀ {es : List Int}, (∀ e ∈ es, 0 ≤ e ∧ Int.gcd e ((p * q : Nat) : Int) = 1) →
    ∃ eUs : List ((ZMod ((p * q) * (p * q)))ˣ), List.Forall₂ Rep es eUs
  | [], _ => ⟨[], .nil⟩
  | e :: es, h => by
    obtain ⟨w, hw⟩ := rep_of_coprime (h e (by simp)).1 (h e (by simp)).2
    obtain ⟨ws, hws⟩ := reps_of_coprime (es := es) (fun x hx => h x (by simp [hx]))
    exact ⟨w :: ws, .cons hw hws⟩

/-- The numbers of a ciphertext are not negative, are prime to `n`, and `v` is at most half of `n²`. -/
structure WellFormed (pk : PubKey) (c : Cipher) : Prop where
  u_nonneg : 0 ≤ c.u
  u_coprime : Int.gcd c.u pk.n = 1
  e_units : ∀ e ∈ c.e, 0 ≤ e ∧ Int.gcd e pk.n = 1
  v_nonneg : 0 ≤ c.v
  v_coprime : Int.gcd c.v pk.n = 1
  v_half : 2 * c.v ≤ pk.n * pk.n

/-- **C105** Key of two different safe primes.  If for a well formed ciphertext and a label the verifier reconstructs the same commitments from answers to two
different challenges (the challenges differ by less than the halves of the primes), then the ciphertext decrypts under this label, and every message is the one
that the answers fix: `m * (c - c') = s' - s` modulo `n`. -/
theorem proof_sound {p' q' : Nat} {g' : Int} (hk : HonestKey (2 * p' + 1) (2 * q' + 1) g' pk sk) (hp' : p'.Prime) (hq' : q'.Prime) (hne : p' ≠ q')
    (c : Cipher) (hc : WellFormed pk c) (label : Bytes) (s s' : List Int) (hs : s.length = c.e.length) (hs' : s'.length = c.e.length)
    (ch ch' rHat rHat' : Int) (hch : ch ≠ ch') (h1 : |ch - ch'| < p') (h2 : |ch - ch'| < q') (t : Cipher)
    (ht : reconstruct H pk c s rHat ch label = .ok t) (ht' : reconstruct H pk c s' rHat' ch' label = .ok t) :
    ∃ ms, decrypt H label c pk sk = .ok ms ∧ Extracted ((2 * p' + 1) * (2 * q' + 1)) ch ch' ms s s' := by
  obtain ⟨gU, k⟩ := hk.ok
  generalize hpp : 2 * p' + 1 = p at *
  generalize hqq : 2 * q' + 1 = q at *
  have hN := k.hN
  have : NeZero ((p * q) * (p * q)) := neZero_of hN
  have hE := unit_exponent hk.prime_p hk.prime_q hpp.symm hqq.symm (by omega)
  obtain ⟨D, kk, hD⟩ := inverse_of_difference hk.prime_p hk.prime_q hp' hq' hpp.symm hqq.symm (ch - ch') (sub_ne_zero.mpr hch) h1 h2
  obtain ⟨uU, hu⟩ := rep_of_coprime (p := p) (q := q) hc.u_nonneg (by rw [← k.n_eq]; exact hc.u_coprime)
  obtain ⟨vU, hv⟩ := rep_of_coprime (p := p) (q := q) hc.v_nonneg (by rw [← k.n_eq]; exact hc.v_coprime)
  obtain ⟨eUs, he⟩ := reps_of_coprime (p := p) (q := q) (es := c.e) (by rw [← k.n_eq]; exact hc.e_units)
  have hlen : c.e.length ≤ sk.x1.length := by
    by_contra hcon
    unfold reconstruct at ht
    rw [if_pos (by rw [k.y1, List.length_map]; omega)] at ht
    cases ht
  rw [reconstruct_eq H k c uU eUs vU hu he hv s (by omega) (by omega)] at ht
  rw [reconstruct_eq H k c uU eUs vU hu he hv s' (by omega) (by omega)] at ht'
  rw [← ht] at ht'
  simp only [Res.ok.injEq, Cipher.mk.injEq] at ht'
  obtain ⟨eu, ee, ev⟩ := ht'
  obtain ⟨ms, hd, hm, hx⟩ := extract_places hE k.hn gU uU ch ch' rHat rHat' D kk hD (val_injective eu).symm c.e eUs s s' sk.x1 he hs hs' hlen ee.symm
  refine ⟨ms, ?_, hx⟩
  have hdv : (vU * (uU ^ (H (hashInput c.u c.e label) * sk.x3 + sk.x2))⁻¹) ^ (2 : Int) = 1 := by
    have h4 := cancel_u (h := (1 : (ZMod ((p * q) * (p * q)))ˣ)) (i := 0) (i' := 0) (x := H (hashInput c.u c.e label) * sk.x3 + sk.x2) rfl
      (val_injective eu).symm (by simpa using (val_injective ev).symm)
    rw [show lshift1 ch - lshift1 ch' = 2 * (ch - ch') by unfold lshift1; ring, sub_self, zpow_zero] at h4
    exact sq_one_of (hE _) hD h4
  have hnn : pk.n * pk.n = (((p * q) * (p * q) : Nat) : Int) := by rw [k.n_eq]; push_cast; ring
  rw [decrypt_run H k label c uU hu hlen hc.v_nonneg (by rw [← hnn]; exact hc.v_half)]
  · rw [decryptLoop_ok k c.u uU hu c.e sk.x1 ms 0 hd, hm]
  · rw [hv.2, ← Units.val_mul]
    congr 1
    rw [mul_zpow, inv_zpow, mul_inv_eq_one] at hdv
    rw [← zpow_two, hdv, ← zpow_mul, Int.mul_comm _ 2]

/-! ## Well formedness, and what it excludes -/

/-- honest ciphertexts are well formed -/
theorem encrypt_wellFormed {p q : Nat} {g' : Int} (hk : HonestKey p q g' pk sk) (r : Int) (ms : List Int) (hl : ms.length ≤ sk.x1.length)
    (label : Bytes) (c : Cipher) (hc : encrypt H pk r ms label = .ok c) : WellFormed pk c ∧ c.e.length = ms.length ∧ 0 < c.v := by
  obtain ⟨gU, k⟩ := hk.ok
  have hN := k.hN
  have : NeZero ((p * q) * (p * q)) := neZero_of hN
  obtain ⟨v, h1, -, h2, h3, h4⟩ := encrypt_ok H k r ms hl label
  rw [hc] at h1
  simp only [Res.ok.injEq] at h1
  subst h1
  obtain ⟨vU, hvr, -⟩ := rep_of_cast h2 h4
  have hred : ∀ (a : Int) (w : (ZMod ((p * q) * (p * q)))ˣ), Rep a w → Int.gcd a pk.n = 1 := by
    intro a w hw
    have := hw.gcd
    rw [← Int.isCoprime_iff_gcd_eq_one] at this ⊢
    rw [k.n_eq]
    push_cast at this
    have := this.of_mul_right_left
    push_cast
    exact this
  have hes : ∀ (es : List Int) (eUs : List ((ZMod ((p * q) * (p * q)))ˣ)), List.Forall₂ Rep es eUs → ∀ e ∈ es, 0 ≤ e ∧ Int.gcd e pk.n = 1 := by
    intro es eUs h
    induction h with
    | nil => simp
    | cons h1 _ ih =>
      intro e he
      rcases List.mem_cons.mp he with rfl | he
      · exact ⟨h1.1, hred _ _ h1⟩
      · exact ih e he
  have hv1 := hred _ _ hvr
  refine ⟨⟨val_nonneg _, hred _ _ (rep_val _), hes _ _ (encE_rep gU r ms sk.x1), h2, hv1, ?_⟩, encE_length gU r ms sk.x1 hl, ?_⟩
  · show 2 * v ≤ pk.n * pk.n
    rw [k.n_eq]; push_cast at h3 ⊢; linarith
  · show 0 < v
    rcases lt_or_eq_of_le h2 with h | h
    · exact h
    · exfalso
      rw [← h, k.n_eq] at hv1
      have := k.hn
      simp only [Int.gcd_zero_left] at hv1
      have h5 : ((p * q : Nat) : Int).natAbs = p * q := Int.natAbs_natCast _
      omega

/-- **C104, C105** The hypotheses of `proof_sound` are met by every honest prover that answers two challenges. -/
theorem sound_hypotheses_met {p q : Nat} {g' : Int} (hk : HonestKey p q g' pk sk) (r rT ch ch' : Int) (ms bs ss ss' : List Int)
    (hl : ms.length ≤ sk.x1.length) (hr : 0 ≤ r * ch) (hr' : r * ch < pk.n * pk.n) (hr2 : 0 ≤ r * ch') (hr2' : r * ch' < pk.n * pk.n)
    (label : Bytes) (hs : Responses (p * q) ch ms bs ss) (hs' : Responses (p * q) ch' ms bs ss') :
    ∃ c t rHat rHat', WellFormed pk c ∧ ss.length = c.e.length ∧ ss'.length = c.e.length ∧
      reconstruct H pk c ss rHat ch label = .ok t ∧ reconstruct H pk c ss' rHat' ch' label = .ok t := by
  obtain ⟨c, t, x, h1, -, h2, h3⟩ := encryption_proof_complete H hk r rT ch ms bs ss hl hr hr' label hs
  obtain ⟨c', t', x', h1', -, h2', h3'⟩ := encryption_proof_complete H hk r rT ch' ms bs ss' hl hr2 hr2' label hs'
  rw [h1] at h1'
  simp only [Res.ok.injEq, Prod.mk.injEq] at h1'
  obtain ⟨rfl, rfl⟩ := h1'
  obtain ⟨hw, hlen, -⟩ := encrypt_wellFormed H hk r ms hl label c h2
  exact ⟨c, t, x, x', hw, by rw [hs.length.1, hlen], by rw [hs'.length.1, hlen], h3, h3'⟩

theorem modExp_eq (a e N : Int) (he : 0 ≤ e) (hN : 1 < N) : modExp a e N = .ok (a ^ e.toNat % N) := by
  obtain ⟨r, h1, h2⟩ := mod_exp_nonneg_spec a e N he (by omega)
  rw [h1]
  unfold Canonical at h2
  obtain ⟨h3, h4, h5⟩ := h2
  rw [abs_of_pos (by omega)] at h4
  have : r % N = r := Int.emod_eq_of_lt h3 h4
  have h6 : r % N = a ^ e.toNat % N := h5
  rw [← h6, this]

/-- an even power does not see the sign -/
theorem modExp_flip (v ch N : Int) (hch : 0 ≤ ch) (hN : 1 < N) : modExp (N - v) (lshift1 ch) N = modExp v (lshift1 ch) N := by
  unfold lshift1
  rw [modExp_eq _ _ _ (by omega) hN, modExp_eq _ _ _ (by omega) hN]
  congr 1
  have h2 : (ch * 2).toNat = 2 * ch.toNat := by omega
  rw [h2, pow_mul, pow_mul]
  have : (N - v) ^ 2 ≡ v ^ 2 [ZMOD N] := by
    rw [Int.modEq_iff_dvd]
    exact ⟨2 * v - N, by ring⟩
  exact this.pow _

/-- **C105, negation** Without the condition on `v` the property fails: with `n² - v` in place of the `v` of an honest ciphertext the verifier's computation is the same for every challenge and
all answers, so that the honest proof is accepted, and the ciphertext does not decrypt. -/
theorem flipped_accepted {p q : Nat} {g' : Int} (hk : HonestKey p q g' pk sk) (r : Int) (ms : List Int) (hl : ms.length ≤ sk.x1.length)
    (label : Bytes) (c : Cipher) (hc : encrypt H pk r ms label = .ok c) :
    (∀ s rHat ch, 0 ≤ ch → reconstruct H pk ⟨c.u, c.e, pk.n * pk.n - c.v⟩ s rHat ch label = reconstruct H pk c s rHat ch label) ∧
    decrypt H label ⟨c.u, c.e, pk.n * pk.n - c.v⟩ pk sk = .err "absolute check failed for v" := by
  obtain ⟨hw, hlen, hpos⟩ := encrypt_wellFormed H hk r ms hl label c hc
  obtain ⟨gU, k⟩ := hk.ok
  have hN := k.hN
  have hnn : pk.n * pk.n = (((p * q) * (p * q) : Nat) : Int) := by rw [k.n_eq]; push_cast; ring
  have hN' : (1 : Int) < (((p * q) * (p * q) : Nat) : Int) := by exact_mod_cast hN
  constructor
  · intro s rHat ch hch
    unfold reconstruct
    simp only [Group.exp, k.mod, hnn, modExp_flip c.v ch _ hch hN']
  · have hhalf := hw.v_half
    have hodd : (((p * q) * (p * q) : Nat) : Int) % 2 = 1 := by
      have := odd_mul (odd_mul hk.p_odd hk.q_odd) (odd_mul hk.p_odd hk.q_odd)
      exact_mod_cast this
    rw [hnn] at hhalf
    unfold decrypt Group.abs
    simp only [k.mod, hnn]
    rw [if_neg (by omega), modulus_eq_emod _ _ (by omega), Res.ok_bind, Int.emod_eq_of_lt (by omega) (by omega),
      if_pos (by unfold rshift; omega)]
    simp only [Res.pure_eq, Res.ok_bind]
    rw [if_pos (by omega)]

theorem reconE_zero (k : KeyOk n pk sk gU) (ch r : Int) (hch : 0 < ch) : ∀ (ss xs : List Int), ss.length ≤ xs.length →
    reconE pk.group ch r ss (List.replicate ss.length 0) (xs.map (fun x => val (gU ^ x))) = .ok (List.replicate ss.length 0)
  | [], xs, _ => by simp [reconE]
  | s :: ss, [], h => by simp at h
  | s :: ss, x :: xs, h => by
    have hN := k.hN
    have : NeZero (n * n) := neZero_of hN
    have hN' : (1 : Int) < ((n * n : Nat) : Int) := by exact_mod_cast hN
    have hh : Rep pk.group.h (hU n) := by rw [k.h_eq]; exact rep_h n
    have h0 : modExp 0 ch ((n * n : Nat) : Int) = .ok 0 := by
      rw [modExp_eq _ _ _ (by omega) hN', zero_pow (by omega)]; simp
    have hm : ∀ b : Int, modMul 0 b ((n * n : Nat) : Int) = .ok 0 := by
      intro b; unfold modMul; rw [modulus_eq_emod _ _ (by omega)]; simp
    simp only [reconE, List.length_cons, List.replicate_succ, Group.exp, k.mod, h0, Res.ok_bind, List.map_cons, List.head?_cons, Res.unwrap_some,
        (rep_val (gU ^ x)).modExp hN, hh.modExp hN, hm, List.tail_cons, reconE_zero k ch r hch ss xs (by simpa using h), Res.pure_eq]

/-- **C105, negation** Without the conditions on divisors the property fails: for the ciphertext of zeros the verifier reconstructs zeros for every positive challenge and all answers, so that
a proof with commitments of zeros is always accepted; decryption fails. -/
theorem zero_accepted {p q : Nat} {g' : Int} (hk : HonestKey p q g' pk sk) (s : List Int) (hl : s.length ≤ sk.x1.length) (label : Bytes) :
    (∀ rHat ch, 0 < ch → reconstruct H pk ⟨0, List.replicate s.length 0, 0⟩ s rHat ch label = .ok ⟨0, List.replicate s.length 0, 0⟩) ∧
    (s ≠ [] → (∀ x ∈ sk.x1, 0 < x) → 0 < sk.x2 → 0 ≤ sk.x3 → (∀ b, 0 ≤ H b) →
      decrypt H label ⟨0, List.replicate s.length 0, 0⟩ pk sk = .err "Not invertible") := by
  obtain ⟨gU, k⟩ := hk.ok
  have hN := k.hN
  have : NeZero ((p * q) * (p * q)) := neZero_of hN
  have hN' : (1 : Int) < (((p * q) * (p * q) : Nat) : Int) := by exact_mod_cast hN
  have h0 : ∀ ch : Int, 0 < ch → modExp 0 ch (((p * q) * (p * q) : Nat) : Int) = .ok 0 := by
    intro ch hch
    rw [modExp_eq _ _ _ (by omega) hN', zero_pow (by omega)]; simp
  have hm : ∀ b : Int, modMul 0 b (((p * q) * (p * q) : Nat) : Int) = .ok 0 := by
    intro b; unfold modMul; rw [modulus_eq_emod _ _ (by omega)]; simp
  constructor
  · intro rHat ch hch
    have hch2 : 0 < lshift1 ch := by unfold lshift1; omega
    have hg : Rep pk.group.g gU := by rw [k.g_eq]; exact rep_val gU
    have hy : ∀ h : Int, gU ^ sk.x2 * (gU ^ sk.x3) ^ h = gU ^ (h * sk.x3 + sk.x2) := by
      intro h; rw [← zpow_mul, ← zpow_add]; congr 1; ring
    unfold reconstruct
    rw [if_neg (by rw [k.y1, List.length_map]; omega), k.y1, reconE_zero k _ _ hch2 s sk.x1 hl]
    generalize H (hashInput 0 (List.replicate s.length 0) label) = hash
    simp only [Group.exp, k.mod, k.y2, k.y3, h0 _ hch2, hg.modExp hN, Res.ok_bind, hm, (rep_val (gU ^ sk.x3)).modExp hN,
      (rep_val (gU ^ sk.x2)).modMul (rep_val ((gU ^ sk.x3) ^ hash)), hy, (rep_val (gU ^ (hash * sk.x3 + sk.x2))).modExp hN, Res.pure_eq]
  · intro hs hx h2 h3 hH
    cases s with
    | nil => exact absurd rfl hs
    | cons s0 ss =>
      cases hxs : sk.x1 with
      | nil => rw [hxs] at hl; simp at hl
      | cons x xs =>
        have hx0 : 0 < x := hx x (by rw [hxs]; simp)
        have hK : 0 < lshift1 (H (hashInput 0 (List.replicate (s0 :: ss).length 0) label) * sk.x3 + sk.x2) := by
          have := mul_nonneg (hH (hashInput 0 (List.replicate (s0 :: ss).length 0) label)) h3
          unfold lshift1; omega
        have hinv : inverse 0 (((p * q) * (p * q) : Nat) : Int) = .err "Not invertible" := by
          refine (inverse_spec 0 _ (by norm_num) (by rw [abs_of_pos (by omega)]; exact hN')).2 ?_
          simp only [Int.gcd_zero_left]
          have h5 : ((((p * q) * (p * q)) : Nat) : Int).natAbs = (p * q) * (p * q) := Int.natAbs_natCast _
          omega
        unfold decrypt
        rw [if_neg (by simp only [List.length_replicate]; omega), abs_of_small pk.group k.mod 0 (by norm_num) (by omega)]
        simp only [Res.ok_bind, ne_eq, not_true_eq_false, if_false, Group.exp, k.mod, h0 _ hK, Group.sqr, mul_zero]
        rw [modulus_eq_emod _ _ (by omega)]
        simp only [Int.zero_emod, Res.ok_bind, not_true_eq_false, if_false, List.length_cons, List.replicate_succ, hxs, decryptLoop, Group.exp, k.mod,
          h0 _ hx0, hinv, Res.err_bind]

theorem reconE_append (G : Group) (ch r : Int) : ∀ (ss es junk ys : List Int), ss.length ≤ es.length →
    reconE G ch r ss (es ++ junk) ys = reconE G ch r ss es ys
  | [], _, _, _, _ => by simp [reconE]
  | _ :: _, [], _, _, h => by simp at h
  | s :: ss, e :: es, junk, ys, h => by
    simp only [List.cons_append, reconE, reconE_append G ch r ss es junk ys.tail (by simpa using h)]

/-- **C105, negation** Only as many places are proved as there are answers: for all messages, and any numbers `junk`, there is a ciphertext with these in the further places, and for it answers
for the messages are accepted for every challenge. -/
theorem rest_not_proved {p q : Nat} {g' : Int} (hk : HonestKey p q g' pk sk) (r rT : Int) (ms bs junk : List Int) (hl : ms.length ≤ sk.x1.length)
    (hb : bs.length = ms.length) (label : Bytes) :
    ∃ u e v t, e.length = ms.length ∧ ∀ ch ss, 0 ≤ r * ch → r * ch < pk.n * pk.n → Responses (p * q) ch ms bs ss →
      ∃ rHat, provePhase2 pk r rT ch = .ok rHat ∧ reconstruct H pk ⟨u, e ++ junk, v⟩ ss rHat ch label = .ok t := by
  obtain ⟨gU, k⟩ := hk.ok
  have hN := k.hN
  obtain ⟨v0, h0, -⟩ := encrypt_ok H k r ms hl label
  let H' : Bytes → Int := fun _ => H (hashInput (val (gU ^ r)) (encE gU r ms sk.x1 ++ junk) label)
  obtain ⟨v, h1, h1', -⟩ := encrypt_ok H' k r ms hl label
  have hlen := encE_length gU r ms sk.x1 hl
  have : NeZero ((p * q) * (p * q)) := neZero_of hN
  obtain ⟨w0, ht0, -⟩ := computeV_ok k (lshift1 rT) (H (hashInput (val (gU ^ r)) (encE gU r ms sk.x1 ++ junk) label))
  obtain ⟨t, ht⟩ : ∃ t, tValues pk rT bs (H (hashInput (val (gU ^ r)) (encE gU r ms sk.x1 ++ junk) label)) = .ok t := by
    have hg : Rep pk.group.g gU := by rw [k.g_eq]; exact rep_val gU
    unfold tValues
    rw [k.y1, computeE_ok k _ _ sk.x1 (by rw [List.length_map]; omega), ht0]
    simp only [Group.exp, k.mod, hg.modExp hN, Res.ok_bind, Res.pure_eq]
    exact ⟨_, rfl⟩
  refine ⟨val (gU ^ r), encE gU r ms sk.x1, v, t, hlen, ?_⟩
  intro ch ss hr hr' hs
  obtain ⟨c, t', rHat, h2, h3, h4, h5⟩ := encryption_proof_complete H' hk r rT ch ms bs ss hl hr hr' label hs
  rw [h1] at h4
  simp only [Res.ok.injEq] at h4
  subst h4
  have : t' = t := by
    unfold provePhase1 at h2
    have hc : tValues pk rT bs (H' (hashInput (val (gU ^ r)) (encE gU r ms sk.x1) label)) = .ok t := ht
    rw [if_neg (by omega), if_neg (by rw [k.y1, List.length_map]; omega), h1', Res.ok_bind, hc] at h2
    simp only [Res.ok_bind, Res.pure_eq, Res.ok.injEq, Prod.mk.injEq] at h2
    exact h2.2.symm
  subst this
  refine ⟨rHat, h3, ?_⟩
  rw [← h5]
  unfold reconstruct
  simp only [reconE_append pk.group _ _ ss _ junk pk.y1 (by rw [hlen, hs.length.1])]
  rfl

/-! ## Crashes -/

theorem modExp_np (a e N : Int) (hN : N ≠ 0) : modExp a e N ≠ .panic := by
  have hm : getModulus N ≠ 0 := by rw [getModulus_eq]; exact abs_ne_zero.mpr hN
  have hp : ∀ b f : Int, 0 ≤ f → modpow b f (getModulus N) ≠ .panic := by
    intro b f hf
    unfold modpow
    rw [if_neg (by intro h; rcases h with h | h; omega; exact hm h)]
    simp
  unfold modExp
  split
  · simp
  · split
    · refine Verif.BN.bind_np (inverse_np _ _) fun x => hp _ _ ?_
      unfold setNegative
      have : decide (e < 0) = true := by simpa using ‹e < 0›
      rw [this]; show 0 ≤ -e; omega
    · exact hp _ _ (by omega)

theorem sqr_np (G : Group) (a : Int) : G.sqr a ≠ .panic := modulus_np _ _

theorem gabs_np (G : Group) (a : Int) : G.abs a ≠ .panic := by
  unfold Group.abs
  refine Verif.BN.bind_np (modulus_np _ _) fun x => ?_
  split <;> simp

theorem bdiv_np (a b : Int) : BN.div a b ≠ .panic := by
  unfold BN.div; split <;> simp

theorem decryptLoop_np (pk : PubKey) (hN : pk.group.modulus ≠ 0) (u : Int) : ∀ (es xs : List Int) (i : Nat), es.length ≤ xs.length →
    decryptLoop pk u i es xs ≠ .panic
  | [], _, _, _ => by simp [decryptLoop]
  | _ :: _, [], _, h => by simp at h
  | e :: es, x :: xs, i, h => by
    unfold decryptLoop
    refine Verif.BN.bind_np (modExp_np _ _ _ hN) fun _ => Verif.BN.bind_np (inverse_np _ _) fun _ => Verif.BN.bind_np (modulus_np _ _) fun _ =>
      Verif.BN.bind_np (modExp_np _ _ _ hN) fun _ => Verif.BN.bind_np (modulus_np _ _) fun _ => ?_
    split
    · exact Verif.BN.bind_np (modulus_np _ _) fun _ => Verif.BN.bind_np (bdiv_np _ _) fun _ =>
        Verif.BN.bind_np (decryptLoop_np pk hN u es xs (i + 1) (by simpa using h)) fun _ => by simp
    · simp

/-- **C106** Decryption does not crash, whatever the ciphertext, the label and the keys, unless the key's modulus is zero. -/
theorem decrypt_no_panic (pk : PubKey) (sk : PriKey) (hN : pk.group.modulus ≠ 0) (label : Bytes) (c : Cipher) : decrypt H label c pk sk ≠ .panic := by
  unfold decrypt
  split
  · simp
  · refine Verif.BN.bind_np (gabs_np _ _) fun _ => ?_
    split
    · simp
    · refine Verif.BN.bind_np (modExp_np _ _ _ hN) fun _ => Verif.BN.bind_np (sqr_np _ _) fun _ => ?_
      split
      · simp
      · exact decryptLoop_np pk hN _ _ _ _ (by omega)

theorem computeE_np (G : Group) (hN : G.modulus ≠ 0) (r : Int) : ∀ (ms ys : List Int), ms.length ≤ ys.length → computeE G r ms ys ≠ .panic
  | [], _, _ => by simp [computeE]
  | _ :: _, [], h => by simp at h
  | m :: ms, y :: ys, h => by
    unfold computeE
    exact Verif.BN.bind_np (modExp_np _ _ _ hN) fun _ => Verif.BN.bind_np (modExp_np _ _ _ hN) fun _ => Verif.BN.bind_np (modulus_np _ _) fun _ =>
      Verif.BN.bind_np (computeE_np G hN r ms ys (by simpa using h)) fun _ => by simp

theorem computeV_np (pk : PubKey) (hN : pk.group.modulus ≠ 0) (r h : Int) (b : Bool) : computeV pk r h b ≠ .panic := by
  unfold computeV
  refine Verif.BN.bind_np (modExp_np _ _ _ hN) fun _ => Verif.BN.bind_np (modulus_np _ _) fun _ => Verif.BN.bind_np (modExp_np _ _ _ hN) fun _ => ?_
  split
  · exact gabs_np _ _
  · simp

theorem encryptWith_np (pk : PubKey) (hN : pk.group.modulus ≠ 0) (r : Int) (ms : List Int) (hl : ms.length ≤ pk.y1.length) (label : Bytes) :
    encryptWith H pk r ms label ≠ .panic :=
  Verif.BN.bind_np (modExp_np _ _ _ hN) fun _ => Verif.BN.bind_np (computeE_np _ hN _ _ _ hl) fun _ =>
    Verif.BN.bind_np (computeV_np _ hN _ _ _) fun _ => by simp

/-- **C106** Neither does encryption, with or without a proof. -/
theorem encrypt_no_panic (pk : PubKey) (hN : pk.group.modulus ≠ 0) (r rT : Int) (ms bs : List Int) (label : Bytes) (ch : Int) :
    encrypt H pk r ms label ≠ .panic ∧ provePhase1 H pk r rT ms bs label ≠ .panic ∧ provePhase2 pk r rT ch ≠ .panic := by
  refine ⟨?_, ?_, ?_⟩
  · unfold encrypt
    split
    · simp
    · exact encryptWith_np H pk hN r ms (by omega) label
  · unfold provePhase1
    split
    · simp
    · split
      · simp
      · refine Verif.BN.bind_np (encryptWith_np H pk hN r ms (by omega) label) fun c => Verif.BN.bind_np ?_ fun _ => by simp
        unfold tValues
        exact Verif.BN.bind_np (modExp_np _ _ _ hN) fun _ => Verif.BN.bind_np (computeE_np _ hN _ _ _ (by rw [List.length_map]; omega)) fun _ =>
          Verif.BN.bind_np (computeV_np _ hN _ _ _) fun _ => by simp
  · exact Verif.BN.bind_np (modulus_np _ _) fun _ => by simp

theorem reconE_cases (k : KeyOk n pk sk gU) (ch r : Int) (hch : 0 ≤ ch) : ∀ (ss es xs : List Int), ss.length ≤ xs.length →
    (es.length < ss.length → reconE pk.group ch r ss es (xs.map (fun x => val (gU ^ x))) = .panic) ∧
    (ss.length ≤ es.length → ∃ t, reconE pk.group ch r ss es (xs.map (fun x => val (gU ^ x))) = .ok t ∧ t.length = ss.length)
  | [], es, xs, _ => ⟨by simp, fun _ => ⟨[], by simp [reconE], rfl⟩⟩
  | s :: ss, _, [], h => by simp at h
  | s :: ss, [], x :: xs, h => ⟨fun _ => by simp [reconE], by simp⟩
  | s :: ss, e :: es, x :: xs, h => by
    have hN := k.hN
    have : NeZero (n * n) := neZero_of hN
    have hN' : (1 : Int) < ((n * n : Nat) : Int) := by exact_mod_cast hN
    have hh : Rep pk.group.h (hU n) := by rw [k.h_eq]; exact rep_h n
    have hm : ∀ a b : Int, modMul a b ((n * n : Nat) : Int) = .ok (a * b % ((n * n : Nat) : Int)) := by
      intro a b; unfold modMul; rw [modulus_eq_emod _ _ (by omega)]
    obtain ⟨h1, h2⟩ := reconE_cases k ch r hch ss es xs (by simpa using h)
    have hE : reconE pk.group ch r (s :: ss) (e :: es) ((x :: xs).map (fun x => val (gU ^ x))) =
        (do let rest ← reconE pk.group ch r ss es (xs.map (fun x => val (gU ^ x)))
            pure (((e ^ ch.toNat % ((n * n : Nat) : Int)) * val ((gU ^ x) ^ r) % ((n * n : Nat) : Int)) * val (hU n ^ lshift1 s) % ((n * n : Nat) : Int) :: rest)) := by
      simp only [reconE, Group.exp, k.mod, modExp_eq e ch _ hch hN', Res.ok_bind, List.map_cons, List.head?_cons, Res.unwrap_some,
        (rep_val (gU ^ x)).modExp hN, hh.modExp hN, hm, List.tail_cons]
    rw [hE]
    constructor
    · intro hlt
      rw [h1 (by simpa using hlt)]; rfl
    · intro hle
      obtain ⟨t, ht, hl⟩ := h2 (by simpa using hle)
      rw [ht]
      exact ⟨_, rfl, by simp [hl]⟩

/-- **C106, negation** The verifier's computation crashes on some inputs.  For a key made by the library and a challenge that is not negative: it does so exactly if there are
more answers than places in the ciphertext, and no more than the key has; it is refused if there are more answers than the key has, and succeeds otherwise. -/
theorem reconstruct_panics_iff {p q : Nat} {g' : Int} (hk : HonestKey p q g' pk sk) (c : Cipher) (s : List Int) (rHat ch : Int) (hch : 0 ≤ ch) (label : Bytes) :
    (reconstruct H pk c s rHat ch label = .panic ↔ c.e.length < s.length ∧ s.length ≤ pk.y1.length) ∧
    ((∃ t, reconstruct H pk c s rHat ch label = .ok t) ↔ s.length ≤ c.e.length ∧ s.length ≤ pk.y1.length) := by
  obtain ⟨gU, k⟩ := hk.ok
  have hN := k.hN
  have : NeZero ((p * q) * (p * q)) := neZero_of hN
  have hN' : (1 : Int) < (((p * q) * (p * q) : Nat) : Int) := by exact_mod_cast hN
  have hg : Rep pk.group.g gU := by rw [k.g_eq]; exact rep_val gU
  have hch2 : 0 ≤ lshift1 ch := by unfold lshift1; omega
  have hm : ∀ a b : Int, modMul a b (((p * q) * (p * q) : Nat) : Int) = .ok (a * b % (((p * q) * (p * q) : Nat) : Int)) := by
    intro a b; unfold modMul; rw [modulus_eq_emod _ _ (by omega)]
  have hylen : pk.y1.length = sk.x1.length := by rw [k.y1, List.length_map]
  by_cases hl : s.length ≤ sk.x1.length
  · obtain ⟨h1, h2⟩ := reconE_cases k (lshift1 ch) (lshift1 rHat) hch2 s c.e sk.x1 hl
    by_cases hc : s.length ≤ c.e.length
    · obtain ⟨es, he, -⟩ := h2 hc
      have hok : ∃ t, reconstruct H pk c s rHat ch label = .ok t := by
        unfold reconstruct
        rw [if_neg (by omega), k.y1, he]
        generalize H (hashInput c.u c.e label) = hash
        have hy : gU ^ sk.x2 * (gU ^ sk.x3) ^ hash = gU ^ (hash * sk.x3 + sk.x2) := by
          rw [← zpow_mul, ← zpow_add]; congr 1; ring
        simp only [Group.exp, k.mod, k.y2, k.y3, modExp_eq c.u _ _ hch2 hN', modExp_eq c.v _ _ hch2 hN', hg.modExp hN, Res.ok_bind,
          (rep_val (gU ^ sk.x3)).modExp hN, (rep_val (gU ^ sk.x2)).modMul (rep_val ((gU ^ sk.x3) ^ hash)), hy,
          (rep_val (gU ^ (hash * sk.x3 + sk.x2))).modExp hN, Res.pure_eq]
        simp only [hm, Res.ok_bind]
        exact ⟨_, rfl⟩
      obtain ⟨t, ht⟩ := hok
      constructor
      · rw [ht]; constructor
        · intro h; cases h
        · omega
      · rw [hylen]; exact ⟨fun _ => ⟨hc, hl⟩, fun _ => ⟨t, ht⟩⟩
    · have hp : reconstruct H pk c s rHat ch label = .panic := by
        unfold reconstruct
        rw [if_neg (by omega), k.y1, h1 (by omega)]
        simp only [Group.exp, k.mod, modExp_eq c.u _ _ hch2 hN', hg.modExp hN, Res.ok_bind, hm, Res.panic_bind]
      constructor
      · rw [hp, hylen]; exact ⟨fun _ => ⟨by omega, hl⟩, fun _ => rfl⟩
      · rw [hp]; constructor
        · rintro ⟨t, ht⟩; cases ht
        · omega
  · have he : reconstruct H pk c s rHat ch label = .err "number of messages is more than supported by public key" := by
      unfold reconstruct
      rw [if_pos (by omega)]
    rw [he, hylen]
    constructor
    · constructor
      · intro h; cases h
      · omega
    · constructor
      · rintro ⟨t, ht⟩; cases ht
      · omega

/-! ## What a response gives away -/

/-- **C107, negation** The response is not masked: the commitment's exponent is from the same range (a quarter of `n`) as the random value of the ciphertext, so that whoever sees the response
knows the random value up to fewer than `n / (4 * challenge)` further candidates. -/
theorem response_locates (pk : PubKey) (r rT ch rHat : Int) (hr : 0 ≤ r * ch) (hr' : r * ch < pk.group.modulus)
    (h : provePhase2 pk r rT ch = .ok rHat) (h0 : 0 ≤ rT) (h1 : rT < pk.group.nBy4) : -rHat ≤ r * ch ∧ r * ch < -rHat + pk.group.nBy4 := by
  unfold provePhase2 modMul at h
  rw [modulus_eq_emod _ _ (by omega), Int.emod_eq_of_lt hr hr'] at h
  simp only [Res.ok_bind, Res.pure_eq, Res.ok.injEq] at h
  omega

/-- What anyone can do with the public key, the ciphertext, the challenge and the response: divide, and take the keys' powers out. -/
def recover (pk : PubKey) (c : Cipher) (rHat ch : Int) : List Int :=
  (c.e.zip pk.y1).map (fun (e, y) => (e * (match modExp y (rHat / ch) (pk.n * pk.n) with | .ok a => a | _ => 0) % (pk.n * pk.n) - 1) / pk.n)

theorem recover_places (k : KeyOk n pk sk gU) (r : Int) : ∀ (ms xs : List Int), ms.length ≤ xs.length →
    ((encE gU r ms xs).zip (xs.map (fun x => val (gU ^ x)))).map (fun (e, y) => (e * (match modExp y (-r) (pk.n * pk.n) with | .ok a => a | _ => 0) % (pk.n * pk.n) - 1) / pk.n) =
      ms.map (fun m => m % pk.n)
  | [], [], _ => by simp [encE]
  | [], _ :: _, _ => by simp [encE]
  | _ :: _, [], h => by simp at h
  | m :: ms, x :: xs, h => by
    have hN := k.hN
    have : NeZero (n * n) := neZero_of hN
    have hnn : pk.n * pk.n = ((n * n : Nat) : Int) := by rw [k.n_eq]; push_cast; ring
    have ih := recover_places k r ms xs (by simpa using h)
    simp only [encE, List.map_cons, List.zip_cons_cons, List.cons.injEq]
    refine ⟨?_, ih⟩
    have hmul := (rep_val ((gU ^ x) ^ r * hU n ^ m)).modMul (rep_val ((gU ^ x) ^ (-r)))
    unfold modMul at hmul
    rw [modulus_eq_emod _ _ (by omega)] at hmul
    simp only [Res.ok.injEq] at hmul
    rw [hnn, (rep_val (gU ^ x)).modExp hN]
    simp only [hmul]
    rw [show (gU ^ x) ^ r * hU n ^ m * (gU ^ x) ^ (-r) = hU n ^ m by
      rw [zpow_neg, mul_comm ((gU ^ x) ^ r), mul_assoc, mul_inv_cancel, mul_one], val_h n k.hn, k.n_eq]
    have hn0 : (n : Int) ≠ 0 := by have := k.hn; omega
    rw [show 1 + m % (n : Int) * n - 1 = m % (n : Int) * n by ring, Int.mul_ediv_cancel _ hn0]

/-- **C107, negation** For challenges of at least a quarter of `n` (the library's tests draw them below `n`) nothing is hidden: from the public key, the ciphertext, the
challenge and the response, without the private key, everyone computes the messages. -/
theorem response_reveals_messages {p q : Nat} {g' : Int} (hk : HonestKey p q g' pk sk) (r rT ch rHat : Int) (ms : List Int)
    (hl : ms.length ≤ sk.x1.length) (label : Bytes) (c : Cipher) (hc : encrypt H pk r ms label = .ok c) (h0 : 0 ≤ rT) (h1 : rT < pk.group.nBy4)
    (hch : pk.group.nBy4 ≤ ch) (hr : 0 ≤ r * ch) (hr' : r * ch < pk.n * pk.n) (h : provePhase2 pk r rT ch = .ok rHat) :
    recover pk c rHat ch = ms.map (fun m => m % pk.n) := by
  obtain ⟨gU, k⟩ := hk.ok
  have hnn : pk.n * pk.n = (((p * q) * (p * q) : Nat) : Int) := by rw [k.n_eq]; push_cast; ring
  obtain ⟨v, h2, -⟩ := encrypt_ok H k r ms hl label
  rw [hc] at h2
  simp only [Res.ok.injEq] at h2
  subst h2
  have hrh : rHat = rT + (-r) * ch := by
    unfold provePhase2 modMul at h
    rw [k.mod, modulus_eq_emod _ _ (by rw [hnn] at hr'; omega), Int.emod_eq_of_lt hr (by rw [← hnn]; exact hr')] at h
    simp only [Res.ok_bind, Res.pure_eq, Res.ok.injEq] at h
    linarith
  have hdiv : rHat / ch = -r := by
    rw [hrh, Int.add_mul_ediv_right _ _ (by omega), Int.ediv_eq_zero_of_lt h0 (by omega), zero_add]
  unfold recover
  rw [hdiv, k.y1]
  exact recover_places k r ms sk.x1 hl

/-! ## The hypotheses can be met -/

/-- a key of the safe primes 11 and 23 for two messages -/
theorem exists_key : ∃ pk, HonestKey (2 * 5 + 1) (2 * 11 + 1) 2 pk ⟨[3, 4], 5, 6⟩ ∧ pk.n = 253 ∧ pk.y1.length = 2 := by
  obtain ⟨pk, h1, h2, h3⟩ := (keypair_total (p := 11) (q := 23) (by norm_num) (by norm_num) (by norm_num) (by norm_num) 2 (by norm_num) (by decide +kernel)
    [3, 4] 5 6).1 (by simp)
  exact ⟨pk, h1, by rw [h2]; norm_num, h3⟩

/-- messages 7 and 100 are encrypted and come back -/
example : ∃ pk c, encrypt H pk 20 [7, 100] [1, 2] = .ok c ∧ decrypt H [1, 2] c pk ⟨[3, 4], 5, 6⟩ = .ok [7, 100] := by
  obtain ⟨pk, hk, hn, -⟩ := exists_key
  obtain ⟨c, h⟩ := decrypt_encrypt_range H hk 20 [7, 100] (by simp) (by rw [hn]; simp) [1, 2]
  exact ⟨pk, c, h⟩

/-- answers of an honest prover to the challenges 1 and 3 -/
example : ∃ pk c t rHat rHat', WellFormed pk c ∧ reconstruct H pk c [30 - 7, 31 - 100] rHat 1 [1, 2] = .ok t ∧
    reconstruct H pk c [30 - 3 * 7, 31 - 3 * 100] rHat' 3 [1, 2] = .ok t ∧
    ∃ ms, decrypt H [1, 2] c pk ⟨[3, 4], 5, 6⟩ = .ok ms ∧ Extracted 253 1 3 ms [30 - 7, 31 - 100] [30 - 3 * 7, 31 - 3 * 100] := by
  obtain ⟨pk, hk, hn, -⟩ := exists_key
  obtain ⟨c, t, x, x', h1, h2, h3, h4, h5⟩ := sound_hypotheses_met H hk 20 17 1 3 [7, 100] [30, 31] [30 - 7, 31 - 100] [30 - 3 * 7, 31 - 3 * 100]
    (by simp) (by norm_num) (by rw [hn]; norm_num) (by norm_num) (by rw [hn]; norm_num) [1, 2]
    ⟨by rw [one_mul], by rw [one_mul], trivial⟩ ⟨Int.ModEq.refl _, Int.ModEq.refl _, trivial⟩
  exact ⟨pk, c, t, x, x', h1, h4, h5, proof_sound H hk (by norm_num) (by norm_num) (by norm_num) c h1 [1, 2] _ _ h2 h3 1 3 x x' (by norm_num)
    (by norm_num) (by norm_num) t h4 h5⟩

/-- the challenge 70 is more than a quarter of 253: the response reveals the messages -/
example : ∃ pk c rHat, encrypt H pk 20 [7, 100] [1, 2] = .ok c ∧ provePhase2 pk 20 17 70 = .ok rHat ∧ recover pk c rHat 70 = [7, 100] := by
  obtain ⟨pk, hk, hn, -⟩ := exists_key
  obtain ⟨gU, k⟩ := hk.ok
  obtain ⟨c, h, -⟩ := decrypt_encrypt H hk 20 [7, 100] (by simp) [1, 2]
  have hq : pk.group.nBy4 = 63 := by rw [k.quarter]; norm_num
  have h2 : provePhase2 pk 20 17 70 = .ok (17 - 20 * 70) := by
    unfold provePhase2 modMul
    rw [k.mod, modulus_eq_emod _ _ (by norm_num)]
    rfl
  refine ⟨pk, c, _, h, h2, ?_⟩
  rw [response_reveals_messages H hk 20 17 70 _ [7, 100] (by simp) [1, 2] c h (by norm_num) (by rw [hq]; norm_num) (by rw [hq]; norm_num) (by norm_num)
    (by rw [hn]; norm_num) h2, hn]
  norm_num

end Verif.CS
