import Verif.Groth.Model
import Verif.Props.PoKVC
import Verif.Toy
import Std.Data.String.ToNat
import Mathlib.LinearAlgebra.Dual.Lemmas
import Mathlib.Algebra.Polynomial.Roots
import Mathlib.Tactic.Module
import Mathlib.Tactic.Abel
/-!
# Groth signatures (properties C87, C88, C89)

Specification: `Valid` — the verification equations, one for the signature as such and one for each message.
-/
namespace Verif.Groth
set_option linter.unusedSectionVars false
set_option linter.unusedSimpArgs false
set_option linter.unusedVariables false

section Generic
variable {F A B GT : Type} [Field F] [AddCommGroup A] [Module F A] [AddCommGroup B] [Module F B]
  [AddCommGroup GT] [Module F GT] [DecidableEq F] [DecidableEq A] [DecidableEq B] [DecidableEq GT]
variable (e : A →ₗ[F] B →ₗ[F] GT)

/-! ## Specification -/

/-- The equations: `e(S,R) = e(y₀,g)·e(g',V)` and `e(Tᵢ,R) = e(mᵢ,g)·e(yᵢ,V)` for every message. -/
structure Valid (s : Sig A B) (ms : List A) (vk : B) (p : Setup A B) : Prop where
  first : ∃ y0, p.y[0]? = some y0 ∧ e s.S s.R = e y0 p.gb + e p.ga vk
  each : ∀ (i : Nat) (m : A), ms[i]? = some m → ∃ y t, p.y[i]? = some y ∧ s.T[i]? = some t ∧ e t s.R = e m p.gb + e y vk

/-! ## Plain verification -/

theorem verifyLoop_true_iff (p : Setup A B) (vk R : B) : ∀ (ms ys ts : List A),
    verifyLoop e p vk R ms ys ts = .ok true ↔
      ∀ (i : Nat) (m : A), ms[i]? = some m → ∃ y t, ys[i]? = some y ∧ ts[i]? = some t ∧ e t R = e m p.gb + e y vk
  | [], ys, ts => by simp [verifyLoop]
  | m :: ms, [], ts => by
    simp only [verifyLoop, List.getElem?_nil]
    constructor
    · intro h; cases h
    · intro h; obtain ⟨y, t, hy, -⟩ := h 0 m (by simp); cases hy
  | m :: ms, y :: ys, [] => by
    simp only [verifyLoop, List.getElem?_nil]
    constructor
    · intro h; cases h
    · intro h; obtain ⟨y, t, -, ht, -⟩ := h 0 m (by simp); cases ht
  | m :: ms, y :: ys, t :: ts => by
    simp only [verifyLoop]
    by_cases hE : e m p.gb + e y vk + e t (-R) = 0
    · rw [if_pos hE, verifyLoop_true_iff p vk R ms ys ts]
      constructor
      · intro h i m' hi
        cases i with
        | zero =>
          refine ⟨y, t, by simp, by simp, ?_⟩
          obtain rfl : m = m' := by simpa using hi
          rw [map_neg] at hE
          exact (sub_eq_zero.mp (by rw [← hE]; abel) : e m p.gb + e y vk = e t R).symm
        | succ i => simpa using h i m' (by simpa using hi)
      · intro h i m' hi
        simpa using h (i + 1) m' (by simpa using hi)
    · rw [if_neg hE]
      constructor
      · intro h; cases h
      · intro h
        obtain ⟨y', t', hy, ht, hh⟩ := h 0 m (by simp)
        obtain rfl : y = y' := by simpa using hy
        obtain rfl : t = t' := by simpa using ht
        exact absurd (by rw [map_neg, hh]; abel) hE

/-- **C87** `verify` answers yes exactly if there are at most as many messages as the parameters allow and all the equations hold. -/
theorem groth_verify_true_iff (s : Sig A B) (ms : List A) (vk : B) (p : Setup A B) :
    s.verify e ms vk p = .ok true ↔ ms.length ≤ p.y.length ∧ Valid e s ms vk p := by
  unfold Sig.verify
  by_cases hl : ms.length > p.y.length
  · rw [if_pos hl]
    constructor
    · intro h; cases h
    · rintro ⟨h, -⟩; omega
  rw [if_neg hl]
  have hl' : ms.length ≤ p.y.length := by omega
  cases hy : p.y with
  | nil =>
    constructor
    · intro h; simp at h
    · rintro ⟨-, hv⟩
      obtain ⟨y0, h0, -⟩ := hv.first
      rw [hy] at h0; cases h0
  | cons y0 ys =>
    rw [List.head?_cons, Res.unwrap_some, Res.ok_bind, ← hy]
    by_cases hE : e y0 p.gb + e p.ga vk + e (-s.S) s.R = 0
    · rw [if_pos hE, verifyLoop_true_iff]
      constructor
      · intro h
        refine ⟨hl', ⟨y0, by rw [hy]; rfl, ?_⟩, h⟩
        rw [map_neg, LinearMap.neg_apply] at hE
        exact (sub_eq_zero.mp (by rw [← hE]; abel) : e y0 p.gb + e p.ga vk = e s.S s.R).symm
      · rintro ⟨-, hv⟩; exact hv.each
    · rw [if_neg hE]
      constructor
      · intro h; cases h
      · rintro ⟨-, hv⟩
        obtain ⟨y', h0, hh⟩ := hv.first
        rw [hy] at h0
        obtain rfl : y0 = y' := by simpa using h0
        exact absurd (by rw [map_neg, LinearMap.neg_apply, hh]; abel) hE

/-- **C87** Too many messages is an error, in signing and in verifying. -/
theorem groth_too_many (s : Sig A B) (ms : List A) (vk : B) (p : Setup A B) (sk r : F) (h : p.y.length < ms.length) :
    s.verify e ms vk p = .err (.unsupportedNoOfMessages p.y.length ms.length) ∧
    sign ms sk p r = .err (.unsupportedNoOfMessages p.y.length ms.length) := by
  simp [Sig.verify, sign, h]

/-- what a signature is: `R = r·g`, `S = (y₀ + sk·g')/r`, `Tᵢ = (mᵢ + sk·yᵢ)/r` -/
theorem groth_sign_ok (ms : List A) (sk : F) (p : Setup A B) (r : F) (hl : ms.length ≤ p.y.length) (hy : p.y ≠ []) :
    ∃ s y0, sign ms sk p r = .ok s ∧ p.y[0]? = some y0 ∧ s.R = r • p.gb ∧ s.S = r⁻¹ • (y0 + sk • p.ga) ∧
      s.T.length = ms.length ∧
      ∀ (i : Nat) (m y : A), ms[i]? = some m → p.y[i]? = some y → s.T[i]? = some (r⁻¹ • (m + sk • y)) := by
  cases hp : p.y with
  | nil => exact absurd hp hy
  | cons y0 ys =>
    rw [hp] at hl
    refine ⟨_, y0, by unfold sign; rw [hp, if_neg (by omega)]; rfl, rfl, rfl, rfl, ?_, ?_⟩
    · simpa using hl
    · intro i m y hm hyi
      simp [List.getElem?_zipWith, hm, hyi]

/-- **C87, completeness** A signature made with any non-zero random value verifies under the signer's key. -/
theorem groth_sign_verify (ms : List A) (sk : F) (p : Setup A B) (r : F) (hr : r ≠ 0) (hl : ms.length ≤ p.y.length)
    (hy : p.y ≠ []) :
    ∃ s, sign ms (keygen p sk).1 p r = .ok s ∧ s.verify e ms (keygen p sk).2 p = .ok true := by
  obtain ⟨s, y0, hs, h0, hR, hS, hT, hTi⟩ := groth_sign_ok ms sk p r hl hy
  refine ⟨s, hs, (groth_verify_true_iff e s ms _ p).2 ⟨hl, ⟨y0, h0, ?_⟩, ?_⟩⟩
  · rw [hR, hS]
    simp only [keygen, map_smul, LinearMap.smul_apply, map_add, LinearMap.add_apply, smul_smul, smul_add]
    rw [mul_inv_cancel₀ hr, ← mul_assoc, mul_inv_cancel₀ hr, one_smul, one_mul]
  · intro i m hm
    have hi : i < p.y.length := lt_of_lt_of_le (List.getElem?_eq_some_iff.mp hm).1 hl
    refine ⟨p.y[i], _, by simp, hTi i m p.y[i] hm (by simp), ?_⟩
    rw [hR]
    simp only [keygen, map_smul, LinearMap.smul_apply, map_add, LinearMap.add_apply, smul_smul, smul_add]
    rw [mul_inv_cancel₀ hr, ← mul_assoc, mul_inv_cancel₀ hr, one_smul, one_mul]

theorem valid_randomize {s : Sig A B} {ms : List A} {vk : B} {p : Setup A B} (r : F) (hr : r ≠ 0) (h : Valid e s ms vk p) :
    Valid e (randomize s r) ms vk p := by
  refine ⟨?_, ?_⟩
  · obtain ⟨y0, h0, hh⟩ := h.first
    refine ⟨y0, h0, ?_⟩
    simp only [randomize, map_smul, LinearMap.smul_apply, smul_smul]
    rw [mul_inv_cancel₀ hr, one_smul, hh]
  · intro i m hm
    obtain ⟨y, t, hy, ht, hh⟩ := h.each i m hm
    refine ⟨y, r⁻¹ • t, hy, by simp [randomize, ht], ?_⟩
    simp only [randomize, map_smul, LinearMap.smul_apply, smul_smul]
    rw [mul_inv_cancel₀ hr, one_smul, hh]

theorem randomize_randomize (s : Sig A B) (r r' : F) : randomize (randomize s r) r' = randomize s (r * r') := by
  simp only [randomize, List.map_map, Sig.mk.injEq, smul_smul, mul_inv_rev, Function.comp_def, mul_comm r', true_and]

theorem randomize_one (s : Sig A B) : randomize s (1 : F) = s := by
  simp [randomize]

/-- **C87, randomisation** Randomising with any non-zero value changes neither way what verification answers: the randomised
signature is accepted exactly for the messages and the key for which the original is. -/
theorem groth_randomize_verify (s : Sig A B) (ms : List A) (vk : B) (p : Setup A B) (r : F) (hr : r ≠ 0) :
    (randomize s r).verify e ms vk p = .ok true ↔ s.verify e ms vk p = .ok true := by
  rw [groth_verify_true_iff, groth_verify_true_iff]
  refine and_congr_right fun _ => ⟨fun h => ?_, valid_randomize e r hr⟩
  have := valid_randomize e r⁻¹ (inv_ne_zero hr) h
  rwa [randomize_randomize, mul_inv_cancel₀ hr, randomize_one] at this

/-- **C87, unlinkability** Any two signatures made with one key on one list of messages are randomisations of each other, whatever
the random values they were made with: a randomised signature says nothing about which one it came from. -/
theorem groth_randomize_reaches (ms : List A) (sk : F) (p : Setup A B) (r r' : F) (hr : r ≠ 0) (hr' : r' ≠ 0) (s s' : Sig A B)
    (h : sign ms sk p r = .ok s) (h' : sign ms sk p r' = .ok s') : s' = randomize s (r' * r⁻¹) := by
  unfold sign at h h'
  split at h
  · cases h
  rename_i hl
  rw [if_neg hl] at h'
  cases hy : p.y with
  | nil => rw [hy] at h; simp at h
  | cons y0 ys =>
    rw [hy] at h h'
    simp only [List.head?_cons, Res.unwrap_some, Res.ok_bind, Res.pure_eq, Res.ok.injEq] at h h'
    subst h h'
    simp only [randomize, Sig.mk.injEq, List.map_map, smul_smul, Function.comp_def]
    have e1 : r' * r⁻¹ * r = r' := by rw [mul_assoc, inv_mul_cancel₀ hr, mul_one]
    have e2 : (r' * r⁻¹)⁻¹ * r⁻¹ = r'⁻¹ := by
      rw [mul_inv_rev, inv_inv, mul_comm r, mul_assoc, mul_inv_cancel₀ hr, mul_one]
    rw [e1, e2]
    exact ⟨rfl, rfl, rfl⟩

/-! ## C88: which messages a signature is good for -/

/-- **C88, refuted as stated** A signature accepted for a list of messages is accepted for every prefix of it, down to the empty list,
by `verify`: the number of messages is not bound by the signature. -/
theorem groth_prefix_accepted (s : Sig A B) (ms : List A) (vk : B) (p : Setup A B) (h : s.verify e ms vk p = .ok true) (k : Nat) :
    s.verify e (ms.take k) vk p = .ok true := by
  rw [groth_verify_true_iff] at h ⊢
  refine ⟨le_trans (by simp) h.1, h.2.first, fun i m hm => h.2.each i m ?_⟩
  rw [List.getElem?_take] at hm
  split at hm
  · exact hm
  · cases hm

/-- **C88, what does hold** If the generator of the key group pairs to zero with nothing but zero, two lists of the same length
accepted for one signature and key are the same list. -/
theorem groth_same_length_unique (s : Sig A B) (ms ms' : List A) (vk : B) (p : Setup A B) (hg : ∀ a, e a p.gb = 0 → a = 0)
    (hl : ms.length = ms'.length) (h : s.verify e ms vk p = .ok true) (h' : s.verify e ms' vk p = .ok true) : ms = ms' := by
  rw [groth_verify_true_iff] at h h'
  apply List.ext_getElem? 
  intro i
  by_cases hi : i < ms.length
  · obtain ⟨y, t, hy, ht, hh⟩ := h.2.each i ms[i] (by simp)
    obtain ⟨y', t', hy', ht', hh'⟩ := h'.2.each i (ms'[i]'(by omega)) (by simp)
    rw [hy] at hy'; rw [ht] at ht'
    obtain rfl : y = y' := by simpa using hy'
    obtain rfl : t = t' := by simpa using ht'
    have : ms[i] = ms'[i]'(by omega) := by
      refine sub_eq_zero.mp (hg _ ?_)
      rw [map_sub, LinearMap.sub_apply, sub_eq_zero]
      exact add_right_cancel (hh.symm.trans hh')
    rw [List.getElem?_eq_getElem hi, List.getElem?_eq_getElem (by omega), this]
  · rw [List.getElem?_eq_none (by omega), List.getElem?_eq_none (by omega)]

/-! ## Signing-key proofs and parameters -/

/-- **C87** The proof of knowledge of the signing key is accepted for the key of the signer, for every blinding and challenge. -/
theorem groth_sigkey_proof_complete (p : Setup A B) (sk b c : F) :
    ∃ pf, finishSigkeyProof (initSigkeyProof p b) (keygen p sk).1 c = .ok pf ∧
      verifySigkeyProof pf (keygen p sk).2 p c = .ok true := by
  obtain ⟨pf, h1, h2⟩ := (PoK.pok_complete [(p.gb, b)] [sk] c).1 rfl
  have hc : (PoK.commitAll [(p.gb, b)]).finish = initSigkeyProof p b := rfl
  rw [hc] at h1
  refine ⟨pf, by simp [finishSigkeyProof, keygen, h1], ?_⟩
  have hm : PoK.msm [p.gb] [sk] = (keygen p sk).2 := by simp [PoK.msm, keygen]
  simp only [List.map_cons, List.map_nil, hm] at h2
  simp [verifySigkeyProof, h2]

/-- **C87** Two accepted proofs with the same first message and different challenges give the signing key. -/
theorem groth_sigkey_proof_sound (p : Setup A B) (vk : B) (pf pf' : PoK.Proof F B) (c c' : F) (hT : pf.commitment = pf'.commitment)
    (hc : c ≠ c') (h : verifySigkeyProof pf vk p c = .ok true) (h' : verifySigkeyProof pf' vk p c' = .ok true) :
    ∃ sk : F, vk = sk • p.gb := by
  have g1 : pf.verify [p.gb] vk c = .ok true := by
    unfold verifySigkeyProof at h
    cases hv : pf.verify [p.gb] vk c <;> rw [hv] at h <;> simp_all
  have g2 : pf'.verify [p.gb] vk c' = .ok true := by
    unfold verifySigkeyProof at h'
    cases hv : pf'.verify [p.gb] vk c' <;> rw [hv] at h' <;> simp_all
  have := PoK.pok_sound pf pf' [p.gb] vk c c' hT hc g1 g2
  obtain ⟨hl, hm⟩ := this
  generalize List.zipWith (fun r r' => (c' - c)⁻¹ * (r - r')) pf.responses pf'.responses = w at hl hm
  match w, hl, hm with
  | [x], _, hm => exact ⟨x, by rw [← hm]; simp [PoK.msm]⟩

end Generic

/-! ## C89: batch verification

`combine r [d₀, d₁, …] = d₀ + r·d₁ + r²·d₂ + …`; the `dᵢ` are the differences of the two sides of the equations of `verify`. -/

section Combine
variable {F M : Type} [Field F] [AddCommGroup M] [Module F M]

/-- `d₀ + r·d₁ + r²·d₂ + …` -/
def combine (r : F) : List M → M
  | [] => 0
  | d :: ds => d + r • combine r ds

theorem combine_zeros (r : F) : ∀ (ds : List M), (∀ d ∈ ds, d = 0) → combine r ds = 0
  | [], _ => rfl
  | d :: ds, h => by
    rw [combine, h d (by simp), combine_zeros r ds (fun x hx => h x (by simp [hx]))]
    simp

/-- the polynomial with the given coefficients -/
noncomputable def polyOf : List F → Polynomial F
  | [] => 0
  | c :: cs => Polynomial.C c + Polynomial.X * polyOf cs

theorem polyOf_natDegree : ∀ (cs : List F), cs ≠ [] → (polyOf cs).natDegree < cs.length
  | [], h => absurd rfl h
  | [c], _ => by simp [polyOf]
  | c :: c' :: cs, _ => by
    have ih := polyOf_natDegree (c' :: cs) (by simp)
    rw [polyOf]
    refine lt_of_le_of_lt (Polynomial.natDegree_add_le _ _) ?_
    rw [Polynomial.natDegree_C, max_eq_right (Nat.zero_le _)]
    refine lt_of_le_of_lt (Polynomial.natDegree_mul_le) ?_
    rw [Polynomial.natDegree_X]
    simp only [List.length_cons] at ih ⊢
    omega

theorem polyOf_zero : ∀ (cs : List F), polyOf cs = 0 → ∀ c ∈ cs, c = 0
  | [], _ => by simp
  | c :: cs, h => by
    rw [polyOf] at h
    have h0 : c = 0 := by
      have := congrArg (fun q => Polynomial.coeff q 0) h
      simpa using this
    subst h0
    rw [map_zero, zero_add] at h
    have h1 := (mul_eq_zero.mp h).resolve_left Polynomial.X_ne_zero
    intro x hx
    rcases List.mem_cons.mp hx with rfl | hx
    · rfl
    · exact polyOf_zero cs h1 x hx

theorem combine_dual (φ : Module.Dual F M) (r : F) : ∀ (ds : List M), φ (combine r ds) = (polyOf (ds.map φ)).eval r
  | [] => by simp [combine, polyOf]
  | d :: ds => by
    simp [combine, polyOf, combine_dual φ r ds]

/-- a combination that vanishes for as many values as it has terms vanishes term by term -/
theorem combine_all_zero (ds : List M) (rs : List F) (hnd : rs.Nodup) (hlen : ds.length ≤ rs.length)
    (h : ∀ r ∈ rs, combine r ds = 0) : ∀ d ∈ ds, d = 0 := by
  intro d hd
  rw [← Module.forall_dual_apply_eq_zero_iff F d]
  intro φ
  have hne : ds.map φ ≠ [] := by
    intro h0
    rw [List.map_eq_nil_iff] at h0
    rw [h0] at hd; cases hd
  have hp : polyOf (ds.map φ) = 0 := by
    classical
    refine Polynomial.eq_zero_of_natDegree_lt_card_of_eval_eq_zero' _ rs.toFinset ?_ ?_
    · intro r hr
      rw [← combine_dual, h r (by simpa using hr), map_zero]
    · rw [List.toFinset_card_of_nodup hnd]
      have := polyOf_natDegree (ds.map φ) hne
      rw [List.length_map] at this
      omega
  exact polyOf_zero _ hp _ (List.mem_map_of_mem hd)

end Combine

section Batch
variable {F G1 G2 GT : Type} [Field F] [AddCommGroup G1] [Module F G1] [AddCommGroup G2] [Module F G2]
  [AddCommGroup GT] [Module F GT] [DecidableEq F] [DecidableEq G1] [DecidableEq G2] [DecidableEq GT]

/-- the differences `e(mᵢ,g)·e(yᵢ,V)/e(Tᵢ,R)`, one for each message -/
def defects {A B : Type} [AddCommGroup A] [Module F A] [AddCommGroup B] [Module F B] (e : A →ₗ[F] B →ₗ[F] GT) (gb vk R : B) :
    List A → List A → List A → List GT
  | m :: ms, y :: ys, t :: ts => (e m gb + e y vk - e t R) :: defects e gb vk R ms ys ts
  | _, _, _ => []

/-- the differences of all the equations of `verify`, the one without a message first -/
def allDefects {A B : Type} [AddCommGroup A] [Module F A] [AddCommGroup B] [Module F B] (e : A →ₗ[F] B →ₗ[F] GT) (s : Sig A B)
    (ms : List A) (vk : B) (p : Setup A B) : List GT :=
  (e (p.y.headD 0) p.gb + e p.ga vk - e s.S s.R) :: defects e p.gb vk s.R ms p.y s.T

variable (e : G1 →ₗ[F] G2 →ₗ[F] GT)

theorem multiPairing_append (l l' : List (G1 × G2)) : multiPairing e (l ++ l') = multiPairing e l + multiPairing e l' := by
  simp [multiPairing]

theorem multiPairing_cons (q : G1 × G2) (l : List (G1 × G2)) : multiPairing e (q :: l) = e q.1 q.2 + multiPairing e l := by
  simp [multiPairing]

theorem vandermonde_get (r : F) (n k : Nat) (h : k < n) : (vandermonde r n)[k]? = some (r ^ k) := by
  simp [vandermonde, h]

theorem prep1Loop_ok (g2 vk R : G2) (r : F) (n : Nat) : ∀ (k : Nat) (ms ys ts : List G1), k + ms.length ≤ n →
    ms.length ≤ ys.length → ms.length ≤ ts.length →
    ∃ l, prep1Loop g2 vk R (vandermonde r n) k ms ys ts = .ok l ∧
      multiPairing e l = r ^ k • combine r (defects e g2 vk R ms ys ts)
  | k, [], ys, ts, _, _, _ => ⟨[], rfl, by simp [multiPairing, defects, combine]⟩
  | k, m :: ms, [], ts, _, h, _ => by simp at h
  | k, m :: ms, y :: ys, [], _, _, h => by simp at h
  | k, m :: ms, y :: ys, t :: ts, hn, hy, ht => by
    simp only [List.length_cons] at hn hy ht
    obtain ⟨l, hl, hs⟩ := prep1Loop_ok g2 vk R r n (k + 1) ms ys ts (by omega) (by omega) (by omega)
    refine ⟨(r ^ k • m, g2) :: (r ^ k • y, vk) :: (r ^ k • t, -R) :: l, ?_, ?_⟩
    · simp only [prep1Loop, vandermonde_get r n k (by omega), List.head?_cons, List.tail_cons, Res.unwrap_some, Res.ok_bind, hl,
        Res.pure_eq]
    · simp only [multiPairing_cons, hs, defects, combine, map_neg, map_smul, LinearMap.smul_apply, pow_succ]
      module

theorem prep2Loop_ok (g1 vk R : G1) (r : F) (n : Nat) : ∀ (k : Nat) (ms ys ts : List G2), k + ms.length ≤ n →
    ms.length ≤ ys.length → ms.length ≤ ts.length →
    ∃ l, prep2Loop g1 vk R (vandermonde r n) k ms ys ts = .ok l ∧
      multiPairing e l = r ^ k • combine r (defects e.flip g1 vk R ms ys ts)
  | k, [], ys, ts, _, _, _ => ⟨[], rfl, by simp [multiPairing, defects, combine]⟩
  | k, m :: ms, [], ts, _, h, _ => by simp at h
  | k, m :: ms, y :: ys, [], _, _, h => by simp at h
  | k, m :: ms, y :: ys, t :: ts, hn, hy, ht => by
    simp only [List.length_cons] at hn hy ht
    obtain ⟨l, hl, hs⟩ := prep2Loop_ok g1 vk R r n (k + 1) ms ys ts (by omega) (by omega) (by omega)
    refine ⟨(r ^ k • g1, m) :: (r ^ k • vk, y) :: (r ^ k • -R, t) :: l, ?_, ?_⟩
    · simp only [prep2Loop, vandermonde_get r n k (by omega), List.head?_cons, List.tail_cons, Res.unwrap_some, Res.ok_bind, hl,
        Res.pure_eq]
    · simp only [multiPairing_cons, hs, defects, combine, map_neg, LinearMap.neg_apply, map_smul, LinearMap.smul_apply, pow_succ,
        LinearMap.flip_apply]
      module

theorem firstFactor_ok (r : F) (n off : Nat) (h : off < n) : firstFactor (vandermonde r n) off = .ok (r ^ off) := by
  unfold firstFactor
  by_cases h0 : off = 0
  · subst h0; simp
  · rw [if_neg h0, vandermonde_get r n off h]; rfl

/-- the pairs contributed by a link of the first scheme: its equations, combined with the powers of `r` from `off` on -/
theorem prepare1_ok (r : F) (n off : Nat) (s : Sig G1 G2) (ms : List G1) (vk : G2) (p : Setup G1 G2) (hy0 : p.y ≠ [])
    (hn : off + ms.length + 1 ≤ n) (hy : ms.length ≤ p.y.length) (ht : ms.length ≤ s.T.length) :
    ∃ l, prepare1 (vandermonde r n) off s ms vk p = .ok l ∧
      multiPairing e l = r ^ off • combine r (allDefects e s ms vk p) := by
  cases hp : p.y with
  | nil => exact absurd hp hy0
  | cons y0 ys =>
    obtain ⟨l, hl, hs⟩ := prep1Loop_ok e p.gb vk s.R r n (off + 1) ms p.y s.T (by omega) hy ht
    refine ⟨(r ^ off • y0, p.gb) :: (r ^ off • p.ga, vk) :: (r ^ off • -s.S, s.R) :: l, ?_, ?_⟩
    · unfold prepare1
      rw [hl, hp]
      simp only [List.head?_cons, Res.unwrap_some, Res.ok_bind, firstFactor_ok r n off (by omega), Res.pure_eq]
    · simp only [multiPairing_cons, hs, allDefects, hp, List.headD_cons, combine, map_neg, LinearMap.neg_apply, map_smul,
        LinearMap.smul_apply, pow_succ]
      module

/-- the pairs contributed by a link of the second scheme: only the first equation is multiplied with `r ^ off`, the others always
with the powers from 1 on -/
theorem prepare2_ok (r : F) (n off : Nat) (s : Sig G2 G1) (ms : List G2) (vk : G1) (p : Setup G2 G1) (hy0 : p.y ≠ [])
    (hn : off + ms.length + 1 ≤ n) (hy : ms.length ≤ p.y.length) (ht : ms.length ≤ s.T.length) :
    ∃ l, prepare2 (vandermonde r n) off s ms vk p = .ok l ∧
      multiPairing e l = r ^ off • (e.flip (p.y.headD 0) p.gb + e.flip p.ga vk - e.flip s.S s.R) +
        r • combine r (defects e.flip p.gb vk s.R ms p.y s.T) := by
  cases hp : p.y with
  | nil => exact absurd hp hy0
  | cons y0 ys =>
    obtain ⟨l, hl, hs⟩ := prep2Loop_ok e p.gb vk s.R r n 1 ms p.y s.T (by omega) hy ht
    refine ⟨(r ^ off • p.gb, y0) :: (r ^ off • vk, p.ga) :: (r ^ off • -s.R, s.S) :: l, ?_, ?_⟩
    · unfold prepare2
      rw [hl, hp]
      simp only [List.head?_cons, Res.unwrap_some, Res.ok_bind, firstFactor_ok r n off (by omega), Res.pure_eq]
    · rw [← hp]
      simp only [multiPairing_cons, hs, hp, List.headD_cons, map_neg, LinearMap.neg_apply, map_smul, LinearMap.smul_apply, pow_one,
        LinearMap.flip_apply]
      module

theorem prep1Loop_panic (g2 vk R : G2) (rv : List F) : ∀ (k : Nat) (ms ys ts : List G1), ts.length < ms.length →
    prep1Loop g2 vk R rv k ms ys ts = .panic
  | k, [], ys, ts, h => by simp at h
  | k, m :: ms, ys, [], h => by
    simp only [prep1Loop, List.head?_nil, Res.unwrap_none]
    cases rv[k]? <;> cases ys.head? <;> rfl
  | k, m :: ms, ys, t :: ts, h => by
    simp only [prep1Loop, List.head?_cons, Res.unwrap_some, List.tail_cons]
    rw [prep1Loop_panic g2 vk R rv (k + 1) ms ys.tail ts (by simpa using h)]
    cases rv[k]? <;> cases ys.head? <;> rfl

theorem prep2Loop_panic (g1 vk R : G1) (rv : List F) : ∀ (k : Nat) (ms ys ts : List G2), ts.length < ms.length →
    prep2Loop g1 vk R rv k ms ys ts = .panic
  | k, [], ys, ts, h => by simp at h
  | k, m :: ms, ys, [], h => by
    simp only [prep2Loop, List.head?_nil, Res.unwrap_none]
    cases rv[k]? <;> cases ys.head? <;> rfl
  | k, m :: ms, ys, t :: ts, h => by
    simp only [prep2Loop, List.head?_cons, Res.unwrap_some, List.tail_cons]
    rw [prep2Loop_panic g1 vk R rv (k + 1) ms ys.tail ts (by simpa using h)]
    cases rv[k]? <;> cases ys.head? <;> rfl

/-- `verify_batch` of `Groth1`, on every input -/
theorem batch1_eq (r : F) (s : Sig G1 G2) (ms : List G1) (vk : G2) (p : Setup G1 G2) :
    verifyBatch1 e r s ms vk p =
      if p.y.length < ms.length then .err (.unsupportedNoOfMessages p.y.length ms.length)
      else if p.y = [] ∨ s.T.length < ms.length then .panic
      else .ok (decide (combine r (allDefects e s ms vk p) = 0)) := by
  unfold verifyBatch1
  by_cases h1 : p.y.length < ms.length
  · rw [if_pos h1, if_pos h1]
  rw [if_neg h1, if_neg h1]
  by_cases h2 : p.y = [] ∨ s.T.length < ms.length
  · rw [if_pos h2]
    unfold prepare1
    rcases h2 with h2 | h2
    · rw [h2]; rfl
    · cases hp : p.y with
      | nil => rfl
      | cons y0 ys =>
        rw [prep1Loop_panic _ _ _ _ _ _ _ _ h2]
        simp [firstFactor]
  · rw [if_neg h2]
    simp only [not_or, not_lt] at h2
    obtain ⟨l, hl, hs⟩ := prepare1_ok e r (ms.length + 1) 0 s ms vk p h2.1 (by omega) (by omega) h2.2
    rw [hl, Res.ok_bind, hs]
    simp

/-- `verify_batch` of `Groth2`, on every input: the same as that of `Groth1` with the roles of the groups exchanged -/
theorem batch2_eq (r : F) (s : Sig G2 G1) (ms : List G2) (vk : G1) (p : Setup G2 G1) :
    verifyBatch2 e r s ms vk p = verifyBatch1 e.flip r s ms vk p := by
  rw [batch1_eq]
  unfold verifyBatch2
  by_cases h1 : p.y.length < ms.length
  · rw [if_pos h1, if_pos h1]
  rw [if_neg h1, if_neg h1]
  by_cases h2 : p.y = [] ∨ s.T.length < ms.length
  · rw [if_pos h2]
    unfold prepare2
    rcases h2 with h2 | h2
    · rw [h2]; rfl
    · cases hp : p.y with
      | nil => rfl
      | cons y0 ys =>
        rw [prep2Loop_panic _ _ _ _ _ _ _ _ h2]
        simp [firstFactor]
  · rw [if_neg h2]
    simp only [not_or, not_lt] at h2
    obtain ⟨l, hl, hs⟩ := prepare2_ok e r (ms.length + 1) 0 s ms vk p h2.1 (by omega) (by omega) h2.2
    rw [hl, Res.ok_bind, hs]
    simp [allDefects, combine]

theorem defects_zero_iff {A B : Type} [AddCommGroup A] [Module F A] [AddCommGroup B] [Module F B] (e : A →ₗ[F] B →ₗ[F] GT)
    (gb vk R : B) : ∀ (ms ys ts : List A), ms.length ≤ ys.length → ms.length ≤ ts.length →
    ((∀ d ∈ defects e gb vk R ms ys ts, d = 0) ↔
      ∀ (i : Nat) (m : A), ms[i]? = some m → ∃ y t, ys[i]? = some y ∧ ts[i]? = some t ∧ e t R = e m gb + e y vk)
  | [], ys, ts, _, _ => by simp [defects]
  | m :: ms, [], ts, h, _ => by simp at h
  | m :: ms, y :: ys, [], _, h => by simp at h
  | m :: ms, y :: ys, t :: ts, hy, ht => by
    have ih := defects_zero_iff e gb vk R ms ys ts (by simpa using hy) (by simpa using ht)
    simp only [defects, List.forall_mem_cons, ih, sub_eq_zero]
    constructor
    · rintro ⟨h0, h⟩ i m' hi
      cases i with
      | zero =>
        obtain rfl : m = m' := by simpa using hi
        exact ⟨y, t, by simp, by simp, h0.symm⟩
      | succ i => simpa using h i m' (by simpa using hi)
    · intro h
      refine ⟨?_, fun i m' hi => by simpa using h (i + 1) m' (by simpa using hi)⟩
      obtain ⟨y', t', hy', ht', hh⟩ := h 0 m (by simp)
      obtain rfl : y = y' := by simpa using hy'
      obtain rfl : t = t' := by simpa using ht'
      exact hh.symm

theorem valid_T_length {A B : Type} [AddCommGroup A] [Module F A] [AddCommGroup B] [Module F B] {e : A →ₗ[F] B →ₗ[F] GT}
    {s : Sig A B} {ms : List A} {vk : B} {p : Setup A B} (h : Valid e s ms vk p) : ms.length ≤ s.T.length := by
  by_contra hne
  obtain ⟨y, t, -, ht, -⟩ := h.each s.T.length (ms[s.T.length]'(by omega)) (by simp)
  simp at ht

theorem allDefects_zero_iff {A B : Type} [AddCommGroup A] [Module F A] [AddCommGroup B] [Module F B] (e : A →ₗ[F] B →ₗ[F] GT)
    (s : Sig A B) (ms : List A) (vk : B) (p : Setup A B) (hy0 : p.y ≠ []) (hy : ms.length ≤ p.y.length)
    (ht : ms.length ≤ s.T.length) :
    (∀ d ∈ allDefects e s ms vk p, d = 0) ↔ Valid e s ms vk p := by
  unfold allDefects
  rw [List.forall_mem_cons, defects_zero_iff e _ _ _ _ _ _ hy ht, sub_eq_zero]
  constructor
  · rintro ⟨h0, h⟩
    refine ⟨⟨p.y.headD 0, ?_, h0.symm⟩, h⟩
    cases hp : p.y with
    | nil => exact absurd hp hy0
    | cons y0 ys => rfl
  · intro h
    refine ⟨?_, h.each⟩
    obtain ⟨y0, h0, hh⟩ := h.first
    cases hp : p.y with
    | nil => exact absurd hp hy0
    | cons y1 ys =>
      rw [hp] at h0
      obtain rfl : y1 = y0 := by simpa using h0
      exact hh.symm

/-- **C89, completeness** What `verify` accepts, `verify_batch` accepts, whatever value it draws. -/
theorem groth1_batch_complete (s : Sig G1 G2) (ms : List G1) (vk : G2) (p : Setup G1 G2) (h : s.verify e ms vk p = .ok true)
    (r : F) : verifyBatch1 e r s ms vk p = .ok true := by
  rw [groth_verify_true_iff] at h
  obtain ⟨hl, hv⟩ := h
  have hy0 : p.y ≠ [] := by
    obtain ⟨y0, h0, -⟩ := hv.first
    intro h; rw [h] at h0; cases h0
  have ht := valid_T_length hv
  rw [batch1_eq, if_neg (by omega), if_neg (by simp [hy0, ht]),
    combine_zeros r _ ((allDefects_zero_iff e s ms vk p hy0 hl ht).2 hv)]
  simp

/-- **C89, soundness** If `verify_batch` accepts for more values of its random draw than there are messages, `verify` accepts.  So a list
of messages that `verify` does not accept gets past `verify_batch` for at most as many values as there are messages. -/
theorem groth1_batch_sound (s : Sig G1 G2) (ms : List G1) (vk : G2) (p : Setup G1 G2) (rs : List F) (hnd : rs.Nodup)
    (hlen : ms.length < rs.length) (h : ∀ r ∈ rs, verifyBatch1 e r s ms vk p = .ok true) : s.verify e ms vk p = .ok true := by
  have hne : rs ≠ [] := by intro h0; rw [h0] at hlen; simp at hlen
  obtain ⟨r0, hr0⟩ := List.exists_mem_of_ne_nil rs hne
  have h0 := h r0 hr0
  rw [batch1_eq] at h0
  by_cases h1 : p.y.length < ms.length
  · rw [if_pos h1] at h0; cases h0
  rw [if_neg h1] at h0
  by_cases h2 : p.y = [] ∨ s.T.length < ms.length
  · rw [if_pos h2] at h0; cases h0
  simp only [not_or, not_lt] at h1 h2
  refine (groth_verify_true_iff e s ms vk p).2 ⟨h1, (allDefects_zero_iff e s ms vk p h2.1 h1 h2.2).1 ?_⟩
  have hdl : ∀ (ms ys ts : List G1), (defects e p.gb vk s.R ms ys ts).length ≤ ms.length := by
    intro ms
    induction ms with
    | nil => simp [defects]
    | cons m ms ih =>
      intro ys ts
      cases ys <;> cases ts <;> simp [defects]
      exact ih _ _
  refine combine_all_zero _ rs hnd ?_ ?_
  · have := hdl ms p.y s.T
    simp only [allDefects, List.length_cons]
    omega
  · intro r hr
    have := h r hr
    rw [batch1_eq, if_neg (by omega), if_neg (by simp [h2.1, h2.2])] at this
    simpa using this

/-- **C89, completeness for the second scheme** -/
theorem groth2_batch_complete (s : Sig G2 G1) (ms : List G2) (vk : G1) (p : Setup G2 G1) (h : s.verify e.flip ms vk p = .ok true)
    (r : F) : verifyBatch2 e r s ms vk p = .ok true := by
  rw [batch2_eq]; exact groth1_batch_complete e.flip s ms vk p h r

/-- **C89, soundness for the second scheme** -/
theorem groth2_batch_sound (s : Sig G2 G1) (ms : List G2) (vk : G1) (p : Setup G2 G1) (rs : List F) (hnd : rs.Nodup)
    (hlen : ms.length < rs.length) (h : ∀ r ∈ rs, verifyBatch2 e r s ms vk p = .ok true) : s.verify e.flip ms vk p = .ok true := by
  refine groth1_batch_sound e.flip s ms vk p rs hnd hlen fun r hr => ?_
  rw [← batch2_eq]; exact h r hr

/-- **C93, crashes** `verify_batch` crashes exactly if there are no message bases, or the signature has fewer elements `T` than there are
messages (and the number of messages is acceptable) -/
theorem groth_batch_panic_iff (r : F) (s : Sig G1 G2) (ms : List G1) (vk : G2) (p : Setup G1 G2) :
    verifyBatch1 e r s ms vk p = .panic ↔ ms.length ≤ p.y.length ∧ (p.y = [] ∨ s.T.length < ms.length) := by
  rw [batch1_eq]
  by_cases h1 : p.y.length < ms.length
  · rw [if_pos h1]; simp [h1]
  rw [if_neg h1]
  by_cases h2 : p.y = [] ∨ s.T.length < ms.length
  · rw [if_pos h2]; simpa using ⟨by omega, h2⟩
  · rw [if_neg h2]; simp [h2]

end Batch

/-! ## Parameters -/

theorem utf8_nat_inj {i j : Nat} (h : (toString i).toUTF8.data.toList = (toString j).toUTF8.data.toList) : i = j :=
  Nat.repr_injective (String.toByteArray_inj.mp (ByteArray.ext (Array.toList_inj.mp h)))

/-- **C87, parameters** The byte strings hashed to the generators and to the message bases are pairwise different, and the two schemes
set up with one label have the same two generators. -/
theorem groth_setup_inputs_distinct (label : Bytes) (n : Nat) :
    ((setupInputs label n).1 :: (setupInputs label n).2.1 :: (setupInputs label n).2.2).Nodup ∧
    (setupInputs label n).2.2.length = n := by
  refine ⟨?_, by simp [setupInputs]⟩
  have h1 : " : g1".toUTF8.data.toList = [32, 58, 32, 103, 49] := by decide +kernel
  have h2 : " : g2".toUTF8.data.toList = [32, 58, 32, 103, 50] := by decide +kernel
  have h3 : " : y".toUTF8.data.toList = [32, 58, 32, 121] := by decide +kernel
  simp only [setupInputs, h1, h2, h3, List.nodup_cons, List.mem_cons, List.mem_map, not_or, not_exists]
  refine ⟨⟨?_, ?_⟩, ?_, ?_⟩
  · intro h; simpa using List.append_cancel_left h
  · rintro i ⟨-, h⟩
    rw [List.append_assoc] at h
    simpa using List.append_cancel_left h
  · rintro i ⟨-, h⟩
    rw [List.append_assoc] at h
    simpa using List.append_cancel_left h
  · refine List.Nodup.map (fun i j h => ?_) List.nodup_range
    exact utf8_nat_inj (List.append_cancel_left h)

/-- **C87, parameters** The two schemes set up with one label use the same generators. -/
theorem groth_setup_shared {G1 G2 : Type} (h1 : Bytes → G1) (h2 : Bytes → G2) (n n' : Nat) (label : Bytes) :
    (setup1 h1 h2 n label).ga = (setup2 h1 h2 n' label).gb ∧ (setup1 h1 h2 n label).gb = (setup2 h1 h2 n' label).ga ∧
    (setup1 h1 h2 n label).y.length = n ∧ (setup2 h1 h2 n' label).y.length = n' := by
  simp [setup1, setup2, setupInputs]

/-! ## Concrete cases -/

section Examples
open Verif.Toy
local instance : Fact (Nat.Prime 101) := fact101

/-- parameters with three bases in a concrete group -/
def toySetup : Setup (ZMod 101) (ZMod 101) := ⟨5, 7, [2, 3, 11]⟩

/-- a signature on two messages, made with key 13 and random value 4 -/
def toySig : Sig (ZMod 101) (ZMod 101) := match sign (F := ZMod 101) [20, 30] 13 toySetup 4 with
  | .ok s => s
  | _ => ⟨0, 0, []⟩

example : sign (F := ZMod 101) [20, 30] 13 toySetup 4 = .ok toySig := by decide +kernel
example : toySig.verify toyE [20, 30] (13 * 7) toySetup = .ok true := by decide +kernel
example : toySig.verify toyE [20, 31] (13 * 7) toySetup = .ok false := by decide +kernel
example : (randomize toySig (9 : ZMod 101)).verify toyE [20, 30] (13 * 7) toySetup = .ok true := by decide +kernel
example : toySig.verify toyE [20] (13 * 7) toySetup = .ok true := by decide +kernel
example : toySig.verify toyE [] (13 * 7) toySetup = .ok true := by decide +kernel
example : verifyBatch1 toyE (17 : ZMod 101) toySig [20, 30] (13 * 7) toySetup = .ok true := by decide +kernel
example : verifyBatch1 toyE (17 : ZMod 101) toySig [20, 31] (13 * 7) toySetup = .ok false := by decide +kernel
example : verifyBatch2 toyE (17 : ZMod 101) toySig [20, 30] (13 * 7) toySetup = .ok true := by decide +kernel
example : ∀ a : ZMod 101, toyE a toySetup.gb = 0 → a = 0 := by decide +kernel
/-- a value for which a wrong pair of messages gets past the batch check (the bound of the soundness theorem allows two) -/
example : toySig.verify toyE [21, 31] (13 * 7) toySetup = .ok false ∧
    verifyBatch1 toyE (100 : ZMod 101) toySig [21, 31] (13 * 7) toySetup = .ok true := by decide +kernel

end Examples
end Verif.Groth
