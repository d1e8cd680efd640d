import Verif.Props.CSSound
import Verif.Props.SymmCCA
import Verif.Props.SDHCount
/-!
# C217: the public key hides the messages of a Camenisch–Shoup ciphertext
-/
set_option linter.unusedSectionVars false
set_option linter.unusedSimpArgs false
set_option linter.unusedVariables false
namespace Verif.CS
open Verif.BN Verif.CL Verif.Forking Verif.Symm

/-! ## Specification -/

/-- Who tries to tell ciphertexts apart: it sees the public key and names a label and two lists of messages; then it sees the encryption of one of the
lists and says yes or no. -/
structure Guesser where
  choose : PubKey → Bytes × List Int × List Int
  guess : PubKey → Cipher → Prop

/-- the two lists are equally long, and no longer than the key allows -/
def Guesser.Legal (A : Guesser) (k : Nat) : Prop :=
  ∀ pk, (A.choose pk).2.1.length = (A.choose pk).2.2.length ∧ (A.choose pk).2.1.length ≤ k

/-- the first list (`false`) or the second one (`true`) -/
def Guesser.pick (A : Guesser) (pk : PubKey) (b : Bool) : List Int := if b then (A.choose pk).2.2 else (A.choose pk).2.1

/-- What key generation and encryption draw: the `x1`, `x2` and `x3` below a quarter of `n²` (cs_verifiable_encryption.rs:161, 167, 172-173) and the `r`
below a quarter of `n` (122-124, 276). -/
abbrev Coins (k n : Nat) : Type := (Fin k → Fin (n * n / 4)) × Fin (n * n / 4) × Fin (n * n / 4) × Fin (n / 4)

/-- the `x1` drawn -/
def Coins.x1 {k n : Nat} (ω : Coins k n) : List Int := List.ofFn fun i => ((ω.1 i : Nat) : Int)

/-- The guesser says yes to the list `b`, encrypted by `encrypt` under the key of `CSKeypair::new`. -/
def SaysYes (H : Bytes → Int) (p q : Nat) (g' : Int) (A : Guesser) {k : Nat} (b : Bool) (ω : Coins k (p * q)) : Prop :=
  ∃ pk sk c, keypair p q g' ω.x1 (ω.2.1 : Nat) (ω.2.2.1 : Nat) = .ok (pk, sk) ∧
    encrypt H pk (ω.2.2.2 : Nat) (A.pick pk b) (A.choose pk).1 = .ok c ∧ A.guess pk c

/-! ## The problem a guesser helps to solve

Given `n`, an element `g` made as `PaillierGroup::new` makes it, and `U`: tell whether `U = g ^ r`, or `U = g ^ r * (n + 1) ^ s` for a random `s < n`. -/

/-- the public key for `n` and `g`, with exponents of the solver's own -/
def solverKey (n g : Int) (x1 : List Int) (x2 x3 : Int) : Res String PubKey := do
  let i ← inverse 2 n
  let G : Group := ⟨g, n + 1, rshift n 2, n * n⟩
  let y1 ← keysFor G x1
  let y2 ← G.exp G.g x2
  let y3 ← G.exp G.g x3
  pure ⟨n, lshift1 i, G, y1, y2, y3⟩

/-- the `U ^ x * h ^ m` -/
def solverE (G : Group) (U : Int) : List Int → List Int → Res String (List Int)
  | m :: ms, x :: xs => do
    let a ← G.exp U x
    let hm ← G.exp G.h m
    let e ← modMul a hm G.modulus
    let rest ← solverE G U ms xs
    pure (e :: rest)
  | _, _ => .ok []

/-- a ciphertext with `u = U` made with the private exponents instead of the public key -/
def solverCipher (H : Bytes → Int) (G : Group) (U : Int) (x1 : List Int) (x2 x3 : Int) (ms : List Int) (label : Bytes) : Res String Cipher := do
  let e ← solverE G U ms x1
  let v ← G.exp U (H (hashInput U e label) * x3 + x2)
  let v ← G.abs v
  pure ⟨U, e, v⟩

/-- The solver for the list `b`: it knows `n`, `g` and `U`, draws exponents and repeats what the guesser says. -/
def Solver (H : Bytes → Int) (A : Guesser) (b : Bool) (n g U : Int) (x1 : List Int) (x2 x3 : Int) : Prop :=
  ∃ pk c, solverKey n g x1 x2 x3 = .ok pk ∧ solverCipher H pk.group U x1 x2 x3 (A.pick pk b) (A.choose pk).1 = .ok c ∧ A.guess pk c

/-- the solver says yes to a `U = g ^ r` -/
def YesToPower (H : Bytes → Int) (p q : Nat) (g' : Int) (A : Guesser) {k : Nat} (b : Bool) (ω : Coins k (p * q)) : Prop :=
  ∃ G U, Group.new (p * q) g' = .ok G ∧ modExp G.g (ω.2.2.2 : Nat) (p * q * (p * q)) = .ok U ∧
    Solver H A b (p * q) G.g U ω.x1 (ω.2.1 : Nat) (ω.2.2.1 : Nat)

/-- the solver says yes to a `U = g ^ r * (n + 1) ^ s` -/
def YesToBlind (H : Bytes → Int) (p q : Nat) (g' : Int) (A : Guesser) {k : Nat} (b : Bool) (ω : Coins k (p * q) × Fin (p * q)) : Prop :=
  ∃ G a c U, Group.new (p * q) g' = .ok G ∧ modExp G.g (ω.1.2.2.2 : Nat) (p * q * (p * q)) = .ok a ∧
    modExp (p * q + 1) (ω.2 : Nat) (p * q * (p * q)) = .ok c ∧ modMul a c (p * q * (p * q)) = .ok U ∧
    Solver H A b (p * q) G.g U ω.1.x1 (ω.1.2.1 : Nat) (ω.1.2.2.1 : Nat)

/-- how much better the solver does than saying the same to both -/
noncomputable def advantage (H : Bytes → Int) (p q : Nat) (g' : Int) (A : Guesser) (k : Nat) (b : Bool) : ℚ :=
  |pr (YesToPower H p q g' A (k := k) b) - pr (YesToBlind H p q g' A (k := k) b)|

/-! ## The runs in closed form -/

section closed
variable {n : Nat}

def grp (n : Nat) (gU : (ZMod (n * n))ˣ) : Group := ⟨val gU, (n : Int) + 1, rshift n 2, ((n * n : Nat) : Int)⟩

def keyOf (n : Nat) (i : Int) (gU : (ZMod (n * n))ˣ) (x1 : List Int) (x2 x3 : Int) : PubKey :=
  ⟨n, i, grp n gU, x1.map (fun x => val (gU ^ x)), val (gU ^ x2), val (gU ^ x3)⟩

def absOf (N a : Int) : Int := if a % N > rshift N 1 then N - a % N else a % N

def eOf (U : (ZMod (n * n))ˣ) (ms xs : List Int) : List Int := List.zipWith (fun m x => val (U ^ x * hU n ^ m)) ms xs

def cipherOf (H : Bytes → Int) (U : (ZMod (n * n))ˣ) (x1 : List Int) (x2 x3 : Int) (ms : List Int) (label : Bytes) : Cipher :=
  ⟨val U, eOf U ms x1, absOf ((n * n : Nat) : Int) (val (U ^ (H (hashInput (val U) (eOf U ms x1) label) * x3 + x2)))⟩

theorem abs_grp (hn : 1 < n) (gU : (ZMod (n * n))ˣ) (a : Int) : (grp n gU).abs a = .ok (absOf ((n * n : Nat) : Int) a) := by
  have hN : (0 : Int) < ((n * n : Nat) : Int) := by positivity
  unfold Group.abs absOf
  show (BN.modulus a ((n * n : Nat) : Int) >>= _) = _
  rw [modulus_eq_emod _ _ hN, Res.ok_bind]
  show (if a % ((n * n : Nat) : Int) > rshift ((n * n : Nat) : Int) 1 then _ else _) = _
  split <;> rfl

theorem solverE_ok (hn : 1 < n) (gU U : (ZMod (n * n))ˣ) : ∀ ms xs : List Int, solverE (grp n gU) (val U) ms xs = .ok (eOf U ms xs)
  | [], _ => by unfold solverE; rfl
  | _ :: _, [] => by unfold solverE; rfl
  | m :: ms, x :: xs => by
    have hN : 1 < n * n := by nlinarith
    have : NeZero (n * n) := neZero_of hN
    have hh : Rep (grp n gU).h (hU n) := rep_h n
    unfold solverE
    unfold Group.exp
    rw [show (grp n gU).modulus = ((n * n : Nat) : Int) from rfl, (rep_val U).modExp hN, Res.ok_bind, hh.modExp hN, Res.ok_bind,
      (rep_val _).modMul (rep_val _), Res.ok_bind, solverE_ok hn gU U ms xs, Res.ok_bind]
    rfl

theorem solverCipher_ok (H : Bytes → Int) (hn : 1 < n) (gU U : (ZMod (n * n))ˣ) (x1 : List Int) (x2 x3 : Int) (ms : List Int) (label : Bytes) :
    solverCipher H (grp n gU) (val U) x1 x2 x3 ms label = .ok (cipherOf H U x1 x2 x3 ms label) := by
  have hN : 1 < n * n := by nlinarith
  have : NeZero (n * n) := neZero_of hN
  unfold solverCipher
  rw [solverE_ok hn, Res.ok_bind]
  unfold Group.exp
  rw [show (grp n gU).modulus = ((n * n : Nat) : Int) from rfl, (rep_val U).modExp hN, Res.ok_bind, abs_grp hn, Res.ok_bind]
  rfl

theorem solverKey_ok (hn : 1 < n) {i : Int} (hi : inverse 2 n = .ok i) (gU : (ZMod (n * n))ˣ) (x1 : List Int) (x2 x3 : Int) :
    solverKey n (val gU) x1 x2 x3 = .ok (keyOf n (lshift1 i) gU x1 x2 x3) := by
  have hN : 1 < n * n := by nlinarith
  have : NeZero (n * n) := neZero_of hN
  have hm : (n : Int) * n = ((n * n : Nat) : Int) := by push_cast; rfl
  unfold solverKey
  rw [hi, Res.ok_bind, hm]
  show (keysFor (grp n gU) x1 >>= _) = _
  rw [keysFor_ok hn (grp n gU) gU rfl (rep_val _), Res.ok_bind]
  unfold Group.exp
  show (modExp (val gU) x2 ((n * n : Nat) : Int) >>= _) = _
  rw [(rep_val gU).modExp hN, Res.ok_bind]
  show (modExp (val gU) x3 ((n * n : Nat) : Int) >>= _) = _
  rw [(rep_val gU).modExp hN, Res.ok_bind]
  rfl

theorem encE_eq (gU : (ZMod (n * n))ˣ) (r : Int) : ∀ ms xs : List Int, encE gU r ms xs = eOf (gU ^ r) ms xs
  | [], [] => rfl
  | [], _ :: _ => rfl
  | _ :: _, [] => rfl
  | m :: ms, x :: xs => by
    simp only [encE, eOf, List.zipWith_cons_cons, encE_eq gU r ms xs]
    rw [← zpow_mul, ← zpow_mul, mul_comm x r]

theorem encrypt_closed (H : Bytes → Int) (hn : 1 < n) {i : Int} (hi : ∃ t, lshift1 i = 2 * t ∧ 2 * t ≡ 1 [ZMOD n]) (gU : (ZMod (n * n))ˣ)
    (x1 : List Int) (x2 x3 r : Int) (ms : List Int) (hl : ms.length ≤ x1.length) (label : Bytes) :
    encrypt H (keyOf n (lshift1 i) gU x1 x2 x3) r ms label = .ok (cipherOf H (gU ^ r) x1 x2 x3 ms label) := by
  have k : KeyOk n (keyOf n (lshift1 i) gU x1 x2 x3) ⟨x1, x2, x3⟩ gU :=
    ⟨hn, rfl, rfl, rfl, rfl, by show rshift (n : Int) 2 = _; unfold rshift; norm_num, hi, rfl, rfl, rfl⟩
  have hN := k.hN
  have : NeZero (n * n) := neZero_of hN
  have hg : Rep (keyOf n (lshift1 i) gU x1 x2 x3).group.g gU := by rw [k.g_eq]; exact rep_val gU
  unfold encrypt
  rw [if_neg (by rw [k.y1, List.length_map]; simpa using hl)]
  unfold encryptWith
  rw [k.y1, computeE_ok k r ms x1 hl]
  simp only [Group.exp]
  rw [k.mod, hg.modExp hN, Res.ok_bind, Res.ok_bind]
  obtain ⟨_, h1, -⟩ := computeV_ok k r (H (hashInput (val (gU ^ r)) (encE gU r ms x1) label))
  have hv : computeV (keyOf n (lshift1 i) gU x1 x2 x3) r (H (hashInput (val (gU ^ r)) (encE gU r ms x1) label)) true =
      (computeV (keyOf n (lshift1 i) gU x1 x2 x3) r (H (hashInput (val (gU ^ r)) (encE gU r ms x1) label)) false >>= (grp n gU).abs) := by
    unfold computeV Group.exp
    rw [k.mod, k.y3, (rep_val _).modExp hN, Res.ok_bind, Res.ok_bind, k.y2, (rep_val _).modMul (rep_val _), Res.ok_bind, Res.ok_bind,
      (rep_val _).modExp hN, Res.ok_bind, Res.ok_bind]
    rfl
  rw [hv, h1, Res.ok_bind, abs_grp hn, Res.ok_bind]
  have hz : (gU ^ (H (hashInput (val (gU ^ r)) (encE gU r ms x1) label) * x3 + x2)) ^ r =
      (gU ^ r) ^ (H (hashInput (val (gU ^ r)) (encE gU r ms x1) label) * x3 + x2) := zpow_comm _ _ _
  unfold cipherOf
  rw [← encE_eq, ← hz]
  rfl

end closed

/-! ## The runs of keys made from primes -/

/-- primes as `generate_safe_prime` makes them, and a value `g'` not divisible by them -/
structure SafeKey (p q p' q' : Nat) (g' : Int) : Prop where
  prime_p : p.Prime
  prime_q : q.Prime
  p_eq : p = 2 * p' + 1
  q_eq : q = 2 * q' + 1
  ne : p ≠ q
  coprime : Nat.Coprime (p * q) (p' * q')
  g_nonneg : 0 ≤ g'
  g_coprime : Int.gcd g' (p * q) = 1

section runs
variable {p q p' q' : Nat} {g' : Int}

theorem SafeKey.hn (h : SafeKey p q p' q' g') : 1 < p * q :=
  Nat.one_lt_mul_iff.mpr ⟨h.prime_p.pos, h.prime_q.pos, Or.inl h.prime_p.one_lt⟩

/-- the group element `g` of the key has an order that divides `p' * q'` -/
theorem SafeKey.run (h : SafeKey p q p' q' g') : ∃ (gU : (ZMod ((p * q) * (p * q)))ˣ) (i : Int), gU ^ (p' * q') = 1 ∧
    Group.new ((p : Int) * q) g' = .ok (grp (p * q) gU) ∧ inverse 2 ((p * q : Nat) : Int) = .ok i ∧
    (∃ t, lshift1 i = 2 * t ∧ 2 * t ≡ 1 [ZMOD ((p * q : Nat) : Int)]) ∧
    ∀ (x1 : List Int) (x2 x3 : Int), 1 ≤ x1.length →
      keypair p q g' x1 x2 x3 = .ok (keyOf (p * q) (lshift1 i) gU x1 x2 x3, ⟨x1, x2, x3⟩) := by
  have hn := h.hn
  have hN : 1 < (p * q) * (p * q) := by nlinarith
  have : NeZero (p * q) := neZero_of hn
  have : NeZero ((p * q) * (p * q)) := neZero_of hN
  have hodd : (p * q) % 2 = 1 := odd_mul (by have := h.p_eq; omega) (by have := h.q_eq; omega)
  have h2 : Int.gcd 2 ((p * q : Nat) : Int) = 1 := by
    have : Nat.Coprime 2 (p * q) := (Nat.coprime_two_left).mpr (Nat.odd_iff.mpr hodd)
    exact_mod_cast this
  obtain ⟨w2, hw2⟩ := exists_rep (n := p * q) (by norm_num : (0 : Int) ≤ 2) h2
  have hinv := hw2.inverse hn
  have hg2 : Int.gcd g' (((p * q) * (p * q) : Nat) : Int) = 1 := by
    have h1 : IsCoprime g' ((p * q : Nat) : Int) := by
      rw [Int.isCoprime_iff_gcd_eq_one]; push_cast; exact h.g_coprime
    have := h1.mul_right h1
    rw [Int.isCoprime_iff_gcd_eq_one] at this
    exact_mod_cast this
  obtain ⟨w, hw⟩ := exists_rep (n := (p * q) * (p * q)) h.g_nonneg hg2
  have hmod : (p : Int) * q * (p * q) = (((p * q) * (p * q) : Nat) : Int) := by push_cast; ring
  have hmod1 : (p : Int) * q = ((p * q : Nat) : Int) := by push_cast; ring
  have hG : Group.new ((p : Int) * q) g' = .ok (grp (p * q) (w ^ (lshift1 ((p : Int) * q)))) := by
    unfold Group.new
    rw [hmod, hw.modExp hN, Res.ok_bind, hmod1]
    rfl
  refine ⟨w ^ (lshift1 ((p : Int) * q)), val w2⁻¹, ?_, hG, hinv, ⟨val w2⁻¹, by unfold lshift1; ring, ?_⟩, ?_⟩
  · have hE := unit_exponent h.prime_p h.prime_q h.p_eq h.q_eq h.ne w
    rw [← zpow_natCast, ← zpow_mul, ← hE, ← zpow_natCast]
    congr 1
    unfold lshift1; push_cast; ring
  · rw [← ZMod.intCast_eq_intCast_iff]
    push_cast
    have := cast_val w2⁻¹
    rw [this]
    have h2' := hw2.2
    push_cast at h2'
    rw [h2']
    simp
  · intro x1 x2 x3 hx
    unfold keypair
    rw [if_neg (by omega), hmod1, hinv, Res.ok_bind, ← hmod1, hG, Res.ok_bind]
    rw [keysFor_ok hn _ (w ^ (lshift1 ((p : Int) * q))) rfl (rep_val _), Res.ok_bind]
    unfold Group.exp
    show (modExp (val (w ^ (lshift1 ((p : Int) * q)))) x2 (((p * q) * (p * q) : Nat) : Int) >>= _) = _
    rw [(rep_val _).modExp hN, Res.ok_bind]
    show (modExp (val (w ^ (lshift1 ((p : Int) * q)))) x3 (((p * q) * (p * q) : Nat) : Int) >>= _) = _
    rw [(rep_val _).modExp hN, Res.ok_bind]
    unfold keyOf
    rw [hmod1]
    rfl

/-- the guesser says yes, in closed form -/
def Yes (H : Bytes → Int) (A : Guesser) (b : Bool) {n : Nat} (i : Int) (gU U : (ZMod (n * n))ˣ) (x1 : List Int) (x2 x3 : Int) : Prop :=
  A.guess (keyOf n (lshift1 i) gU x1 x2 x3) (cipherOf H U x1 x2 x3 (A.pick (keyOf n (lshift1 i) gU x1 x2 x3) b) (A.choose (keyOf n (lshift1 i) gU x1 x2 x3)).1)

theorem solver_yes (H : Bytes → Int) (A : Guesser) (b : Bool) {n : Nat} (hn : 1 < n) {i : Int} (hi : inverse 2 (n : Int) = .ok i) (gU U : (ZMod (n * n))ˣ)
    (x1 : List Int) (x2 x3 : Int) : Solver H A b n (val gU) (val U) x1 x2 x3 ↔ Yes H A b i gU U x1 x2 x3 := by
  unfold Solver Yes
  constructor
  · rintro ⟨pk, c, h1, h2, h3⟩
    rw [solverKey_ok hn hi] at h1
    cases h1
    rw [show (keyOf n (lshift1 i) gU x1 x2 x3).group = grp n gU from rfl, solverCipher_ok H hn] at h2
    cases h2
    exact h3
  · intro h
    exact ⟨_, _, solverKey_ok hn hi _ _ _ _, solverCipher_ok H hn gU U _ _ _ _ _, h⟩

theorem Coins.x1_length {k n : Nat} (ω : Coins k n) : ω.x1.length = k := by simp [Coins.x1]

theorem pick_length {A : Guesser} {k : Nat} (hA : A.Legal k) (pk : PubKey) (b : Bool) : (A.pick pk b).length ≤ k := by
  obtain ⟨h1, h2⟩ := hA pk
  unfold Guesser.pick
  cases b
  · exact h2
  · simpa [← h1] using h2

theorem says_yes_iff (H : Bytes → Int) {A : Guesser} {k : Nat} (hk : 1 ≤ k) (hA : A.Legal k) (b : Bool) {gU : (ZMod ((p * q) * (p * q)))ˣ} {i : Int}
    (hn : 1 < p * q) (ht : ∃ t, lshift1 i = 2 * t ∧ 2 * t ≡ 1 [ZMOD ((p * q : Nat) : Int)])
    (hrun : ∀ (x1 : List Int) (x2 x3 : Int), 1 ≤ x1.length →
      keypair p q g' x1 x2 x3 = .ok (keyOf (p * q) (lshift1 i) gU x1 x2 x3, ⟨x1, x2, x3⟩)) (ω : Coins k (p * q)) :
    SaysYes H p q g' A b ω ↔ Yes H A b i gU (gU ^ ((ω.2.2.2 : Nat) : Int)) ω.x1 (ω.2.1 : Nat) (ω.2.2.1 : Nat) := by
  have hr := hrun ω.x1 (ω.2.1 : Nat) (ω.2.2.1 : Nat) (by rw [Coins.x1_length]; exact hk)
  have he := fun pk => encrypt_closed H hn ht gU ω.x1 (ω.2.1 : Nat) (ω.2.2.1 : Nat) (ω.2.2.2 : Nat) (A.pick pk b)
    (by rw [Coins.x1_length]; exact pick_length hA pk b) (A.choose pk).1
  unfold SaysYes Yes
  constructor
  · rintro ⟨pk, sk, c, h1, h2, h3⟩
    rw [hr] at h1
    cases h1
    rw [he] at h2
    cases h2
    exact h3
  · intro h
    exact ⟨_, _, _, hr, he _, h⟩

theorem yes_to_power_iff (H : Bytes → Int) (A : Guesser) {k : Nat} (b : Bool) {gU : (ZMod ((p * q) * (p * q)))ˣ} {i : Int}
    (hn : 1 < p * q) (hi : inverse 2 ((p * q : Nat) : Int) = .ok i) (hG : Group.new ((p : Int) * q) g' = .ok (grp (p * q) gU)) (ω : Coins k (p * q)) :
    YesToPower H p q g' A b ω ↔ Yes H A b i gU (gU ^ ((ω.2.2.2 : Nat) : Int)) ω.x1 (ω.2.1 : Nat) (ω.2.2.1 : Nat) := by
  have hN : 1 < (p * q) * (p * q) := by nlinarith
  have : NeZero ((p * q) * (p * q)) := neZero_of hN
  have hmod : (p : Int) * q * (p * q) = (((p * q) * (p * q) : Nat) : Int) := by push_cast; ring
  have hmod1 : (p : Int) * q = ((p * q : Nat) : Int) := by push_cast; ring
  have hU : modExp (grp (p * q) gU).g (ω.2.2.2 : Nat) (p * q * (p * q)) = .ok (val (gU ^ ((ω.2.2.2 : Nat) : Int))) := by
    rw [hmod]; exact (rep_val gU).modExp hN _
  rw [← solver_yes H A b hn hi]
  unfold YesToPower
  rw [hG]
  constructor
  · rintro ⟨G, U, h1, h2, h3⟩
    cases h1
    rw [hU] at h2
    cases h2
    rwa [← hmod1]
  · intro h
    rw [← hmod1] at h
    exact ⟨_, _, rfl, hU, h⟩

theorem yes_to_blind_iff (H : Bytes → Int) (A : Guesser) {k : Nat} (b : Bool) {gU : (ZMod ((p * q) * (p * q)))ˣ} {i : Int}
    (hn : 1 < p * q) (hi : inverse 2 ((p * q : Nat) : Int) = .ok i) (hG : Group.new ((p : Int) * q) g' = .ok (grp (p * q) gU))
    (ω : Coins k (p * q) × Fin (p * q)) :
    YesToBlind H p q g' A b ω ↔
      Yes H A b i gU (gU ^ ((ω.1.2.2.2 : Nat) : Int) * hU (p * q) ^ ((ω.2 : Nat) : Int)) ω.1.x1 (ω.1.2.1 : Nat) (ω.1.2.2.1 : Nat) := by
  have hN : 1 < (p * q) * (p * q) := by nlinarith
  have : NeZero ((p * q) * (p * q)) := neZero_of hN
  have hmod : (p : Int) * q * (p * q) = (((p * q) * (p * q) : Nat) : Int) := by push_cast; ring
  have hmod1 : (p : Int) * q = ((p * q : Nat) : Int) := by push_cast; ring
  have hU : modExp (grp (p * q) gU).g (ω.1.2.2.2 : Nat) (p * q * (p * q)) = .ok (val (gU ^ ((ω.1.2.2.2 : Nat) : Int))) := by
    rw [hmod]; exact (rep_val gU).modExp hN _
  have hH : modExp (p * q + 1) (ω.2 : Nat) (p * q * (p * q)) = .ok (val (CS.hU (p * q) ^ ((ω.2 : Nat) : Int))) := by
    rw [hmod, hmod1]; exact (rep_h (p * q)).modExp hN _
  have hM : modMul (val (gU ^ ((ω.1.2.2.2 : Nat) : Int))) (val (CS.hU (p * q) ^ ((ω.2 : Nat) : Int))) (p * q * (p * q)) =
      .ok (val (gU ^ ((ω.1.2.2.2 : Nat) : Int) * CS.hU (p * q) ^ ((ω.2 : Nat) : Int))) := by
    rw [hmod]; exact (rep_val _).modMul (rep_val _)
  rw [← solver_yes H A b hn hi]
  unfold YesToBlind
  rw [hG]
  constructor
  · rintro ⟨G, a, c, U, h1, h2, h3, h4, h5⟩
    cases h1
    rw [hU] at h2
    cases h2
    rw [hH] at h3
    cases h3
    rw [hM] at h4
    cases h4
    rwa [← hmod1]
  · intro h
    rw [← hmod1] at h
    exact ⟨_, _, _, _, rfl, hU, hH, hM, h⟩

end runs

/-! ## Other exponents with the same public key -/

section shift

def shiftBy (n n' : Nat) (t d : Int) (x : Nat) : Nat := (x + n' * ((d * t) % n).toNat) % (n * n')

theorem shiftBy_int {n n' : Nat} (hn : 0 < n) (t d : Int) (x : Nat) :
    ∃ k : Int, ((shiftBy n n' t d x : Nat) : Int) = x + n' * (d * t) + (n : Int) * n' * k := by
  have h0 : 0 ≤ (d * t) % (n : Int) := Int.emod_nonneg _ (by omega)
  refine ⟨-((d * t) / n) - (x + n' * ((d * t) % n)) / (n * n'), ?_⟩
  unfold shiftBy
  push_cast
  rw [Int.toNat_of_nonneg h0, Int.emod_def (x + n' * ((d * t) % n) : Int), Int.emod_def (d * t) (n : Int)]
  ring

theorem shiftBy_inj {n n' : Nat} {t d : Int} {x y : Nat} (hx : x < n * n') (hy : y < n * n') (h : shiftBy n n' t d x = shiftBy n n' t d y) : x = y := by
  unfold shiftBy at h
  have : x ≡ y [MOD n * n'] := Nat.ModEq.add_right_cancel' _ h
  have h' : x % (n * n') = y % (n * n') := this
  rwa [Nat.mod_eq_of_lt hx, Nat.mod_eq_of_lt hy] at h'

theorem shift_key {n n' : Nat} (hn : 0 < n) {gU : (ZMod (n * n))ˣ} (hg : gU ^ n' = 1) (t d : Int) (x : Nat) :
    gU ^ ((shiftBy n n' t d x : Nat) : Int) = gU ^ (x : Int) := by
  obtain ⟨k, hk⟩ := shiftBy_int (n' := n') hn t d x
  have hg' : gU ^ (n' : Int) = 1 := by rw [zpow_natCast]; exact hg
  rw [hk, show (x : Int) + n' * (d * t) + (n : Int) * n' * k = x + n' * (d * t + n * k) by ring, zpow_add, zpow_mul, hg', one_zpow, mul_one]

theorem shift_cipher {n n' : Nat} (hn : 0 < n) {gU : (ZMod (n * n))ˣ} (hg : gU ^ n' = 1) (r s t : Int) (ht : s * n' * t ≡ 1 [ZMOD n]) (m m' : Int) (x : Nat) :
    (gU ^ r * hU n ^ s) ^ ((shiftBy n n' t (m - m') x : Nat) : Int) * hU n ^ m' = (gU ^ r * hU n ^ s) ^ (x : Int) * hU n ^ m := by
  rw [mul_zpow, mul_zpow, zpow_comm gU r, shift_key hn hg, zpow_comm gU _ r, mul_assoc, mul_assoc, ← zpow_mul (hU n) s, ← zpow_mul (hU n) s,
    ← zpow_add, ← zpow_add]
  congr 1
  apply hU_congr
  obtain ⟨k, hk⟩ := shiftBy_int (n' := n') hn t (m - m') x
  rw [hk]
  obtain ⟨j, hj⟩ := ht.symm.dvd
  rw [Int.modEq_iff_dvd]
  refine ⟨-(j * (m - m')) - s * n' * k, ?_⟩
  linear_combination (-(m - m')) * hj

variable {n n' k : Nat}

/-- the coins with shifted exponents -/
def shiftCoins (hX : n * n' ≤ n * n / 4) (h0 : 0 < n * n') (t : Int) (d : Fin k → Int) (ω : Coins k n) : Coins k n :=
  (fun j => ⟨shiftBy n n' t (d j) (ω.1 j), lt_of_lt_of_le (Nat.mod_lt _ h0) hX⟩, ω.2)

/-- how the lists differ -/
def gap (m m' : List Int) (j : Fin k) : Int := m.getD j 0 - m'.getD j 0

/-- multiplies by the inverse of `s * n'` -/
def invOf (n n' : Nat) (s : Nat) : Int := Int.gcdA (s * n' : Nat) (n : Nat)

theorem invOf_spec (s : Nat) (h : Nat.Coprime (s * n') n) : (s : Int) * n' * invOf n n' s ≡ 1 [ZMOD n] := by
  have := Int.gcd_eq_gcd_ab ((s * n' : Nat) : Int) (n : Nat)
  rw [Int.gcd_natCast_natCast, h.gcd_eq_one] at this
  unfold invOf
  rw [Int.modEq_iff_dvd]
  refine ⟨Int.gcdB (s * n' : Nat) (n : Nat), ?_⟩
  push_cast at this ⊢
  linarith

theorem keyOf_shift (hn : 0 < n) {gU : (ZMod (n * n))ˣ} (hg : gU ^ n' = 1) (hX : n * n' ≤ n * n / 4) (h0 : 0 < n * n') (i t : Int) (d : Fin k → Int)
    (ω : Coins k n) (x2 x3 : Int) : keyOf n i gU (shiftCoins hX h0 t d ω).x1 x2 x3 = keyOf n i gU ω.x1 x2 x3 := by
  unfold keyOf Coins.x1 shiftCoins
  congr 1
  rw [List.map_ofFn, List.map_ofFn]
  congr 1
  funext j
  exact congrArg val (shift_key hn hg t (d j) (ω.1 j))

theorem eOf_shift (hn : 0 < n) {gU : (ZMod (n * n))ˣ} (hg : gU ^ n' = 1) (hX : n * n' ≤ n * n / 4) (h0 : 0 < n * n') (r s t : Int)
    (ht : s * n' * t ≡ 1 [ZMOD n]) (m m' : List Int) (hl : m.length = m'.length) (ω : Coins k n) :
    eOf (gU ^ r * hU n ^ s) m' (shiftCoins hX h0 t (gap m m') ω).x1 = eOf (gU ^ r * hU n ^ s) m ω.x1 := by
  unfold eOf
  refine List.ext_getElem (by simp [Coins.x1, hl]) fun j h1 h2 => ?_
  simp only [List.length_zipWith, Coins.x1, List.length_ofFn, lt_min_iff] at h1 h2
  rw [List.getElem_zipWith, List.getElem_zipWith]
  simp only [Coins.x1, List.getElem_ofFn, shiftCoins, gap]
  rw [List.getD_eq_getElem _ _ h1.1, List.getD_eq_getElem _ _ h2.1]
  exact congrArg val (shift_cipher hn hg r s t ht _ _ _)

end shift

/-! ## Blind instances hide the list -/

section blind
variable {p q p' q' : Nat} {g' : Int} {n n' k : Nat}

/-- what the guesser sees with a `U = g ^ r * h ^ s` is the same for the two lists, once the exponents are shifted -/
theorem yes_shift (H : Bytes → Int) (A : Guesser) (hA : A.Legal k) (b : Bool) (i : Int) (hn : 0 < n) {gU : (ZMod (n * n))ˣ} (hg : gU ^ n' = 1)
    (hX : n * n' ≤ n * n / 4) (h0 : 0 < n * n') (r s t : Int) (ht : s * n' * t ≡ 1 [ZMOD n]) (ω : Coins k n) (x2 x3 : Int)
    (h : Yes H A b i gU (gU ^ r * hU n ^ s) ω.x1 x2 x3) :
    Yes H A (!b) i gU (gU ^ r * hU n ^ s) (shiftCoins hX h0 t (gap (A.pick (keyOf n (lshift1 i) gU ω.x1 x2 x3) b)
      (A.pick (keyOf n (lshift1 i) gU ω.x1 x2 x3) (!b))) ω).x1 x2 x3 := by
  unfold Yes at h ⊢
  rw [keyOf_shift hn hg hX h0]
  generalize hpk : keyOf n (lshift1 i) gU ω.x1 x2 x3 = pk at h ⊢
  have hl : (A.pick pk b).length = (A.pick pk (!b)).length := by
    have := (hA pk).1
    cases b <;> simp [Guesser.pick, this]
  unfold cipherOf at h ⊢
  rw [eOf_shift hn hg hX h0 r s t ht _ _ hl ω]
  exact h

theorem blind_le (H : Bytes → Int) (A : Guesser) (hA : A.Legal k) (b : Bool) (i : Int) (hn : 0 < n) {gU : (ZMod (n * n))ˣ} (hg : gU ^ n' = 1)
    (hc : Nat.Coprime n n') (hX : n * n' ≤ n * n / 4) (h0 : 0 < n * n') (hne : Nonempty (Coins k n × Fin n)) :
    pr (fun ω : Coins k n × Fin n => (Yes H A b i gU (gU ^ ((ω.1.2.2.2 : Nat) : Int) * hU n ^ ((ω.2 : Nat) : Int)) ω.1.x1 (ω.1.2.1 : Nat) (ω.1.2.2.1 : Nat) ∧
      (∀ j, (ω.1.1 j : Nat) < n * n')) ∧ Nat.Coprime n ω.2) ≤
    pr (fun ω : Coins k n × Fin n => Yes H A (!b) i gU (gU ^ ((ω.1.2.2.2 : Nat) : Int) * hU n ^ ((ω.2 : Nat) : Int)) ω.1.x1 (ω.1.2.1 : Nat) (ω.1.2.2.1 : Nat)) := by
  let pk : Coins k n × Fin n → PubKey := fun ω => keyOf n (lshift1 i) gU ω.1.x1 (ω.1.2.1 : Nat) (ω.1.2.2.1 : Nat)
  let f : Coins k n × Fin n → Coins k n × Fin n := fun ω =>
    (shiftCoins hX h0 (invOf n n' ω.2) (gap (A.pick (pk ω) b) (A.pick (pk ω) (!b))) ω.1, ω.2)
  have key := pr_embed (fun ω : Coins k n × Fin n => (Yes H A b i gU (gU ^ ((ω.1.2.2.2 : Nat) : Int) * hU n ^ ((ω.2 : Nat) : Int)) ω.1.x1 (ω.1.2.1 : Nat) (ω.1.2.2.1 : Nat) ∧
      (∀ j, (ω.1.1 j : Nat) < n * n')) ∧ Nat.Coprime n ω.2)
    (fun ω : Coins k n × Fin n => Yes H A (!b) i gU (gU ^ ((ω.1.2.2.2 : Nat) : Int) * hU n ^ ((ω.2 : Nat) : Int)) ω.1.x1 (ω.1.2.1 : Nat) (ω.1.2.2.1 : Nat)) f ?_ ?_
  · have hpos : (0 : ℚ) < Fintype.card (Coins k n × Fin n) := by exact_mod_cast Fintype.card_pos
    exact le_of_mul_le_mul_right key hpos
  · rintro ⟨⟨x, x2, x3, r⟩, s⟩ ⟨⟨-, hx⟩, -⟩ ⟨⟨y, y2, y3, r'⟩, s'⟩ ⟨⟨-, hy⟩, -⟩ hab
    have hk : pk (f ((x, x2, x3, r), s)) = pk (f ((y, y2, y3, r'), s')) := congrArg pk hab
    have hpk : pk ((x, x2, x3, r), s) = pk ((y, y2, y3, r'), s') := by
      have e1 : pk (f ((x, x2, x3, r), s)) = pk ((x, x2, x3, r), s) := keyOf_shift hn hg hX h0 _ _ _ _ _ _
      have e2 : pk (f ((y, y2, y3, r'), s')) = pk ((y, y2, y3, r'), s') := keyOf_shift hn hg hX h0 _ _ _ _ _ _
      rw [← e1, ← e2, hk]
    simp only [f, hpk, shiftCoins, Prod.mk.injEq] at hab
    obtain ⟨⟨h1, h2, h3, h4⟩, h5⟩ := hab
    subst h2 h3 h4 h5
    have : x = y := by
      funext j
      have := congrArg Fin.val (congrFun h1 j)
      exact Fin.ext (shiftBy_inj (hx j) (hy j) this)
    rw [this]
  · rintro ⟨ω, s⟩ ⟨⟨h, -⟩, hs⟩
    have ht := invOf_spec (n := n) (n' := n') (s : Nat) (Nat.Coprime.mul_left hs.symm hc.symm)
    exact yes_shift H A hA b i hn hg hX h0 _ _ _ ht ω _ _ h

end blind

/-! ## The bound -/

section bound

theorem pr_coord {k : Nat} {X : Type} [Fintype X] [Nonempty X] [DecidableEq X] (P : X → Prop) (j : Fin k) : pr (fun f : Fin k → X => P (f j)) = pr P := by
  have h := pr_bijective (Equiv.funSplitAt j X) (Equiv.funSplitAt j X).bijective (fun z : X × ({i // i ≠ j} → X) => P z.1)
  rw [pr_fst] at h
  rw [← h]
  rfl

theorem pr_above (X N : Nat) (h : N ≤ X) : pr (fun x : Fin X => N ≤ x) ≤ (X - N) / X := by
  classical
  have := pr_card (fun x : Fin X => N ≤ x) (X - N) (Finset.univ.filter fun x : Fin X => N ≤ (x : Nat)) (by
    have : ((Finset.univ.filter fun x : Fin X => N ≤ (x : Nat)).map Fin.valEmbedding) ⊆ Finset.Ico N X := by
      intro a ha
      rw [Finset.mem_map] at ha
      obtain ⟨b, hb, rfl⟩ := ha
      rw [Finset.mem_Ico]
      exact ⟨(Finset.mem_filter.1 hb).2, b.2⟩
    have := Finset.card_le_card this
    rwa [Finset.card_map, Nat.card_Ico] at this) (fun x hx => Finset.mem_filter.2 ⟨Finset.mem_univ _, hx⟩)
  rwa [Fintype.card_fin, Nat.cast_sub h] at this

theorem pr_not_coprime (n : Nat) : pr (fun s : Fin n => ¬ Nat.Coprime n s) ≤ (n - Nat.totient n) / n := by
  classical
  have hle := Nat.totient_le n
  have := pr_card (fun s : Fin n => ¬ Nat.Coprime n s) (n - Nat.totient n) (Finset.univ.filter fun s : Fin n => ¬ Nat.Coprime n (s : Nat)) (by
    have h1 : ((Finset.univ.filter fun s : Fin n => ¬ Nat.Coprime n (s : Nat)).map Fin.valEmbedding) ⊆ (Finset.range n).filter fun s => ¬ Nat.Coprime n s := by
      intro a ha
      rw [Finset.mem_map] at ha
      obtain ⟨b, hb, rfl⟩ := ha
      rw [Finset.mem_filter, Finset.mem_range]
      exact ⟨b.2, (Finset.mem_filter.1 hb).2⟩
    have h2 := Finset.card_le_card h1
    rw [Finset.card_map] at h2
    have h3 := Finset.card_filter_add_card_filter_not (s := Finset.range n) (fun s => Nat.Coprime n s)
    rw [Finset.card_range] at h3
    have h4 : Nat.totient n = ((Finset.range n).filter fun s => Nat.Coprime n s).card := rfl
    omega) (fun x hx => Finset.mem_filter.2 ⟨Finset.mem_univ _, hx⟩)
  rwa [Fintype.card_fin, Nat.cast_sub hle] at this

/-- sizes of the numbers of a key -/
theorem SafeKey.sizes {p q p' q' : Nat} {g' : Int} (key : SafeKey p q p' q' g') : 9 ≤ p * q ∧ 0 < p * q * (p' * q') ∧ 4 * (p' * q') + p + q = p * q + 1 ∧
    p * q * (p' * q') ≤ p * q * (p * q) / 4 ∧ 4 * (p * q * (p * q) / 4) + 1 = p * q * (p * q) := by
  have hp2 := key.prime_p.two_le
  have hq2 := key.prime_q.two_le
  have hp' : 1 ≤ p' := by have := key.p_eq; omega
  have hq' : 1 ≤ q' := by have := key.q_eq; omega
  have h4 : 4 * (p' * q') + p + q = p * q + 1 := by rw [key.p_eq, key.q_eq]; ring
  refine ⟨?_, by positivity, h4, ?_, ?_⟩
  · have h1 : 3 ≤ p := by have := key.p_eq; omega
    have h2 : 3 ≤ q := by have := key.q_eq; omega
    nlinarith
  · rw [Nat.le_div_iff_mul_le (by norm_num)]
    have h1 : 4 * (p' * q') ≤ p * q := by omega
    have h2 := Nat.mul_le_mul_left (p * q) h1
    linarith
  · have : p * q * (p * q) = 4 * (4 * (p' * q') * (p' * q') + 4 * (p' * q') * (p' + q') + (p' + q') * (p' + q') + 2 * (p' * q') + (p' + q')) + 1 := by
      rw [key.p_eq, key.q_eq]; ring
    omega

/-- an exponent is seldom above `n * p' * q'` -/
theorem SafeKey.high {p q p' q' : Nat} {g' : Int} (key : SafeKey p q p' q' g') :
    pr (fun x : Fin (p * q * (p * q) / 4) => p * q * (p' * q') ≤ (x : Nat)) ≤ ((p : ℚ) + q) / (p * q) := by
  obtain ⟨hn9, h0, h4, hX, hX4⟩ := key.sizes
  have hp2 := key.prime_p.two_le
  have hq2 := key.prime_q.two_le
  have hXpos : 0 < p * q * (p * q) / 4 := by omega
  refine le_trans (pr_above _ _ hX) ?_
  have e1 : (4 : ℚ) * ((p * q * (p * q) / 4 : Nat) : ℚ) + 1 = p * q * (p * q) := by exact_mod_cast hX4
  have e2 : (4 : ℚ) * (p' * q') + p + q = p * q + 1 := by exact_mod_cast h4
  have e3 : (9 : ℚ) ≤ p * q := by exact_mod_cast hn9
  have e4 : (0 : ℚ) < ((p * q * (p * q) / 4 : Nat) : ℚ) := by exact_mod_cast hXpos
  have e5 : (p : ℚ) + q ≤ p * q := by
    have h1 : (2 : ℚ) ≤ p := by exact_mod_cast hp2
    have h2 : (2 : ℚ) ≤ q := by exact_mod_cast hq2
    nlinarith
  rw [div_le_div_iff₀ e4 (by linarith)]
  push_cast at *
  generalize ((p * q * (p * q) / 4 : Nat) : ℚ) = X at *
  have hXv : X = ((p : ℚ) * q * (p * q) - 1) / 4 := by linarith
  have hn' : (p' : ℚ) * q' = (p * q + 1 - p - q) / 4 := by linarith
  rw [hn', hXv]
  nlinarith

/-- the second part of a pair -/
theorem pr_snd {X Y : Type} [Fintype X] [Fintype Y] [Nonempty X] (P : Y → Prop) : pr (fun z : X × Y => P z.2) = pr P := by
  have h := pr_bijective (Equiv.prodComm X Y) (Equiv.prodComm X Y).bijective (fun z : Y × X => P z.1)
  rw [pr_fst P] at h
  exact h

/-- a number below `n` is seldom not coprime to it -/
theorem SafeKey.clash {p q p' q' : Nat} {g' : Int} (key : SafeKey p q p' q' g') :
    pr (fun s : Fin (p * q) => ¬ Nat.Coprime (p * q) s) ≤ ((p : ℚ) + q) / (p * q) := by
  obtain ⟨hn9, h0, h4, hX, hX4⟩ := key.sizes
  have hpq : p - 1 = 2 * p' := by have := key.p_eq; omega
  have hqq : q - 1 = 2 * q' := by have := key.q_eq; omega
  refine le_trans (pr_not_coprime _) ?_
  have htot : Nat.totient (p * q) = 4 * (p' * q') := by
    rw [Nat.totient_mul ((Nat.coprime_primes key.prime_p key.prime_q).mpr key.ne), Nat.totient_prime key.prime_p, Nat.totient_prime key.prime_q, hpq, hqq]
    ring
  have e2 : (4 : ℚ) * (p' * q') + p + q = p * q + 1 := by exact_mod_cast h4
  have e3 : (9 : ℚ) ≤ p * q := by exact_mod_cast hn9
  rw [htot]
  push_cast
  exact div_le_div_of_nonneg_right (by linarith) (by linarith)

end bound

/-- **C217** Whatever guesser names the lists: the probabilities with which it says yes to the encryptions of the two lists differ by no more than the advantages
of the two solvers and `(k + 1) * (p + q) / n`. -/
theorem encryption_hides {p q p' q' : Nat} {g' : Int} (key : SafeKey p q p' q' g') (H : Bytes → Int) (A : Guesser) {k : Nat} (hk : 1 ≤ k) (hA : A.Legal k) :
    |pr (SaysYes H p q g' A (k := k) false) - pr (SaysYes H p q g' A (k := k) true)| ≤
      advantage H p q g' A k false + advantage H p q g' A k true + (k + 1) * ((p : ℚ) + q) / (p * q) := by
  obtain ⟨gU, i, hg, hG, hi, ht, hrun⟩ := key.run
  have hn := key.hn
  obtain ⟨hn9, h0, h4, hX, hX4⟩ := key.sizes
  have hXpos : 0 < p * q * (p * q) / 4 := by omega
  have hRpos : 0 < p * q / 4 := by omega
  have : Nonempty (Fin (p * q * (p * q) / 4)) := ⟨⟨0, hXpos⟩⟩
  have : Nonempty (Fin (p * q / 4)) := ⟨⟨0, hRpos⟩⟩
  have : Nonempty (Fin (p * q)) := ⟨⟨0, by omega⟩⟩
  have hne : Nonempty (Coins k (p * q) × Fin (p * q)) := inferInstance
  -- the probabilities of failure
  have hbox : pr (fun ω : Coins k (p * q) × Fin (p * q) => ∃ j, p * q * (p' * q') ≤ (ω.1.1 j : Nat)) ≤ k * (((p : ℚ) + q) / (p * q)) := by
    refine SDH.pr_exists_fin (fun j (ω : Coins k (p * q) × Fin (p * q)) => p * q * (p' * q') ≤ (ω.1.1 j : Nat)) _ fun j => ?_
    rw [pr_fst (fun ω : Coins k (p * q) => p * q * (p' * q') ≤ (ω.1 j : Nat)),
      pr_fst (fun x : Fin k → Fin (p * q * (p * q) / 4) => p * q * (p' * q') ≤ (x j : Nat)),
      pr_coord (fun x : Fin (p * q * (p * q) / 4) => p * q * (p' * q') ≤ (x : Nat)) j]
    exact key.high
  have hcop : pr (fun ω : Coins k (p * q) × Fin (p * q) => ¬ Nat.Coprime (p * q) ω.2) ≤ ((p : ℚ) + q) / (p * q) := by
    rw [pr_snd (X := Coins k (p * q)) (fun s : Fin (p * q) => ¬ Nat.Coprime (p * q) s)]
    exact key.clash
  -- blind instances
  have one : ∀ b, pr (YesToBlind H p q g' A (k := k) b) ≤ pr (YesToBlind H p q g' A (k := k) (!b)) + (k + 1) * ((p : ℚ) + q) / (p * q) := by
    intro b
    have hE : ∀ b, YesToBlind H p q g' A (k := k) b = fun ω => Yes H A b i gU (gU ^ ((ω.1.2.2.2 : Nat) : Int) * hU (p * q) ^ ((ω.2 : Nat) : Int)) ω.1.x1
        (ω.1.2.1 : Nat) (ω.1.2.2.1 : Nat) := fun b => funext fun ω => propext (yes_to_blind_iff H A b hn hi hG ω)
    have h1 := blind_le H A hA b i (by omega) hg key.coprime hX h0 hne
    rw [← hE (!b)] at h1
    have h2 : pr (YesToBlind H p q g' A (k := k) b) ≤ pr (fun ω : Coins k (p * q) × Fin (p * q) =>
        ((Yes H A b i gU (gU ^ ((ω.1.2.2.2 : Nat) : Int) * hU (p * q) ^ ((ω.2 : Nat) : Int)) ω.1.x1 (ω.1.2.1 : Nat) (ω.1.2.2.1 : Nat) ∧
          (∀ j, (ω.1.1 j : Nat) < p * q * (p' * q'))) ∧ Nat.Coprime (p * q) ω.2) ∨ ((∃ j, p * q * (p' * q') ≤ (ω.1.1 j : Nat)) ∨ ¬ Nat.Coprime (p * q) ω.2)) := by
      rw [hE]
      refine pr_mono fun ω hω => ?_
      by_cases hb : ∃ j, p * q * (p' * q') ≤ (ω.1.1 j : Nat)
      · exact Or.inr (Or.inl hb)
      · by_cases hc : Nat.Coprime (p * q) ω.2
        · push Not at hb
          exact Or.inl ⟨⟨hω, hb⟩, hc⟩
        · exact Or.inr (Or.inr hc)
    have h3 := pr_or (fun ω : Coins k (p * q) × Fin (p * q) =>
        ((Yes H A b i gU (gU ^ ((ω.1.2.2.2 : Nat) : Int) * hU (p * q) ^ ((ω.2 : Nat) : Int)) ω.1.x1 (ω.1.2.1 : Nat) (ω.1.2.2.1 : Nat) ∧
          (∀ j, (ω.1.1 j : Nat) < p * q * (p' * q'))) ∧ Nat.Coprime (p * q) ω.2)) (fun ω => (∃ j, p * q * (p' * q') ≤ (ω.1.1 j : Nat)) ∨ ¬ Nat.Coprime (p * q) ω.2)
    have h4 := pr_or (fun ω : Coins k (p * q) × Fin (p * q) => ∃ j, p * q * (p' * q') ≤ (ω.1.1 j : Nat)) (fun ω => ¬ Nat.Coprime (p * q) ω.2)
    have e : (k + 1) * ((p : ℚ) + q) / (p * q) = k * (((p : ℚ) + q) / (p * q)) + ((p : ℚ) + q) / (p * q) := by ring
    rw [e]
    linarith
  have two : |pr (YesToBlind H p q g' A (k := k) false) - pr (YesToBlind H p q g' A (k := k) true)| ≤ (k + 1) * ((p : ℚ) + q) / (p * q) := by
    have h1 := one false
    have h2 := one true
    simp only [Bool.not_false, Bool.not_true] at h1 h2
    rw [abs_le]
    constructor <;> linarith
  -- real instances
  have three : ∀ b, SaysYes H p q g' A (k := k) b = YesToPower H p q g' A (k := k) b := fun b => funext fun ω => propext
    ((says_yes_iff H hk hA b hn ht hrun ω).trans (yes_to_power_iff H A b hn hi hG ω).symm)
  rw [three, three]
  unfold advantage
  rw [abs_le] at two ⊢
  have a1 := abs_le.1 (le_refl |pr (YesToPower H p q g' A (k := k) false) - pr (YesToBlind H p q g' A (k := k) false)|)
  have a2 := abs_le.1 (le_refl |pr (YesToPower H p q g' A (k := k) true) - pr (YesToBlind H p q g' A (k := k) true)|)
  constructor <;> linarith

/-! ## A guesser that succeeds -/

/-- It knows `n' = p' * q'`, asks for `m` or `m'`, and looks whether `e ^ n' = (n + 1) ^ (n' * m)`. -/
def factorGuesser (n' : Nat) (m m' : Int) : Guesser where
  choose _ := ([], [m], [m'])
  guess pk c := ∃ e rest a b, c.e = e :: rest ∧ modExp e n' pk.group.modulus = .ok a ∧ modExp pk.group.h (n' * m) pk.group.modulus = .ok b ∧ a = b

theorem factorGuesser_legal (n' : Nat) (m m' : Int) {k : Nat} (hk : 1 ≤ k) : (factorGuesser n' m m').Legal k := fun _ => ⟨rfl, hk⟩

/-- **C217** Who knows the factors tells any two messages that differ modulo `n` apart, always. -/
theorem factors_tell {p q p' q' : Nat} {g' : Int} (key : SafeKey p q p' q' g') (H : Bytes → Int) {k : Nat} (hk : 1 ≤ k) (m m' : Int)
    (hm : ¬ m ≡ m' [ZMOD ((p * q : Nat) : Int)]) (ω : Coins k (p * q)) :
    SaysYes H p q g' (factorGuesser (p' * q') m m') false ω ∧ ¬ SaysYes H p q g' (factorGuesser (p' * q') m m') true ω := by
  obtain ⟨gU, i, hg, hG, hi, ht, hrun⟩ := key.run
  have hn := key.hn
  have hN : 1 < (p * q) * (p * q) := by nlinarith
  have : NeZero ((p * q) * (p * q)) := neZero_of hN
  have hA := factorGuesser_legal (p' * q') m m' hk
  obtain ⟨x, xs, hx⟩ : ∃ x xs, ω.x1 = x :: xs := by
    have := Coins.x1_length ω
    rcases h : ω.x1 with _ | ⟨x, xs⟩
    · rw [h] at this; simp at this; omega
    · exact ⟨x, xs, rfl⟩
  have main : ∀ b, SaysYes H p q g' (factorGuesser (p' * q') m m') b ω ↔ m ≡ (if b then m' else m) [ZMOD ((p * q : Nat) : Int)] := by
    intro b
    rw [says_yes_iff H hk hA b hn ht hrun]
    have hpick : ∀ pk, (factorGuesser (p' * q') m m').pick pk b = [if b then m' else m] := by intro pk; cases b <;> rfl
    unfold Yes
    generalize hM : (if b then m' else m) = M at hpick ⊢
    rw [hpick]
    simp only [factorGuesser, cipherOf, hx, eOf, List.zipWith_cons_cons]
    have he : ∀ r : Int, modExp (val ((gU ^ r) ^ x * hU (p * q) ^ M)) ((p' * q' : Nat) : Int) (((p * q) * (p * q) : Nat) : Int) =
        .ok (val (hU (p * q) ^ (((p' * q' : Nat) : Int) * M))) := by
      intro r
      rw [(rep_val _).modExp hN]
      congr 2
      have h1 : ((gU ^ r) ^ x) ^ ((p' * q' : Nat) : Int) = 1 := by
        rw [zpow_comm, zpow_comm gU, zpow_natCast gU, hg, one_zpow, one_zpow]
      rw [mul_zpow, h1, one_mul, zpow_comm, ← zpow_mul]
    have hh : modExp (keyOf (p * q) (lshift1 i) gU (x :: xs) (ω.2.1 : Nat) (ω.2.2.1 : Nat)).group.h (((p' * q' : Nat) : Int) * m) (((p * q) * (p * q) : Nat) : Int) =
        .ok (val (hU (p * q) ^ (((p' * q' : Nat) : Int) * m))) := (rep_h (p * q)).modExp hN _
    constructor
    · rintro ⟨e, rest, a, c, h1, h2, h3, h4⟩
      simp only [List.cons.injEq] at h1
      obtain ⟨rfl, -⟩ := h1
      rw [show (keyOf (p * q) (lshift1 i) gU (x :: xs) (ω.2.1 : Nat) (ω.2.2.1 : Nat)).group.modulus = (((p * q) * (p * q) : Nat) : Int) from rfl] at h2 h3
      rw [he] at h2
      rw [hh] at h3
      cases h2
      cases h3
      have h5 := hU_inj (p * q) hn _ _ (val_injective h4)
      have hc : Int.gcd ((p * q : Nat) : Int) ((p' * q' : Nat) : Int) = 1 := by exact_mod_cast key.coprime
      have h6 := h5.dvd
      rw [← mul_sub] at h6
      have h7 : IsCoprime ((p * q : Nat) : Int) ((p' * q' : Nat) : Int) := Int.isCoprime_iff_gcd_eq_one.2 hc
      exact (Int.modEq_iff_dvd.2 (h7.dvd_of_dvd_mul_left h6)).symm
    · intro h
      refine ⟨_, _, _, _, rfl, he _, hh, congrArg val (hU_congr _ _ _ ?_)⟩
      exact (h.mul_left _).symm
  exact ⟨(main false).2 (Int.ModEq.refl _), fun h => hm ((main true).1 h)⟩

/-- **C217** So one of the solvers that use such a guesser does well. -/
theorem factors_solve {p q p' q' : Nat} {g' : Int} (key : SafeKey p q p' q' g') (H : Bytes → Int) {k : Nat} (hk : 1 ≤ k) (m m' : Int)
    (hm : ¬ m ≡ m' [ZMOD ((p * q : Nat) : Int)]) :
    1 - (k + 1) * ((p : ℚ) + q) / (p * q) ≤
      advantage H p q g' (factorGuesser (p' * q') m m') k false + advantage H p q g' (factorGuesser (p' * q') m m') k true := by
  have h := encryption_hides key H (factorGuesser (p' * q') m m') hk (factorGuesser_legal _ _ _ hk)
  have hn9 : 9 ≤ p * q := by
    have h1 : 3 ≤ p := by have := key.p_eq; have := key.prime_p.two_le; omega
    have h2 : 3 ≤ q := by have := key.q_eq; have := key.prime_q.two_le; omega
    nlinarith
  have : Nonempty (Fin (p * q * (p * q) / 4)) := ⟨⟨0, by have : 81 ≤ p * q * (p * q) := Nat.mul_le_mul hn9 hn9; omega⟩⟩
  have : Nonempty (Fin (p * q / 4)) := ⟨⟨0, by omega⟩⟩
  rw [pr_one (fun ω => (factors_tell key H hk m m' hm ω).1), pr_false _ (fun ω => (factors_tell key H hk m m' hm ω).2), sub_zero, abs_one] at h
  linarith

/-- 7 and 11 are primes of this form -/
theorem key77 : SafeKey 7 11 3 5 2 := ⟨by norm_num, by norm_num, rfl, rfl, by norm_num, by decide, by norm_num, by decide⟩

example : |pr (SaysYes (fun _ => 0) 7 11 2 (factorGuesser 15 1 2) (k := 2) false) - pr (SaysYes (fun _ => 0) 7 11 2 (factorGuesser 15 1 2) (k := 2) true)| ≤
    advantage (fun _ => 0) 7 11 2 (factorGuesser 15 1 2) 2 false + advantage (fun _ => 0) 7 11 2 (factorGuesser 15 1 2) 2 true + (2 + 1) * (7 + 11) / (7 * 11) := by
  simpa using encryption_hides key77 (fun _ => 0) (factorGuesser 15 1 2) (k := 2) (by norm_num) (factorGuesser_legal 15 1 2 (by norm_num))

example : 23 / 77 ≤ advantage (fun _ => 0) 7 11 2 (factorGuesser 15 1 2) 2 false + advantage (fun _ => 0) 7 11 2 (factorGuesser 15 1 2) 2 true := by
  have := factors_solve key77 (fun _ => 0) (k := 2) (by norm_num) 1 2 (by decide)
  norm_num at this ⊢
  exact this

end Verif.CS
