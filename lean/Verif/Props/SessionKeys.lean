import Verif.Props.Ed25519Forgery
import Verif.Props.Secp256k1
import Verif.Props.SymmCCA
/-!
# C227: whoever tells a session key from random bytes computes the common point

SHA-256 is a random function `f` on the strings of at most `L` bytes.  Two parties draw their key pairs and exchange the public keys.  An eavesdropper sees both public
keys and 32 bytes, which are the session key or fresh random bytes, may ask for hash values, and says which.
-/
set_option linter.unusedSectionVars false
set_option linter.unusedVariables false
namespace Verif.Sig
open Verif.Forking

/-! ## Specification -/

/-- an eavesdropper: gets the two public keys and 32 bytes, asks for hash values, says yes or no -/
abbrev Eavesdropper (L : Nat) := Bytes → Bytes → Bytes → Prover (Query L) (Str 32) Bool

section spec
variable {Pt : Type} [AddCommGroup Pt] (D : Dalek Pt)

/-- the library with the random function `f` for SHA-256 -/
def Dalek.withHash256 {L : Nat} (f : Query L → Str 32) : Dalek Pt :=
  { D with
    sha256 := fun b => if h : b.length ≤ L then (f ⟨b, h⟩).1 else List.replicate 32 0
    sha256_length := fun b => by
      split
      · exact (f _).2
      · exact List.length_replicate }

/-- The coins: what the system generator gives to both parties, the hash function, 32 random bytes. -/
abbrev KexCoins (K : Type) (L : Nat) : Type := (K × K) × (Query L → Str 32) × Str 32

/-- the eavesdropper says yes when it is shown the session key -/
def XReal {L : Nat} (A : Eavesdropper L) (ω : KexCoins (Str 32) L) : Prop :=
  ∃ pk sk pk' sk' key, (D.withHash256 ω.2.1).xKeypair ω.1.1.1 none = .ok (pk, sk) ∧ (D.withHash256 ω.2.1).xKeypair ω.1.2.1 none = .ok (pk', sk') ∧
    (D.withHash256 ω.2.1).xSharedSecret sk pk' = .ok key ∧ (A pk pk' key).run ω.2.1 = true

/-- the eavesdropper says yes when it is shown 32 random bytes -/
def XRandom {L : Nat} (A : Eavesdropper L) (ω : KexCoins (Str 32) L) : Prop :=
  ∃ pk sk pk' sk', (D.withHash256 ω.2.1).xKeypair ω.1.1.1 none = .ok (pk, sk) ∧ (D.withHash256 ω.2.1).xKeypair ω.1.2.1 none = .ok (pk', sk') ∧
    (A pk pk' ω.2.2.1).run ω.2.1 = true

/-- The finder of common points: it has the two public keys only, runs the eavesdropper with random bytes and a random function, and gives question number `i`. -/
def commonPoint {L : Nat} (A : Eavesdropper L) (pk pk' : Bytes) (f : Query L → Str 32) (key : Str 32) (i : Nat) : Option Bytes := (((A pk pk' key.1).asked f)[i]?).map (·.1)

/-- It is right: the point belongs to the product of the private keys. -/
def XFinds {L : Nat} (A : Eavesdropper L) {q : Nat} (ω : KexCoins (Str 32) L × Fin q) : Prop :=
  commonPoint A (D.mont (ofLe (clamp ω.1.1.1.1) • D.base)) (D.mont (ofLe (clamp ω.1.1.2.1) • D.base)) ω.1.2.1 ω.1.2.2 ω.2 =
    some (D.mont ((ofLe (clamp ω.1.1.1.1) * ofLe (clamp ω.1.1.2.1)) • D.base))
end spec

section spec
variable {n : Nat} [Fact n.Prime] {G : Type} [AddCommGroup G] [Module (ZMod n) G] (S : Secp n G)

/-- the library with the random function `f` for SHA-256 -/
def Secp.withHash256 {L : Nat} (f : Query L → Str 32) : Secp n G :=
  { S with
    sha256 := fun b => if h : b.length ≤ L then (f ⟨b, h⟩).1 else List.replicate 32 0
    sha256_length := fun b => by
      split
      · exact (f _).2
      · exact List.length_replicate }

/-- the numbers that are private keys -/
abbrev Priv (n : Nat) : Type := {d : ZMod n // d ≠ 0}

/-- the eavesdropper says yes when it is shown the session key of two loaded random private keys -/
def SReal {L : Nat} (A : Eavesdropper L) (ω : KexCoins (Priv n) L) : Prop :=
  ∃ pk sk pk' sk' key, (S.withHash256 ω.2.1).keypair [] (some (.fromSecretKey (toBe 32 ω.1.1.1.val))) = .ok (pk, sk) ∧
    (S.withHash256 ω.2.1).keypair [] (some (.fromSecretKey (toBe 32 ω.1.2.1.val))) = .ok (pk', sk') ∧
    (S.withHash256 ω.2.1).sharedNative sk pk' = .ok key ∧ (A pk pk' key).run ω.2.1 = true

/-- the eavesdropper says yes when it is shown 32 random bytes -/
def SRandom {L : Nat} (A : Eavesdropper L) (ω : KexCoins (Priv n) L) : Prop :=
  ∃ pk sk pk' sk', (S.withHash256 ω.2.1).keypair [] (some (.fromSecretKey (toBe 32 ω.1.1.1.val))) = .ok (pk, sk) ∧
    (S.withHash256 ω.2.1).keypair [] (some (.fromSecretKey (toBe 32 ω.1.2.1.val))) = .ok (pk', sk') ∧ (A pk pk' ω.2.2.1).run ω.2.1 = true

/-- The finder is right. -/
def SFinds {L : Nat} (A : Eavesdropper L) {q : Nat} (ω : KexCoins (Priv n) L × Fin q) : Prop :=
  commonPoint A (S.ser (ω.1.1.1.1 • S.base)) (S.ser (ω.1.1.2.1 • S.base)) ω.1.2.1 ω.1.2.2 ω.2 = some (S.ser ((ω.1.1.1.1 * ω.1.1.2.1) • S.base))
end spec

/-! ## Proof -/

section generic
variable {K Q H : Type} [Fintype K] [Fintype Q] [DecidableEq Q] [Fintype H] [Nonempty H]

theorem run_congr {O : Type} (f g : Q → H) : ∀ A : Prover Q H O, (∀ d ∈ A.asked f, g d = f d) → A.run g = A.run f
  | .out o, _ => rfl
  | .ask d next, h => by
    have h1 : g d = f d := h d List.mem_cons_self
    show (next (g d)).run g = (next (f d)).run f
    rw [h1]
    exact run_congr f g (next (f d)) fun d' hd' => h d' (List.mem_cons_of_mem _ hd')

/-- exchanging the value of the hash function at `x` with the random bytes -/
def swapAt (x : K → Q) (ω : K × (Q → H) × H) : K × (Q → H) × H := (ω.1, Function.update ω.2.1 (x ω.1) ω.2.2, ω.2.1 (x ω.1))

theorem swapAt_swapAt (x : K → Q) (ω : K × (Q → H) × H) : swapAt x (swapAt x ω) = ω := by
  obtain ⟨k, f, y⟩ := ω
  unfold swapAt
  simp

/-- The value at `x` looks random to whoever does not ask for it. -/
theorem value_close (x : K → Q) (A : K → H → Prover Q H Bool) :
    |pr (fun ω : K × (Q → H) × H => (A ω.1 (ω.2.1 (x ω.1))).run ω.2.1 = true) - pr (fun ω : K × (Q → H) × H => (A ω.1 ω.2.2).run ω.2.1 = true)| ≤
      pr (fun ω : K × (Q → H) × H => x ω.1 ∈ (A ω.1 ω.2.2).asked ω.2.1) := by
  have hb : Function.Bijective (swapAt (H := H) x) := Function.bijective_iff_has_inverse.2 ⟨swapAt x, swapAt_swapAt x, swapAt_swapAt x⟩
  rw [← pr_bijective _ hb (fun ω : K × (Q → H) × H => (A ω.1 (ω.2.1 (x ω.1))).run ω.2.1 = true)]
  refine Symm.pr_close _ _ _ ?_
  intro ω hω
  unfold swapAt
  dsimp only
  rw [Function.update_self, run_congr ω.2.1 _ _ ?_]
  intro d hd
  exact Function.update_of_ne (fun e : d = x ω.1 => hω (e ▸ hd)) _ _

/-- one of at most `q` questions, picked at random -/
theorem pick {Ω : Type} [Fintype Ω] (q : Nat) (l : Ω → List Q) (hl : ∀ ω, (l ω).length ≤ q) (x : Ω → Q) :
    pr (fun ω => x ω ∈ l ω) ≤ q * pr (fun z : Ω × Fin q => (l z.1)[(z.2 : Nat)]? = some (x z.1)) := by
  have hsw : pr (fun z : Ω × Fin q => (l z.1)[(z.2 : Nat)]? = some (x z.1)) = pr (fun z : Fin q × Ω => (l z.2)[(z.1 : Nat)]? = some (x z.2)) :=
    pr_bijective (fun z : Ω × Fin q => (z.2, z.1)) (Equiv.prodComm Ω (Fin q)).bijective (fun z : Fin q × Ω => (l z.2)[(z.1 : Nat)]? = some (x z.2))
  rw [hsw, pr_prod, Fintype.card_fin]
  rcases Nat.eq_zero_or_pos q with h0 | h0
  · subst h0
    have : pr (fun ω => x ω ∈ l ω) = 0 := pr_false _ fun ω h => by
      have := List.length_eq_zero_iff.1 (Nat.le_zero.1 (hl ω))
      rw [this] at h
      exact absurd h List.not_mem_nil
    rw [this]
    simp
  · rw [mul_div_cancel₀ _ (by positivity : (q : ℚ) ≠ 0)]
    refine le_trans (pr_mono (Q := fun ω => ∃ j < q, (l ω)[j]? = some (x ω)) ?_) ((Symm.pr_exists_sum q (fun j ω => (l ω)[j]? = some (x ω))).trans ?_)
    · intro ω h
      obtain ⟨j, hj, he⟩ := List.getElem_of_mem h
      exact ⟨j, hj.trans_le (hl ω), by rw [List.getElem?_eq_getElem hj, he]⟩
    · rw [Finset.sum_range]
end generic

section x25519
variable {Pt : Type} [AddCommGroup Pt] (D : Dalek Pt)

theorem xReal_iff {L : Nat} (hL : 32 ≤ L) (A : Eavesdropper L) (ω : KexCoins (Str 32) L) :
    XReal D A ω ↔ (A (D.mont (ofLe (clamp ω.1.1.1) • D.base)) (D.mont (ofLe (clamp ω.1.2.1) • D.base))
      (ω.2.1 ⟨D.mont ((ofLe (clamp ω.1.1.1) * ofLe (clamp ω.1.2.1)) • D.base), (D.mont_length _).trans_le hL⟩).1).run ω.2.1 = true := by
  have hkey : (D.withHash256 ω.2.1).xSharedSecret (clamp ω.1.1.1) (D.mont (ofLe (clamp ω.1.2.1) • D.base)) =
      .ok (ω.2.1 ⟨D.mont ((ofLe (clamp ω.1.1.1) * ofLe (clamp ω.1.2.1)) • D.base), (D.mont_length _).trans_le hL⟩).1 := by
    unfold Dalek.xSharedSecret
    rw [arrayRef32_of_length _ (by rw [clamp_length, ω.1.1.2]), Res.ok_bind, arrayRef32_of_length _ (D.mont_length _), Res.ok_bind, clamp_clamp _ ω.1.1.2]
    have e : (D.withHash256 ω.2.1).ladder (ofLe (clamp ω.1.1.1)) (D.mont (ofLe (clamp ω.1.2.1) • D.base)) =
        D.mont ((ofLe (clamp ω.1.1.1) * ofLe (clamp ω.1.2.1)) • D.base) := by
      rw [mul_smul]
      exact D.ladder_mont _ _
    rw [e]
    exact congrArg Res.ok (dif_pos _)
  constructor
  · rintro ⟨pk, sk, pk', sk', key, h1, h2, h3, h4⟩
    cases h1
    cases h2
    have h5 := h3.symm.trans hkey
    rw [Res.ok.injEq] at h5
    rw [h5] at h4
    exact h4
  · intro h
    exact ⟨_, _, _, _, _, rfl, rfl, hkey, h⟩

theorem xRandom_iff {L : Nat} (A : Eavesdropper L) (ω : KexCoins (Str 32) L) :
    XRandom D A ω ↔ (A (D.mont (ofLe (clamp ω.1.1.1) • D.base)) (D.mont (ofLe (clamp ω.1.2.1) • D.base)) ω.2.2.1).run ω.2.1 = true := by
  constructor
  · rintro ⟨pk, sk, pk', sk', h1, h2, h4⟩
    cases h1
    cases h2
    exact h4
  · intro h
    exact ⟨_, _, _, _, rfl, rfl, h⟩

/-- **C227** An eavesdropper of an X25519 key exchange that asks at most `q` questions says yes about the session key and about random bytes with probabilities that differ
by at most `q` times the probability that `commonPoint` finds the common point from the two public keys. -/
theorem x25519_session_key_hidden {L : Nat} (hL : 32 ≤ L) (A : Eavesdropper L) (q : Nat) (hq : ∀ pk pk' key, (A pk pk' key).AtMost q) :
    |pr (fun ω => XReal D A ω) - pr (fun ω => XRandom D A ω)| ≤ q * pr (fun ω : KexCoins (Str 32) L × Fin q => XFinds D A ω) := by
  simp only [xReal_iff D hL, xRandom_iff]
  refine (value_close (fun k : Str 32 × Str 32 => (⟨D.mont ((ofLe (clamp k.1.1) * ofLe (clamp k.2.1)) • D.base), (D.mont_length _).trans_le hL⟩ : Query L))
    (fun k y => A (D.mont (ofLe (clamp k.1.1) • D.base)) (D.mont (ofLe (clamp k.2.1) • D.base)) y.1)).trans ?_
  refine (pick q _ (fun ω => asked_length _ q _ (hq _ _ _)) _).trans ?_
  refine mul_le_mul_of_nonneg_left (pr_mono ?_) (Nat.cast_nonneg _)
  intro z hz
  unfold XFinds commonPoint
  rw [hz]
  rfl
end x25519

section secp
variable {n : Nat} [Fact n.Prime] {G : Type} [AddCommGroup G] [Module (ZMod n) G] (S : Secp n G)

theorem secret_of_priv (S : Secp n G) (d : Priv n) : secretFromSlice n (toBe 32 d.1.val) = some d.1 := by
  have hlt : d.1.val < 256 ^ 32 := (ZMod.val_lt d.1).trans (S.n_lt.trans_le (by norm_num))
  have h0 : 0 < d.1.val := Nat.pos_of_ne_zero fun h => d.2 ((ZMod.val_eq_zero _).1 h)
  unfold secretFromSlice
  rw [ofBe_toBe _ _ hlt, if_pos ⟨toBe_length _ _, h0, ZMod.val_lt _⟩, ZMod.natCast_zmod_val]

theorem keypair_of_priv (os : Bytes) (d : Priv n) : S.keypair os (some (.fromSecretKey (toBe 32 d.1.val))) = .ok (S.ser (d.1 • S.base), toBe 32 d.1.val) := by
  unfold Secp.keypair Secp.keyBytes
  rw [Res.ok_bind, secret_of_priv S d]
  rfl

theorem sReal_iff {L : Nat} (hL : 33 ≤ L) (A : Eavesdropper L) (ω : KexCoins (Priv n) L) :
    SReal S A ω ↔ (A (S.ser (ω.1.1.1 • S.base)) (S.ser (ω.1.2.1 • S.base))
      (ω.2.1 ⟨S.ser ((ω.1.1.1 * ω.1.2.1) • S.base), (S.ser_length _).trans_le hL⟩).1).run ω.2.1 = true := by
  have hkey : (S.withHash256 ω.2.1).sharedNative (toBe 32 ω.1.1.1.val) (S.ser (ω.1.2.1 • S.base)) =
      .ok (ω.2.1 ⟨S.ser ((ω.1.1.1 * ω.1.2.1) • S.base), (S.ser_length _).trans_le hL⟩).1 := by
    unfold Secp.sharedNative
    have hp : (S.withHash256 ω.2.1).parse (S.ser (ω.1.2.1 • S.base)) = some (ω.1.2.1 • S.base) := S.parse_ser _ (smul_ne_zero ω.1.2.2 S.base_ne)
    rw [secret_of_priv S ω.1.1, Res.ofOption_some, Res.ok_bind, hp, Res.ofOption_some, Res.ok_bind, ← mul_smul]
    exact congrArg Res.ok (dif_pos _)
  unfold SReal
  rw [keypair_of_priv, keypair_of_priv]
  constructor
  · rintro ⟨pk, sk, pk', sk', key, h1, h2, h3, h4⟩
    cases h1
    cases h2
    have h5 := h3.symm.trans hkey
    rw [Res.ok.injEq] at h5
    rw [h5] at h4
    exact h4
  · intro h
    exact ⟨_, _, _, _, _, rfl, rfl, hkey, h⟩

theorem sRandom_iff {L : Nat} (A : Eavesdropper L) (ω : KexCoins (Priv n) L) :
    SRandom S A ω ↔ (A (S.ser (ω.1.1.1 • S.base)) (S.ser (ω.1.2.1 • S.base)) ω.2.2.1).run ω.2.1 = true := by
  unfold SRandom
  rw [keypair_of_priv, keypair_of_priv]
  constructor
  · rintro ⟨pk, sk, pk', sk', h1, h2, h4⟩
    cases h1
    cases h2
    exact h4
  · intro h
    exact ⟨_, _, _, _, rfl, rfl, h⟩

/-- **C227** The same for the native build of the key exchange on secp256k1, with private keys that are random numbers. -/
theorem secp256k1_session_key_hidden {L : Nat} (hL : 33 ≤ L) (A : Eavesdropper L) (q : Nat) (hq : ∀ pk pk' key, (A pk pk' key).AtMost q) :
    |pr (fun ω => SReal S A ω) - pr (fun ω => SRandom S A ω)| ≤ q * pr (fun ω : KexCoins (Priv n) L × Fin q => SFinds S A ω) := by
  simp only [sReal_iff S hL, sRandom_iff]
  refine (value_close (fun k : Priv n × Priv n => (⟨S.ser ((k.1.1 * k.2.1) • S.base), (S.ser_length _).trans_le hL⟩ : Query L))
    (fun k y => A (S.ser (k.1.1 • S.base)) (S.ser (k.2.1 • S.base)) y.1)).trans ?_
  refine (pick q _ (fun ω => asked_length _ q _ (hq _ _ _)) _).trans ?_
  refine mul_le_mul_of_nonneg_left (pr_mono ?_) (Nat.cast_nonneg _)
  intro z hz
  unfold SFinds commonPoint
  rw [hz]
  rfl
end secp

/-! ### Non-vacuity: where logarithms are easy, there is an eavesdropper that always recognises the session key -/
section Examples

/-- reads both private keys off the public keys and asks for the hash of the common point -/
def toyEavesdropper : Eavesdropper 33 := fun pk pk' key =>
  .ask ⟨toySecp.ser ((toySecp.parse pk).getD 0 * (toySecp.parse pk').getD 0), (toySecp.ser_length _).le⟩ fun y => .out (decide (y.1 = key))

example (ω : KexCoins (Priv 101) 33) : SReal toySecp toyEavesdropper ω := by
  rw [sReal_iff toySecp le_rfl]
  unfold toyEavesdropper
  have h1 := toySecp.parse_ser (ω.1.1.1 • toySecp.base) (smul_ne_zero ω.1.1.2 toySecp.base_ne)
  have h2 := toySecp.parse_ser (ω.1.2.1 • toySecp.base) (smul_ne_zero ω.1.2.2 toySecp.base_ne)
  have h3 : ∀ a : ZMod 101, a • toySecp.base = a := fun a => mul_one a
  rw [h3] at h1 h2
  show decide (_ = _) = true
  rw [decide_eq_true_eq]
  simp only [h1, h2, Option.getD_some, h3]

/-- and the finder finds the common point -/
example (ω : KexCoins (Priv 101) 33) : SFinds toySecp toyEavesdropper (q := 1) (ω, 0) := by
  unfold SFinds commonPoint toyEavesdropper
  have h1 := toySecp.parse_ser (ω.1.1.1 • toySecp.base) (smul_ne_zero ω.1.1.2 toySecp.base_ne)
  have h2 := toySecp.parse_ser (ω.1.2.1 • toySecp.base) (smul_ne_zero ω.1.2.2 toySecp.base_ne)
  have h3 : ∀ a : ZMod 101, a • toySecp.base = a := fun a => mul_one a
  rw [h3] at h1 h2
  simp only [h1, h2, Option.getD_some, h3]
  rfl

example : |pr (fun ω => SReal toySecp toyEavesdropper ω) - pr (fun ω => SRandom toySecp toyEavesdropper ω)| ≤
    (1 : ℕ) * pr (fun ω : KexCoins (Priv 101) 33 × Fin 1 => SFinds toySecp toyEavesdropper ω) :=
  secp256k1_session_key_hidden toySecp le_rfl toyEavesdropper 1 fun _ _ _ => fun _ => trivial

example (A : Eavesdropper 32) (q : Nat) (hq : ∀ pk pk' key, (A pk pk' key).AtMost q) :
    |pr (fun ω => XReal toyDalek A ω) - pr (fun ω => XRandom toyDalek A ω)| ≤ q * pr (fun ω : KexCoins (Str 32) 32 × Fin q => XFinds toyDalek A ω) :=
  x25519_session_key_hidden toyDalek le_rfl A q hq
end Examples
end Verif.Sig
