import Verif.Props.SchnorrReduction
import Verif.Props.X25519
/-!
# C201: forging Ed25519 signatures is finding discrete logarithms

SHA-512 is a random function `f`.  A forger gets the public key of a generated key pair, asks for hash values and for signatures of messages it
chooses, and outputs a message it has not had signed, and a signature that `verify` accepts.  Running it twice without the private key yields the
discrete logarithm of the public key.
-/
set_option linter.unusedSectionVars false
set_option linter.unusedVariables false
set_option linter.unusedSimpArgs false
namespace Verif.Sig
open Verif.Forking Verif.Schnorr

/-! ## Byte strings -/

/-- the byte strings of `n` bytes -/
abbrev Str (n : Nat) := {b : Bytes // b.length = n}

/-- a byte string as a number -/
def Str.num (n : Nat) : Str n ≃ Fin (256 ^ n) where
  toFun b := ⟨ofLe b.1, by have := ofLe_lt b.1; rwa [b.2] at this⟩
  invFun i := ⟨toLe n i, toLe_length _ _⟩
  left_inv b := by
    apply Subtype.ext
    have := toLe_ofLe b.1
    rw [b.2] at this
    exact this
  right_inv i := Fin.ext (ofLe_toLe n i i.2)

instance (n : Nat) : Fintype (Str n) := Fintype.ofEquiv _ (Str.num n).symm

theorem Str.card (n : Nat) : Fintype.card (Str n) = 256 ^ n := by
  rw [Fintype.card_congr (Str.num n), Fintype.card_fin]

instance (n : Nat) : Nonempty (Str n) := ⟨⟨List.replicate n 0, List.length_replicate⟩⟩

theorem Str.inj {n : Nat} {a b : Str n} (h : ofLe a.1 = ofLe b.1) : a = b :=
  (Str.num n).injective (Fin.ext h)

theorem Str.lt {n : Nat} (a : Str n) : ofLe a.1 < 256 ^ n := by
  have := ofLe_lt a.1
  rwa [a.2] at this

/-- the two halves -/
def Str.halves : Str 64 ≃ Str 32 × Str 32 where
  toFun b := (⟨b.1.take 32, by rw [List.length_take, b.2]; rfl⟩, ⟨b.1.drop 32, by rw [List.length_drop, b.2]⟩)
  invFun p := ⟨p.1.1 ++ p.2.1, by rw [List.length_append, p.1.2, p.2.2]⟩
  left_inv b := Subtype.ext (List.take_append_drop 32 b.1)
  right_inv p := Prod.ext (Subtype.ext (List.take_left' p.1.2)) (Subtype.ext (List.drop_left' p.1.2))

/-- a byte string as a question, cut off if it is too long -/
def query (L : Nat) (b : Bytes) : Query L := ⟨b.take L, List.length_take_le _ _⟩

theorem query_val (L : Nat) (b : Bytes) (h : b.length ≤ L) : (query L b).1 = b := List.take_of_length_le h

variable {Pt : Type} [AddCommGroup Pt] (D : Dalek Pt)

/-! ## The game -/

/-- the library with the random function `f` for SHA-512 -/
def Dalek.withHash {L : Nat} (f : Query L → Str 64) : Dalek Pt :=
  { D with
    sha512 := fun b => if h : b.length ≤ L then (f ⟨b, h⟩).1 else List.replicate 64 0
    sha512_length := fun b => by
      split
      · exact (f _).2
      · exact List.length_replicate }

/-- a forger of signatures of messages of at most `n` bytes, that asks for hash values of at most `L` bytes -/
abbrev EdForger (L n : Nat) := Forger (Query L) (Str 64) (Query n) (Res CryptoError Bytes) (Query n × Bytes)

/-- With the random function `f` and the key pair generated from `secret`: the forger `A` (which is given the public key) outputs a message that it
has not had signed, and a signature of it that is accepted. -/
def Forges {L n : Nat} (A : Bytes → EdForger L n) (secret : Str 32) (f : Query L → Str 64) : Prop :=
  ∃ pk sk, (D.withHash f).keypair secret.1 none = .ok (pk, sk) ∧
    let signer : Query n → Res CryptoError Bytes := fun m => (D.withHash f).sign m.1 sk
    let o := (A pk).run f signer
    o.1 ∉ (A pk).signed f signer ∧ (D.withHash f).verify o.1.1 o.2 pk = .ok true

/-! ## The two runs without the private key -/

/-- a number that is uniformly distributed modulo the order, if the string is -/
def Dalek.Usable (z : Str 64) : Prop := ofLe z.1 < D.ell * (256 ^ 64 / D.ell)

instance : DecidablePred D.Usable := fun z => inferInstanceAs (Decidable (_ < _))

/-- the first half of the signature with the second half `z` for the challenge `k` -/
def Dalek.simCommit (P : Pt) (k z : Str 64) : Bytes :=
  if D.Usable z then D.enc (ofLe z.1 • D.base - (ofLe k.1 % D.ell) • P) else D.enc ((ofLe z.1 % D.ell) • D.base)

/-- the place of the challenge of that signature -/
def Dalek.simPoint (L n : Nat) (P : Pt) (k z : Str 64) (m : Query n) : Query L := query L (D.simCommit P k z ++ D.enc P ++ m.1)

/-- that signature -/
def Dalek.simSign (n : Nat) (P : Pt) (k z : Str 64) (m : Query n) : Res CryptoError Bytes :=
  .ok (D.simCommit P k z ++ toLe 32 (ofLe z.1 % D.ell))

/-- the message that a question is about -/
def messageOf {L n : Nat} (x : Query L) : Option (Query n) :=
  if h : 64 ≤ x.1.length ∧ x.1.length ≤ 64 + n then some ⟨x.1.drop 64, by rw [List.length_drop]; omega⟩ else none

/-- the place of the challenge of a signature of a message -/
def Dalek.question (L : Nat) {n : Nat} (P : Pt) (o : Query n × Bytes) : Query L := query L (o.2.take 32 ++ D.enc P ++ o.1.1)

/-- the forger run for the public key `P` -/
def Dalek.simulation {L n : Nat} (A : Bytes → EdForger L n) (P : Pt) (Z K : Query n → Str 64) : Prover (Query L) (Str 64) (Option (Query n × Bytes)) :=
  simulate messageOf D.Usable (D.simPoint L n P) (D.simSign n P) Z K (A (D.enc P))

/-- The extractor, which is given the public key `P` and random `Z`, `K`, `f`, `f'`: run the forger, run it again with new answers from the question on
that its signature is checked with, and divide the difference of the second halves of the signatures by the difference of the challenges. -/
noncomputable def Dalek.extractor {L n : Nat} (A : Bytes → EdForger L n) (P : Pt) (Z K : Query n → Str 64) (f f' : Query L → Str 64) : Option (ZMod D.ell) :=
  let g := second (ask (query L []) (D.question L P)) (D.simulation A P Z K) f f'
  match (D.simulation A P Z K).run f, (D.simulation A P Z K).run g with
  | some o, some o' => some (((ofLe (o.2.drop 32) : ZMod D.ell) - ofLe (o'.2.drop 32)) *
      (((ofLe (f (D.question L P o)).1 % D.ell : Nat) : ZMod D.ell) - ((ofLe (g (D.question L P o')).1 % D.ell : Nat) : ZMod D.ell))⁻¹)
  | _, _ => none

/-- the public key of a private scalar that is `low` before the bits are fixed -/
def Dalek.keyPoint (low : Str 32) : Pt := ofLe (clamp low.1) • D.base

/-! ## Counting -/

theorem card_usable (l : Finset (Str 64)) (h : ∀ d ∈ l, ¬ D.Usable d) : l.card ≤ D.ell := by
  have hl := D.ell_pos
  generalize hV : 256 ^ 64 = V at *
  have h1 : l.card ≤ (Finset.Ico (D.ell * (V / D.ell)) V).card := by
    refine Finset.card_le_card_of_injOn (fun d => ofLe d.1) ?_ (fun a _ b _ e => Str.inj e)
    intro d hd
    have h2 := h d hd
    have h3 := Str.lt d
    rw [Dalek.Usable, hV] at h2
    rw [hV] at h3
    rw [Finset.mem_coe, Finset.mem_Ico]
    exact ⟨not_lt.1 h2, h3⟩
  rw [Nat.card_Ico] at h1
  have h2 := Nat.div_add_mod V D.ell
  have h3 := Nat.mod_lt V hl
  omega

theorem card_residue (r : Nat) (l : Finset (Str 64)) (h : ∀ d ∈ l, ofLe d.1 % D.ell = r) : l.card ≤ 256 ^ 64 / D.ell + 1 := by
  have hl := D.ell_pos
  generalize hV : 256 ^ 64 = V
  have h1 : l.card ≤ (Finset.range (V / D.ell + 1)).card := by
    refine Finset.card_le_card_of_injOn (fun d => ofLe d.1 / D.ell) ?_ ?_
    · intro d hd
      have h3 := Str.lt d
      rw [hV] at h3
      rw [Finset.mem_coe, Finset.mem_range]
      exact Nat.lt_succ_of_le (Nat.div_le_div_right (c := D.ell) h3.le)
    · intro a ha b hb e
      apply Str.inj
      have ea := Nat.div_add_mod (ofLe a.1) D.ell
      have eb := Nat.div_add_mod (ofLe b.1) D.ell
      rw [h a ha] at ea
      rw [h b hb, ← show ofLe a.1 / D.ell = ofLe b.1 / D.ell from e] at eb
      omega
  rw [Finset.card_range] at h1
  exact h1

/-- the nonce that belongs to the second half `z` of a signature, for the challenge `k` -/
def Dalek.shift (a : Nat) (k z : Str 64) : Str 64 :=
  if D.Usable z then
    ⟨toLe 64 ((ofLe z.1 % D.ell + (D.ell - (ofLe k.1 % D.ell * a) % D.ell)) % D.ell + D.ell * (ofLe z.1 / D.ell)), toLe_length _ _⟩
  else z

theorem shift_val (a : Nat) (k z : Str 64) (hz : D.Usable z) :
    ofLe (D.shift a k z).1 = (ofLe z.1 % D.ell + (D.ell - (ofLe k.1 % D.ell * a) % D.ell)) % D.ell + D.ell * (ofLe z.1 / D.ell) ∧
    ofLe (D.shift a k z).1 < D.ell * (256 ^ 64 / D.ell) := by
  have hl := D.ell_pos
  have h1 : (ofLe z.1 % D.ell + (D.ell - (ofLe k.1 % D.ell * a) % D.ell)) % D.ell + D.ell * (ofLe z.1 / D.ell) < D.ell * (256 ^ 64 / D.ell) := by
    have h2 : ofLe z.1 / D.ell < 256 ^ 64 / D.ell := Nat.div_lt_of_lt_mul hz
    have h3 := Nat.mod_lt (ofLe z.1 % D.ell + (D.ell - (ofLe k.1 % D.ell * a) % D.ell)) hl
    have h4 : D.ell * (ofLe z.1 / D.ell) + D.ell ≤ D.ell * (256 ^ 64 / D.ell) := by
      calc D.ell * (ofLe z.1 / D.ell) + D.ell = D.ell * (ofLe z.1 / D.ell + 1) := by ring
        _ ≤ _ := Nat.mul_le_mul_left _ h2
    omega
  have h2 : D.ell * (256 ^ 64 / D.ell) ≤ 256 ^ 64 := Nat.mul_div_le _ _
  have e : ofLe (D.shift a k z).1 = (ofLe z.1 % D.ell + (D.ell - (ofLe k.1 % D.ell * a) % D.ell)) % D.ell + D.ell * (ofLe z.1 / D.ell) := by
    unfold Dalek.shift
    rw [if_pos hz]
    exact ofLe_toLe _ _ (lt_of_lt_of_le h1 h2)
  exact ⟨e, e ▸ h1⟩

theorem shift_usable (a : Nat) (k z : Str 64) : D.Usable (D.shift a k z) ↔ D.Usable z := by
  by_cases hz : D.Usable z
  · exact ⟨fun _ => hz, fun _ => (shift_val D a k z hz).2⟩
  · unfold Dalek.shift
    rw [if_neg hz]

theorem shift_div (a : Nat) (k z : Str 64) (hz : D.Usable z) :
    ofLe (D.shift a k z).1 / D.ell = ofLe z.1 / D.ell ∧
    ofLe (D.shift a k z).1 % D.ell = (ofLe z.1 % D.ell + (D.ell - (ofLe k.1 % D.ell * a) % D.ell)) % D.ell := by
  have hl := D.ell_pos
  rw [(shift_val D a k z hz).1, Nat.add_mul_div_left _ _ hl, Nat.div_eq_of_lt (Nat.mod_lt _ hl), zero_add]
  refine ⟨rfl, ?_⟩
  rw [Nat.add_mul_mod_self_left, Nat.mod_mod]

theorem shift_injective (a : Nat) (k : Str 64) : Function.Injective (D.shift a k) := by
  intro z z' h
  have hl := D.ell_pos
  by_cases hz : D.Usable z
  · have hz' : D.Usable z' := by rw [← shift_usable D a k, ← h, shift_usable]; exact hz
    obtain ⟨d1, m1⟩ := shift_div D a k z hz
    obtain ⟨d2, m2⟩ := shift_div D a k z' hz'
    rw [h] at d1 m1
    apply Str.inj
    have hd : ofLe z.1 / D.ell = ofLe z'.1 / D.ell := d1.symm.trans d2
    have hm : (ofLe z.1 % D.ell) % D.ell = (ofLe z'.1 % D.ell) % D.ell := Nat.ModEq.add_right_cancel' _ (m1.symm.trans m2)
    rw [Nat.mod_mod, Nat.mod_mod] at hm
    have e1 := Nat.div_add_mod (ofLe z.1) D.ell
    have e2 := Nat.div_add_mod (ofLe z'.1) D.ell
    rw [hd, hm] at e1
    omega
  · have hz' : ¬ D.Usable z' := by rw [← shift_usable D a k, ← h, shift_usable]; exact hz
    unfold Dalek.shift at h
    rwa [if_neg hz, if_neg hz'] at h

/-- the challenge times the private scalar, plus the nonce, is the second half -/
theorem shift_response (a : Nat) (k z : Str 64) (hz : D.Usable z) :
    (ofLe k.1 % D.ell * a + ofLe (D.shift a k z).1 % D.ell) % D.ell = ofLe z.1 % D.ell := by
  have hl := D.ell_pos
  rw [(shift_div D a k z hz).2]
  have h1 := Nat.mod_lt (ofLe k.1 % D.ell * a) hl
  generalize hx : ofLe k.1 % D.ell * a = x at *
  generalize ofLe z.1 = v
  rw [Nat.add_mod_mod]
  have h2 := Nat.div_add_mod x D.ell
  have e : x + (v % D.ell + (D.ell - x % D.ell)) = v % D.ell + D.ell * (x / D.ell + 1) := by
    rw [Nat.mul_add, Nat.mul_one]; omega
  rw [e, Nat.add_mul_mod_self_left, Nat.mod_mod]

/-- the first half is the same -/
theorem shift_commit (a : Nat) (k z : Str 64) :
    D.enc ((ofLe (D.shift a k z).1 % D.ell) • D.base) = D.simCommit (a • D.base) k z := by
  unfold Dalek.simCommit
  by_cases hz : D.Usable z
  · rw [if_pos hz]
    have h := shift_response D a k z hz
    have h1 : (ofLe k.1 % D.ell * a + ofLe (D.shift a k z).1 % D.ell) • D.base = ofLe z.1 • D.base := by
      rw [← D.smul_mod (ofLe z.1), ← h, D.smul_mod]
    rw [← h1, add_smul, mul_smul, add_sub_cancel_left]
  · rw [if_neg hz]
    unfold Dalek.shift
    rw [if_neg hz]

/-! ## The theorem -/

/-- the library with the hash value `h` for every string -/
def Dalek.withValue (h : Str 64) : Dalek Pt := { D with sha512 := fun _ => h.1, sha512_length := fun _ => h.2 }

theorem verify_withHash {L n : Nat} (hL : 64 + n ≤ L) (f : Query L → Str 64) (P : Pt) (o : Query n × Bytes) :
    (D.withHash f).verify o.1.1 o.2 (D.enc P) = .ok true ↔
      (D.withValue (f (D.question L P o))).verify o.1.1 o.2 (D.enc P) = .ok true := by
  rw [(verify_iff _ _ _ _).1, (verify_iff _ _ _ _).1]
  have hlen : (o.2.take 32 ++ D.enc P ++ o.1.1).length ≤ L := by
    have h1 := o.1.2
    have h2 : (o.2.take 32).length ≤ 32 := List.length_take_le _ _
    rw [List.length_append, List.length_append, D.enc_length]
    omega
  have hc : (D.withHash f).challenge o.2 (D.enc P) o.1.1 = (D.withValue (f (D.question L P o))).challenge o.2 (D.enc P) o.1.1 := by
    unfold Dalek.challenge Dalek.withHash Dalek.withValue
    dsimp only
    rw [dif_pos hlen]
    congr 4
    exact Subtype.ext (query_val L _ hlen).symm
  unfold Dalek.Valid
  rw [hc]
  exact Iff.rfl

theorem pt_eq_iff {L n : Nat} (hL : 64 + n ≤ L) (P : Pt) (r r' : Nat) (m m' : Query n)
    (h : query L (D.enc ((r % D.ell) • D.base) ++ D.enc P ++ m.1) = query L (D.enc ((r' % D.ell) • D.base) ++ D.enc P ++ m'.1)) : r % D.ell = r' % D.ell := by
  have hlen : ∀ (Q : Pt) (m : Query n), (D.enc Q ++ D.enc P ++ m.1).length ≤ L := by
    intro Q m
    have := m.2
    rw [List.length_append, List.length_append, D.enc_length, D.enc_length]; omega
  have h1 := congrArg Subtype.val h
  rw [query_val _ _ (hlen _ _), query_val _ _ (hlen _ _), List.append_assoc, List.append_assoc] at h1
  have h2 := D.enc_inj (List.append_inj h1 (by rw [D.enc_length, D.enc_length])).1
  exact D.smul_inj_lt (Nat.mod_lt _ D.ell_pos) (Nat.mod_lt _ D.ell_pos) h2

/-- two answers to one commitment -/
theorem extract_scalar (a s s' c c' : Nat) (hc : c < D.ell) (hc' : c' < D.ell) (hne : c ≠ c')
    (h : D.enc (s • D.base - c • a • D.base) = D.enc (s' • D.base - c' • a • D.base)) :
    (((s : ZMod D.ell) - s') * ((c : ZMod D.ell) - c')⁻¹).val • D.base = a • D.base := by
  haveI := Fact.mk D.ell_prime
  have hp := D.enc_inj h
  have h1 : (s + c' * a) • D.base = (s' + c * a) • D.base := by
    rw [add_smul, add_smul, mul_smul, mul_smul]
    have e1 : s • D.base + c' • a • D.base = (s • D.base - c • a • D.base) + (c • a • D.base + c' • a • D.base) := by abel
    have e2 : s' • D.base + c • a • D.base = (s' • D.base - c' • a • D.base) + (c • a • D.base + c' • a • D.base) := by abel
    rw [e1, e2, hp]
  have h2 := (ZMod.natCast_eq_natCast_iff _ _ D.ell).mpr (D.smul_inj.mp h1)
  push_cast at h2
  have hne : (c : ZMod D.ell) - c' ≠ 0 := by
    intro h0
    have h3 : (c : ZMod D.ell) = c' := sub_eq_zero.mp h0
    have h4 := (ZMod.natCast_eq_natCast_iff _ _ D.ell).mp h3
    unfold Nat.ModEq at h4
    rw [Nat.mod_eq_of_lt hc, Nat.mod_eq_of_lt hc'] at h4
    exact hne h4
  have h3 : (a : ZMod D.ell) = ((s : ZMod D.ell) - s') * ((c : ZMod D.ell) - c')⁻¹ := by
    rw [eq_mul_inv_iff_mul_eq₀ hne]
    linear_combination -h2
  rw [← h3, D.smul_inj, ← ZMod.natCast_eq_natCast_iff, ZMod.natCast_zmod_val]

theorem withHash_sha512 {L : Nat} (f : Query L → Str 64) (b : Bytes) (h : b.length ≤ L) : (D.withHash f).sha512 b = (f (query L b)).1 := by
  unfold Dalek.withHash
  dsimp only
  rw [dif_pos h]
  congr 2
  exact Subtype.ext (query_val L b h).symm

theorem pr_le_one {Ω : Type} [Fintype Ω] (P : Ω → Prop) : pr P ≤ 1 := by
  classical
  unfold pr
  exact div_le_one_of_le₀ (by exact_mod_cast (Finset.card_le_card (Finset.filter_subset _ _)).trans (le_of_eq Finset.card_univ)) (Nat.cast_nonneg _)

/-- **C201** A forger that asks at most `q` questions, hash values and signatures together, and succeeds with probability `ε` when the key pair is
generated from a random secret: with probability at least `(ε - η)² / (q + 1) - (w + 1) / 2^512` the extractor finds the discrete logarithm of the
public key, where `η = (2 q + 3) / 2^256 + (q ℓ + w) / 2^512` and `w = 2^512 / ℓ + 1` for the order `ℓ` of the base point. -/
theorem ed25519_unforgeable {R : Type} [Fintype R] (L n : Nat) (hL : 64 + n ≤ L) (A : R → Bytes → EdForger L n) (q : Nat)
    (hq : ∀ ρ pk, (A ρ pk).AtMost q) :
    let ε := pr fun ω : R × Str 32 × (Query L → Str 64) => Forges D (A ω.1) ω.2.1 ω.2.2
    let w : ℚ := (256 ^ 64 / D.ell + 1 : Nat)
    let η : ℚ := (2 * q + 3) / 256 ^ 32 + (q * D.ell + w) / 256 ^ 64
    η ≤ ε → (ε - η) ^ 2 / (q + 1) - (w + 1) / 256 ^ 64 ≤
      pr fun ω : ((R × Str 32) × (Query n → Str 64) × (Query n → Str 64)) × (Query L → Str 64) × (Query L → Str 64) =>
        let P := D.keyPoint ω.1.1.2
        ∃ x, D.extractor (A ω.1.1.1) P ω.1.2.1 ω.1.2.2 ω.2.1 ω.2.2 = some x ∧ x.val • D.base = P := by
  classical
  intro ε w η hη
  haveI := Fact.mk D.ell_prime
  let C := R × Str 32
  let a : Str 32 → Nat := fun low => ofLe (clamp low.1)
  let A' : C → EdForger L n := fun c => A c.1 (D.enc (D.keyPoint c.2))
  have hq' : ∀ c, (A' c).AtMost q := fun c => hq _ _
  let pt : C → Str 64 → Query n → Query L := fun c d m => query L (D.enc ((ofLe d.1 % D.ell) • D.base) ++ D.enc (D.keyPoint c.2) ++ m.1)
  let sg : C → Str 64 → Str 64 → Query n → Res CryptoError Bytes := fun c d k m =>
    .ok (D.enc ((ofLe d.1 % D.ell) • D.base) ++ toLe 32 ((ofLe k.1 % D.ell * a c.2 + ofLe d.1 % D.ell) % D.ell))
  let question : C → Query n × Bytes → Query L := fun c o => D.question L (D.keyPoint c.2) o
  let win : C → Query n × Bytes → Str 64 → Prop := fun c o h => (D.withValue h).verify o.1.1 o.2 (D.enc (D.keyPoint c.2)) = .ok true
  let kq : Str 32 → Query L := fun s => query L s.1
  let nq : Str 32 → Query n → Query L := fun p m => query L (p.1 ++ m.1)
  have hkq : ∀ s : Str 32, (kq s).1 = s.1 := fun s => query_val L _ (by rw [s.2]; omega)
  have hnq : ∀ (p : Str 32) (m : Query n), (nq p m).1 = p.1 ++ m.1 := fun p m => query_val L _ (by
    have := m.2
    rw [List.length_append, p.2]; omega)
  have hlenp : ∀ (c : C) (Q : Pt) (m : Query n), (D.enc Q ++ D.enc (D.keyPoint c.2) ++ m.1).length ≤ L := by
    intro c Q m
    have := m.2
    rw [List.length_append, List.length_append, D.enc_length, D.enc_length]; omega
  have hpt : ∀ (c : C) (d : Str 64) (m : Query n), (pt c d m).1 = D.enc ((ofLe d.1 % D.ell) • D.base) ++ D.enc (D.keyPoint c.2) ++ m.1 :=
    fun c d m => query_val L _ (hlenp c _ m)
  -- world 1
  have w2 := world2 A' q hq' Str.halves kq nq
    (fun x => if h : x.1.length = 32 then some ⟨x.1, h⟩ else none)
    (fun x => if h : 32 ≤ x.1.length then some ⟨x.1.take 32, by rw [List.length_take]; omega⟩ else none)
    (fun s => by
      have h : (kq s).1.length = 32 := by rw [hkq]; exact s.2
      simp only [h, dite_true]
      exact congrArg some (Subtype.ext (hkq s)))
    (fun p m => by
      have h : 32 ≤ (nq p m).1.length := by rw [hnq, List.length_append, p.2]; omega
      simp only [h, dite_true]
      refine congrArg some (Subtype.ext ?_)
      dsimp only
      rw [hnq, List.take_left' p.2])
    (fun p m m' h => by
      have h1 := congrArg Subtype.val h
      rw [hnq, hnq] at h1
      exact Subtype.ext (List.append_cancel_left h1))
    pt sg question (fun o => o.1) win
  -- world 2
  have w3 := world3 A' q hq' messageOf D.Usable pt sg (fun c => D.simPoint L n (D.keyPoint c.2)) (fun c => D.simSign n (D.keyPoint c.2))
    (fun c => D.shift (a c.2))
    (fun c d m => by
      unfold messageOf
      have h1 : (pt c d m).1.length = 64 + m.1.length := by
        rw [hpt, List.length_append, List.length_append, D.enc_length, D.enc_length]
      have h2 := m.2
      rw [dif_pos (by omega)]
      refine congrArg some (Subtype.ext ?_)
      dsimp only
      rw [hpt, List.drop_left' (by rw [List.length_append, D.enc_length, D.enc_length])])
    (fun c k => shift_injective D (a c.2) k) (fun c k z => shift_usable D (a c.2) k z)
    (fun c k z m => by
      simp only [pt, shift_commit, Dalek.simPoint, a, Dalek.keyPoint])
    (fun c k z m hz => by
      simp only [sg, shift_commit, shift_response D (a c.2) k z hz, Dalek.simSign, a, Dalek.keyPoint])
    question (fun o => o.1) win
    (fun c o h m hw hm => by
      obtain ⟨_, _, hl, _, _⟩ := (verify_iff _ _ _ _).1.1 hw
      have hlen : (o.2.take 32 ++ D.enc (D.keyPoint c.2) ++ o.1.1).length ≤ L := by
        have h1 := o.1.2
        rw [List.length_append, List.length_append, D.enc_length, List.length_take]
        omega
      have hv : (question c o).1 = o.2.take 32 ++ D.enc (D.keyPoint c.2) ++ o.1.1 := query_val L _ hlen
      unfold messageOf at hm
      split at hm
      · have h2 := congrArg Subtype.val (Option.some.inj hm)
        dsimp only at h2
        rw [hv, List.drop_left' (by rw [List.length_append, List.length_take, D.enc_length, hl]; rfl)] at h2
        exact (Subtype.ext h2).symm
      · cases hm)
    D.ell (256 ^ 64 / D.ell + 1) (card_usable D)
    (fun c x m l hl => by
      rcases l.eq_empty_or_nonempty with rfl | ⟨d0, hd0⟩
      · simp
      refine card_residue D (ofLe d0.1 % D.ell) l (fun d hd => ?_)
      exact pt_eq_iff D hL (D.keyPoint c.2) _ _ m m ((hl d hd).trans (hl d0 hd0).symm))
  -- two runs
  have w4 := twice (T := C × (Query n → Str 64) × (Query n → Str 64)) (fun t => D.simulation (A t.1.1) (D.keyPoint t.1.2) t.2.1 t.2.2) q
    (fun t => simulate_atMost _ _ _ _ _ _ q _ (hq _ _)) (query L []) (fun t => question t.1) (fun t => win t.1) (fun h => ofLe h.1 % D.ell)
    (256 ^ 64 / D.ell + 1) (card_residue D)
  dsimp only at w2 w3 w4
  rw [Str.card] at w2 w3 w4
  set ε3 := pr (fun ω : (C × (Query n → Str 64) × (Query n → Str 64)) × (Query L → Str 64) =>
      ∃ o, (simulate messageOf D.Usable (D.simPoint L n (D.keyPoint ω.1.1.2)) (D.simSign n (D.keyPoint ω.1.1.2)) ω.1.2.1 ω.1.2.2 (A' ω.1.1)).run ω.2 = some o ∧
        win ω.1.1 o (ω.2 (question ω.1.1 o))) with hε3
  -- the real world is world 1
  have h1 : ε ≤ pr (fun ω : R × Str 32 × (Query L → Str 64) =>
      let f := ω.2.2
      let key := Str.halves (f (kq ω.2.1))
      let c : C := (ω.1, key.1)
      let N : Query n → Str 64 := fun m => f (nq key.2 m)
      let o := (A' c).run f (fun m => sg c (N m) (f (pt c (N m) m)) m)
      win c o (f (question c o)) ∧ o.1 ∉ (A' c).signed f (fun m => sg c (N m) (f (pt c (N m) m)) m)) := by
    refine pr_mono ?_
    rintro ⟨ρ, s, f⟩ ⟨pk, sk, hk, h2, h3⟩
    dsimp only at hk h2 h3 ⊢
    set c : C := (ρ, (Str.halves (f (kq s))).1) with hc
    have hsha : (D.withHash f).sha512 s.1 = (f (kq s)).1 := withHash_sha512 D f s.1 (by rw [s.2]; omega)
    have hpub : (D.withHash f).publicOf s.1 = D.enc (D.keyPoint c.2) := by
      unfold Dalek.publicOf Dalek.secretScalar
      rw [hsha]
      rfl
    have hk' : pk = D.enc (D.keyPoint c.2) ∧ sk = s.1 ++ D.enc (D.keyPoint c.2) := by
      unfold Dalek.keypair Dalek.keypairGenerate Keypair.toBytes at hk
      dsimp only at hk
      rw [hpub] at hk
      injection hk with hk
      injection hk with e1 e2
      exact ⟨e1.symm, e2.symm⟩
    obtain ⟨rfl, rfl⟩ := hk'
    have hsign : (fun m : Query n => (D.withHash f).sign m.1 (s.1 ++ D.enc (D.keyPoint c.2))) =
        fun m => sg c (f (nq (Str.halves (f (kq s))).2 m)) (f (pt c (f (nq (Str.halves (f (kq s))).2 m)) m)) m := by
      funext m
      rw [sign_append (D.withHash f) m.1 s.1 (D.enc (D.keyPoint c.2)) s.2 (D.keyPoint c.2) (D.dec_enc _)]
      unfold Dalek.keypairSign Dalek.hashScalar Dalek.secretScalar
      dsimp only
      rw [hsha]
      have e1 : (f (kq s)).1.drop 32 ++ m.1 = (Str.halves (f (kq s))).2.1 ++ m.1 := rfl
      have l1 : ((f (kq s)).1.drop 32 ++ m.1).length ≤ L := by
        have := m.2
        rw [List.length_append, List.length_drop, (f (kq s)).2]; omega
      rw [withHash_sha512 D f _ l1, e1]
      have e2 : f (query L ((Str.halves (f (kq s))).2.1 ++ m.1)) = f (nq (Str.halves (f (kq s))).2 m) := rfl
      rw [e2]
      have e3 := withHash_sha512 D f (D.enc ((ofLe (f (nq (Str.halves (f (kq s))).2 m)).1 % D.ell) • D.base) ++ D.enc (D.keyPoint c.2) ++ m.1) (hlenp c _ m)
      have e4 : (D.withHash f).sha512 ((D.withHash f).enc ((ofLe (f (nq (Str.halves (f (kq s))).2 m)).1 % (D.withHash f).ell) • (D.withHash f).base) ++
          D.enc (D.keyPoint c.2) ++ m.1) = (f (pt c (f (nq (Str.halves (f (kq s))).2 m)) m)).1 := e3
      rw [e4]
      rfl
    rw [hsign] at h2 h3
    exact ⟨(verify_withHash D hL f (D.keyPoint c.2) _).1 h3, h2⟩
  have h2 : ε - η ≤ ε3 := by
    have e : η = ((q + 1 : ℚ) / (256 ^ 32 : Nat) + (q + 2 : ℚ) / (256 ^ 32 : Nat)) + (q * D.ell + (256 ^ 64 / D.ell + 1 : Nat) : ℚ) / (256 ^ 64 : Nat) := by
      simp only [η, w, Nat.cast_pow, Nat.cast_ofNat]
      ring
    rw [e]
    dsimp only at h1
    linarith
  have h3 : ε3 ≤ 1 := pr_le_one _
  have h4 : (ε - η) ^ 2 ≤ ε3 ^ 2 := pow_le_pow_left₀ (by linarith) h2 2
  refine le_trans ?_ (w4.trans (pr_mono ?_))
  · have h5 : (ε - η) ^ 2 / (q + 1) ≤ ε3 ^ 2 / (q + 1) := div_le_div_of_nonneg_right h4 (by positivity)
    have h6 : (ε3 + w) / (256 ^ 64 : Nat) ≤ (w + 1) / 256 ^ 64 := by
      rw [Nat.cast_pow, Nat.cast_ofNat]
      exact div_le_div_of_nonneg_right (by linarith) (by positivity)
    exact sub_le_sub h5 h6
  · rintro ⟨⟨⟨ρ, low⟩, Z, K⟩, f, f'⟩ ⟨o, o', r1, r2, hqe, w1, w1', hne⟩
    dsimp only at r1 r2 hqe w1 w1' hne ⊢
    obtain ⟨P, hP, hl, _, he⟩ := (verify_iff _ _ _ _).1.1 w1
    obtain ⟨P', hP', hl', _, he'⟩ := (verify_iff _ _ _ _).1.1 w1'
    have hPe : P = D.keyPoint low := by
      have : (D.withValue (f (question (ρ, low) o))).dec (D.enc (D.keyPoint low)) = some (D.keyPoint low) := D.dec_enc _
      rw [this] at hP
      exact (Option.some.inj hP).symm
    have hPe' : P' = D.keyPoint low := by
      have : D.dec (D.enc (D.keyPoint low)) = some (D.keyPoint low) := D.dec_enc _
      exact (Option.some.inj (this.symm.trans hP')).symm
    subst hPe
    rw [hPe'] at he'
    have hR : o.2.take 32 = o'.2.take 32 := by
      have hlen : ∀ o : Query n × Bytes, (o.2.take 32 ++ D.enc (D.keyPoint low) ++ o.1.1).length ≤ L := by
        intro o
        have h1 := o.1.2
        have h2 : (o.2.take 32).length ≤ 32 := List.length_take_le _ _
        rw [List.length_append, List.length_append, D.enc_length]
        omega
      have h5 := congrArg Subtype.val hqe
      simp only [question, Dalek.question] at h5
      rw [query_val L _ (hlen o), query_val L _ (hlen o'), List.append_assoc, List.append_assoc] at h5
      exact (List.append_inj h5 (by rw [List.length_take, List.length_take, hl, hl'])).1
    have hext := extract_scalar D (ofLe (clamp low.1)) (ofLe (o.2.drop 32)) (ofLe (o'.2.drop 32)) _ _ (Nat.mod_lt _ D.ell_pos) (Nat.mod_lt _ D.ell_pos) hne
      (he.trans (hR.trans he'.symm))
    refine ⟨_, ?_, hext⟩
    unfold Dalek.extractor
    dsimp only
    rw [r1]
    have r2' : (D.simulation (A ρ) (D.keyPoint low) Z K).run
        (second (ask (query L []) (D.question L (D.keyPoint low))) (D.simulation (A ρ) (D.keyPoint low) Z K) f f') = some o' := r2
    rw [r2']

/-! ## A forger -/

/-- In the toy group the discrete logarithm is in plain sight: this forger signs the empty message with it, asking for one hash value. -/
def toyForger (pk : Bytes) : EdForger 64 0 :=
  let R := toyDalek.enc 0
  .hash (query 64 (R ++ pk)) fun c => .out (query 0 [], R ++ toLe 32 ((ofLe c.1 % 101 * ofLe pk) % 101))

theorem toyForger_forges (s : Str 32) (f : Query 64 → Str 64) : Forges toyDalek toyForger s f := by
  refine ⟨(toyDalek.withHash f).publicOf s.1, s.1 ++ (toyDalek.withHash f).publicOf s.1, rfl, ?_⟩
  dsimp only [toyForger, Forger.run, Forger.signed]
  refine ⟨List.not_mem_nil, ?_⟩
  rw [(verify_iff _ _ _ _).1]
  have hd := (toyDalek.withHash f).dec_enc ((toyDalek.withHash f).secretScalar s.1 • toyDalek.base)
  have hlen : ((toyDalek.withHash f).publicOf s.1).length = 32 := toLe_length _ _
  refine ⟨(toyDalek.withHash f).secretScalar s.1 • toyDalek.base, hd, ?_, ?_, ?_⟩
  · rw [List.length_append, toLe_length]; exact congrArg (· + 32) (toyDalek.enc_length 0)
  · rw [List.drop_left' (toyDalek.enc_length 0), ofLe_toLe]
    · exact Nat.mod_lt _ (by norm_num)
    · exact lt_trans (Nat.mod_lt _ (by norm_num)) (show 101 < 256 ^ 32 by norm_num)
  · rw [List.drop_left' (toyDalek.enc_length 0), List.take_left' (toyDalek.enc_length 0), ofLe_toLe _ _ (lt_trans (Nat.mod_lt _ (by norm_num)) (show 101 < 256 ^ 32 by norm_num))]
    have hch : (toyDalek.withHash f).challenge (toyDalek.enc 0 ++ toLe 32 (ofLe (f (query 64 (toyDalek.enc 0 ++ (toyDalek.withHash f).publicOf s.1))).1 % 101 *
        ofLe ((toyDalek.withHash f).publicOf s.1) % 101)) ((toyDalek.withHash f).publicOf s.1) (query 0 []).1 =
        ofLe (f (query 64 (toyDalek.enc 0 ++ (toyDalek.withHash f).publicOf s.1))).1 % 101 := by
      unfold Dalek.challenge
      rw [List.take_left' (toyDalek.enc_length 0)]
      have hnil : (query 0 []).1 = [] := rfl
      rw [hnil, List.append_nil, withHash_sha512 _ _ _ (by rw [List.length_append, hlen, toyDalek.enc_length])]
      rfl
    rw [hch]
    have hpk : (ofLe ((toyDalek.withHash f).publicOf s.1) : ZMod 101) = ((toyDalek.withHash f).secretScalar s.1 : ZMod 101) := by
      have e : (toyDalek.withHash f).publicOf s.1 = toLe 32 ((((toyDalek.withHash f).secretScalar s.1) • (1 : ZMod 101)).val) := rfl
      rw [e, ofLe_toLe _ _ (lt_trans (ZMod.val_lt _) (show 101 < 256 ^ 32 by norm_num)), ZMod.natCast_zmod_val, nsmul_eq_mul, mul_one]
    generalize ofLe (f (query 64 (toyDalek.enc 0 ++ (toyDalek.withHash f).publicOf s.1))).1 % 101 = c
    have hz : ((c * ofLe ((toyDalek.withHash f).publicOf s.1)) % 101 : Nat) • (1 : ZMod 101) - c • ((toyDalek.withHash f).secretScalar s.1) • (1 : ZMod 101) = 0 := by
      rw [nsmul_eq_mul, nsmul_eq_mul, nsmul_eq_mul, mul_one, mul_one, ZMod.natCast_mod, Nat.cast_mul, hpk, sub_self]
    have e1 : (toyDalek.withHash f).enc = toyDalek.enc := rfl
    have e2 : (toyDalek.withHash f).base = (1 : ZMod 101) := rfl
    have e3 : toyDalek.base = (1 : ZMod 101) := rfl
    rw [e1, e2, e3, hz]

/-- C201 on a concrete forger: it succeeds always, and the extractor with probability more than four in ten. -/
theorem toyForger_extracted : 4 / 10 ≤
      pr fun ω : ((Unit × Str 32) × (Query 0 → Str 64) × (Query 0 → Str 64)) × (Query 64 → Str 64) × (Query 64 → Str 64) =>
        let P := toyDalek.keyPoint ω.1.1.2
        ∃ x, toyDalek.extractor toyForger P ω.1.2.1 ω.1.2.2 ω.2.1 ω.2.2 = some x ∧ x.val • toyDalek.base = P := by
  classical
  have h := ed25519_unforgeable toyDalek (R := Unit) 64 0 (le_refl _) (fun _ => toyForger) 1 (fun _ _ => fun _ => trivial)
  have hε : (pr fun ω : Unit × Str 32 × (Query 64 → Str 64) => Forges toyDalek toyForger ω.2.1 ω.2.2) = 1 := by
    unfold pr
    rw [Finset.filter_true_of_mem (fun ω _ => toyForger_forges ω.2.1 ω.2.2), Finset.card_univ, div_self]
    exact_mod_cast Fintype.card_ne_zero
  dsimp only at h
  rw [hε] at h
  have hell : toyDalek.ell = 101 := rfl
  refine le_trans ?_ (h ?_)
  · rw [hell]
    push_cast
    norm_num
  · rw [hell]
    push_cast
    norm_num

end Verif.Sig
