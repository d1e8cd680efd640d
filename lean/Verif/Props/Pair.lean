import Verif.Pair.Model
import Verif.Props.BN
import Verif.Props.CLHelpers
import Verif.Props.BLS
import Verif.Toy
import Mathlib.Tactic.LinearCombination
import Mathlib.Tactic.NormNum.Prime
/-!
# Scalars of the pairing layer, their encodings, and hashing to the curve (C164-C169)
-/
set_option linter.unusedSectionVars false
set_option linter.unusedSimpArgs false

namespace Verif.Pair

open Verif Verif.Sig

/-! ## Specification: programs over scalars and the field values they denote -/

/-- Programs a caller can write with the scalar API.  `pow a e` raises to the number encoded by the bytes `e`. -/
inductive Prog where
  | bytes (b : Bytes)
  | random (seed : Bytes)
  | seed (s : Bytes)
  | add (a b : Prog)
  | mul (a b : Prog)
  | neg (a : Prog)
  | inv (a : Prog)
  | pow (a : Prog) (e : Bytes)

section
variable {q : Nat} (B : Big q)

/-- The element of the prime field a program denotes. -/
def Prog.denote [Fact q.Prime] : Prog → ZMod q
  | .bytes b => (ofBe b : ZMod q)
  | .random s => (B.randomnum s : ZMod q)
  | .seed s => (B.randomnum s : ZMod q)
  | .add a b => a.denote + b.denote
  | .mul a b => a.denote * b.denote
  | .neg a => -a.denote
  | .inv a => a.denote⁻¹
  | .pow a e => a.denote ^ ofBe e

/-- Byte strings have at most 32 bytes, seeds have exactly 32, nothing that denotes zero is inverted. -/
def Prog.Defined [Fact q.Prime] : Prog → Prop
  | .bytes b => b.length ≤ 32
  | .random _ => True
  | .seed s => s.length = 32
  | .add a b => a.Defined ∧ b.Defined
  | .mul a b => a.Defined ∧ b.Defined
  | .neg a => a.Defined
  | .inv a => a.Defined ∧ a.denote B ≠ 0
  | .pow a e => a.Defined ∧ e.length ≤ 32

/-- The program run with the functions of the library. -/
def Prog.run : Prog → Res String Scalar
  | .bytes b => Scalar.fromBytes b
  | .random s => Scalar.new B s
  | .seed s => Scalar.newFromSeed B s
  | .add a b => do
    let x ← a.run
    let y ← b.run
    x.addMod B y
  | .mul a b => do
    let x ← a.run
    let y ← b.run
    x.mulMod B y
  | .neg a => do
    let x ← a.run
    x.modNeg B
  | .inv a => do
    let x ← a.run
    x.inverse B
  | .pow a e => do
    let x ← a.run
    let y ← Scalar.fromBytes e
    x.powMod B y

end

/-- Values that fit into 32 bytes. -/
def Fits (x : Scalar) : Prop := 0 ≤ x.bn ∧ x.bn < 2 ^ 256

/-! ## Bytes -/

theorem ofBe_lt' (b : Bytes) : ofBe b < 256 ^ b.length := by
  have := ofLe_lt b.reverse
  rw [← ofBe_reverse] at this
  simpa using this

theorem ofBe_replicate_append (n : Nat) (b : Bytes) : ofBe (List.replicate n 0 ++ b) = ofBe b := by
  induction n with
  | zero => simp
  | succ n ih =>
    rw [List.replicate_succ, List.cons_append]
    simpa [ofBe] using ih

theorem pow256 : (256 : Nat) ^ 32 = 2 ^ 256 := by decide

theorem fromBytes_short (b : Bytes) (h : b.length ≤ 32) : Scalar.fromBytes b = .ok ⟨(ofBe b : Int)⟩ := by
  unfold Scalar.fromBytes modBytes
  rw [if_neg (by omega)]
  by_cases hl : b.length < 32
  · rw [if_pos hl, ofBe_replicate_append]
  · rw [if_neg hl]

theorem fromBytes_long (b : Bytes) (h : 32 < b.length) : Scalar.fromBytes b = .err "InvalidStructure" := by
  unfold Scalar.fromBytes modBytes
  rw [if_pos (by omega)]

theorem ofBe_lt_256 (b : Bytes) (h : b.length ≤ 32) : ofBe b < 2 ^ 256 := by
  refine lt_of_lt_of_le (ofBe_lt' b) ?_
  rw [← pow256]
  exact Nat.pow_le_pow_right (by norm_num) h

theorem fromBytes_fits (b : Bytes) (x : Scalar) (h : Scalar.fromBytes b = .ok x) :
    b.length ≤ 32 ∧ x.bn = ofBe b ∧ Fits x := by
  by_cases hl : b.length ≤ 32
  · rw [fromBytes_short b hl] at h
    injection h with h
    subst h
    refine ⟨hl, rfl, by positivity, ?_⟩
    have := ofBe_lt_256 b hl
    show ((ofBe b : Nat) : Int) < 2 ^ 256
    exact_mod_cast this
  · rw [fromBytes_long b (by omega)] at h
    cases h

/-! ## C164 -/

section
variable {q : Nat} [hq : Fact q.Prime] (B : Big q)

theorem cast_emod (a : Int) : ((a % (q : Int) : Int) : ZMod q) = (a : ZMod q) := ZMod.intCast_mod a q

theorem emod_fits (hs : q < 2 ^ 256) (a : Int) : Fits ⟨a % q⟩ := by
  have hp : (0 : Int) < q := by exact_mod_cast hq.out.pos
  refine ⟨Int.emod_nonneg _ hp.ne', lt_trans (Int.emod_lt_of_pos _ hp) ?_⟩
  exact_mod_cast hs

/-- **C164** Every program over scalars - whatever bytes it starts from, reduced or not - ends without an error in a
scalar that fits into 32 bytes and stands for the field value the program denotes, as long as byte strings have an
admissible length and nothing that denotes zero is inverted. -/
theorem scalar_programs (hs : q < 2 ^ 256) (p : Prog) (hp : p.Defined B) :
    ∃ x, p.run B = .ok x ∧ Fits x ∧ (x.bn : ZMod q) = p.denote B := by
  induction p with
  | bytes b =>
    have hp : b.length ≤ 32 := hp
    obtain ⟨-, -, h⟩ := fromBytes_fits b _ (fromBytes_short b hp)
    exact ⟨_, fromBytes_short b hp, h, by simp [Prog.denote]⟩
  | random s =>
    have h := B.randomnum_range s
    exact ⟨_, rfl, ⟨h.1, lt_trans h.2 (by exact_mod_cast hs)⟩, rfl⟩
  | seed s =>
    have hp : s.length = 32 := hp
    have h := B.randomnum_range s
    refine ⟨⟨B.randomnum s⟩, ?_, ⟨h.1, lt_trans h.2 (by exact_mod_cast hs)⟩, rfl⟩
    simp [Prog.run, Scalar.newFromSeed, modBytes, hp]
  | add a b iha ihb =>
    obtain ⟨x, hx, fx, ex⟩ := iha hp.1
    obtain ⟨y, hy, fy, ey⟩ := ihb hp.2
    have hr := B.rmod_eq (x.bn + y.bn) (add_nonneg fx.1 fy.1)
    refine ⟨⟨(x.bn + y.bn) % q⟩, ?_, emod_fits hs _, ?_⟩
    · simp only [Prog.run, hx, hy, Res.ok_bind, Scalar.addMod, hr]
    · rw [cast_emod]; push_cast; rw [ex, ey]; rfl
  | mul a b iha ihb =>
    obtain ⟨x, hx, fx, ex⟩ := iha hp.1
    obtain ⟨y, hy, fy, ey⟩ := ihb hp.2
    refine ⟨⟨x.bn * y.bn % q⟩, ?_, emod_fits hs _, ?_⟩
    · simp only [Prog.run, hx, hy, Res.ok_bind, Scalar.mulMod, B.modmul_eq _ _ fx.1 fy.1]
    · rw [cast_emod]; push_cast; rw [ex, ey]; rfl
  | neg a ih =>
    obtain ⟨x, hx, fx, ex⟩ := ih hp
    refine ⟨⟨B.modneg x.bn⟩, ?_, ⟨(B.modneg_range _ fx.1).1, lt_of_le_of_lt (B.modneg_range _ fx.1).2 ?_⟩, ?_⟩
    · simp only [Prog.run, hx, Res.ok_bind, Scalar.modNeg]
    · exact_mod_cast hs
    · have h := (ZMod.intCast_zmod_eq_zero_iff_dvd _ q).mpr (B.modneg_cong x.bn)
      push_cast at h
      show ((B.modneg x.bn : Int) : ZMod q) = -a.denote B
      rw [← ex]
      linear_combination h
  | inv a ih =>
    obtain ⟨x, hx, fx, ex⟩ := ih hp.1
    have hz : ¬ (q : Int) ∣ x.bn := fun h => hp.2 (by rw [← ex]; exact (ZMod.intCast_zmod_eq_zero_iff_dvd _ q).mpr h)
    obtain ⟨hr, hd⟩ := B.invmodp_eq _ fx.1 hz
    refine ⟨⟨B.invmodp x.bn⟩, ?_, ⟨hr.1, lt_trans hr.2 (by exact_mod_cast hs)⟩, ?_⟩
    · simp only [Prog.run, hx, Res.ok_bind, Scalar.inverse]
    · have h := (ZMod.intCast_zmod_eq_zero_iff_dvd _ q).mpr hd
      push_cast at h
      rw [ex] at h
      show ((B.invmodp x.bn : Int) : ZMod q) = (a.denote B)⁻¹
      exact eq_inv_of_mul_eq_one_left (by linear_combination h)
  | pow a e ih =>
    obtain ⟨x, hx, fx, ex⟩ := ih hp.1
    have he := fromBytes_short e hp.2
    refine ⟨⟨x.bn ^ ofBe e % q⟩, ?_, emod_fits hs _, ?_⟩
    · simp only [Prog.run, hx, he, Res.ok_bind, Scalar.powMod, B.powmod_eq _ _ fx.1 (Int.natCast_nonneg _), Int.toNat_natCast]
    · rw [cast_emod]; push_cast; rw [ex]; rfl

/-- **C164** A seed of 32 bytes, and no other, is turned into a scalar. -/
theorem seed_length (s : Bytes) :
    (s.length = 32 → Scalar.newFromSeed B s = .ok ⟨B.randomnum s⟩) ∧
    (s.length ≠ 32 → ∃ e, Scalar.newFromSeed B s = .err e) := by
  constructor <;> intro h <;> simp [Scalar.newFromSeed, modBytes, h]

/-- Operations whose result is reduced. -/
def Prog.Reduces : Prog → Bool
  | .bytes _ => false
  | .neg _ => false
  | _ => true

/-- **C164** Sums, products, powers, inverses and random scalars are reduced: below the group order.  So `==` on them is
equality in the field. -/
theorem scalar_reduced (hs : q < 2 ^ 256) (p : Prog) (hp : p.Defined B) (hr : p.Reduces = true) (x : Scalar)
    (hx : p.run B = .ok x) : 0 ≤ x.bn ∧ x.bn < q := by
  have hpos : (0 : Int) < q := by exact_mod_cast hq.out.pos
  have hm : ∀ a : Int, 0 ≤ a % q ∧ a % q < q := fun a => ⟨Int.emod_nonneg _ hpos.ne', Int.emod_lt_of_pos _ hpos⟩
  cases p with
  | bytes b => cases hr
  | neg a => cases hr
  | random s => injection hx with hx; subst hx; exact B.randomnum_range s
  | seed s =>
    have hl : s.length = 32 := hp
    simp only [Prog.run, Scalar.newFromSeed, modBytes, hl, ne_eq, not_true, if_false] at hx
    injection hx with hx; subst hx; exact B.randomnum_range s
  | add a b =>
    obtain ⟨y, hy, fy, -⟩ := scalar_programs B hs a hp.1
    obtain ⟨z, hz, fz, -⟩ := scalar_programs B hs b hp.2
    simp only [Prog.run, hy, hz, Res.ok_bind, Scalar.addMod, B.rmod_eq _ (add_nonneg fy.1 fz.1)] at hx
    injection hx with hx; subst hx; exact hm _
  | mul a b =>
    obtain ⟨y, hy, fy, -⟩ := scalar_programs B hs a hp.1
    obtain ⟨z, hz, fz, -⟩ := scalar_programs B hs b hp.2
    simp only [Prog.run, hy, hz, Res.ok_bind, Scalar.mulMod, B.modmul_eq _ _ fy.1 fz.1] at hx
    injection hx with hx; subst hx; exact hm _
  | inv a =>
    obtain ⟨y, hy, fy, ey⟩ := scalar_programs B hs a hp.1
    have hz : ¬ (q : Int) ∣ y.bn := fun h => hp.2 (by rw [← ey]; exact (ZMod.intCast_zmod_eq_zero_iff_dvd _ q).mpr h)
    simp only [Prog.run, hy, Res.ok_bind, Scalar.inverse] at hx
    injection hx with hx; subst hx; exact (B.invmodp_eq _ fy.1 hz).1
  | pow a e =>
    obtain ⟨y, hy, fy, -⟩ := scalar_programs B hs a hp.1
    simp only [Prog.run, hy, fromBytes_short e hp.2, Res.ok_bind, Scalar.powMod,
      B.powmod_eq _ _ fy.1 (Int.natCast_nonneg _)] at hx
    injection hx with hx; subst hx; exact hm _

/-- **C164** -/
theorem scalar_equality (hs : q < 2 ^ 256) (p p' : Prog) (hp : p.Defined B) (hp' : p'.Defined B)
    (hr : p.Reduces = true) (hr' : p'.Reduces = true) (x x' : Scalar) (hx : p.run B = .ok x) (hx' : p'.run B = .ok x') :
    x = x' ↔ p.denote B = p'.denote B := by
  obtain ⟨y, hy, -, ey⟩ := scalar_programs B hs p hp
  obtain ⟨y', hy', -, ey'⟩ := scalar_programs B hs p' hp'
  rw [hx] at hy; injection hy with hy; subst hy
  rw [hx'] at hy'; injection hy' with hy'; subst hy'
  rw [← ey, ← ey', ZMod.intCast_eq_intCast_iff_dvd_sub]
  have h1 := scalar_reduced B hs p hp hr x hx
  have h2 := scalar_reduced B hs p' hp' hr' x' hx'
  constructor
  · rintro rfl; simp
  · rintro ⟨k, hk⟩
    have hpos : (0 : Int) < q := by exact_mod_cast hq.out.pos
    have hk0 : k = 0 := by
      by_contra hne
      rcases lt_or_gt_of_ne hne with h | h
      · have : (q : Int) * k ≤ q * (-1) := mul_le_mul_of_nonneg_left (by omega) hpos.le
        omega
      · have : (q : Int) * 1 ≤ q * k := mul_le_mul_of_nonneg_left (by omega) hpos.le
        omega
    subst hk0
    exact Scalar.ext (by omega)

/-- **C164** The responses of the non-revocation proof (prover.rs:1889) are `x - ch * y` in the field, also for a
challenge that is not reduced. -/
theorem response_eq (hs : q < 2 ^ 256) (x ch y : Scalar) (hx : Fits x) (hc : Fits ch) (hy : Fits y) :
    ∃ z, response B x ch y = .ok z ∧ (0 ≤ z.bn ∧ z.bn < q) ∧
      (z.bn : ZMod q) = (x.bn : ZMod q) - (ch.bn : ZMod q) * (y.bn : ZMod q) := by
  have hpos : (0 : Int) < q := by exact_mod_cast hq.out.pos
  have h0 : 0 ≤ ch.bn * y.bn % q := Int.emod_nonneg _ hpos.ne'
  have hn := B.modneg_range _ h0
  refine ⟨⟨(x.bn + B.modneg (ch.bn * y.bn % q)) % q⟩, ?_, ⟨Int.emod_nonneg _ hpos.ne', Int.emod_lt_of_pos _ hpos⟩, ?_⟩
  · simp only [response, Scalar.mulMod, Scalar.modNeg, Scalar.addMod, Res.ok_bind, B.modmul_eq _ _ hc.1 hy.1,
      B.rmod_eq _ (add_nonneg hx.1 hn.1)]
  · have h := (ZMod.intCast_zmod_eq_zero_iff_dvd _ q).mpr (B.modneg_cong (ch.bn * y.bn % q))
    push_cast [cast_emod] at h
    rw [cast_emod]
    push_cast
    linear_combination h

/-! ## C165 -/

/-- **C165** `sub_mod` answers with the distance of the two numbers, not with their difference. -/
theorem sub_mod_distance (x r : Scalar) :
    ∃ z, x.subMod B r = .ok z ∧ 0 ≤ z.bn ∧ (z.bn : ZMod q) = ((|x.bn - r.bn| : Int) : ZMod q) := by
  by_cases h : x.bn - r.bn < 0
  · refine ⟨⟨B.modneg (x.bn - r.bn)⟩, by simp [Scalar.subMod, h], B.modneg_neg _ h, ?_⟩
    have hc := (ZMod.intCast_zmod_eq_zero_iff_dvd _ q).mpr (B.modneg_cong (x.bn - r.bn))
    push_cast at hc
    rw [abs_of_neg h]
    push_cast
    linear_combination hc
  · refine ⟨⟨x.bn - r.bn⟩, by simp [Scalar.subMod, h], not_lt.mp h, ?_⟩
    rw [abs_of_nonneg (by omega)]

/-- **C165** For reduced scalars the result is the difference modulo the group order exactly if the subtrahend is not
the larger number. -/
theorem sub_mod_correct_iff (hodd : 2 < q) (x r : Scalar) (hx : 0 ≤ x.bn ∧ x.bn < q) (hr : 0 ≤ r.bn ∧ r.bn < q)
    (z : Scalar) (hz : x.subMod B r = .ok z) :
    (z.bn : ZMod q) = (x.bn : ZMod q) - (r.bn : ZMod q) ↔ r.bn ≤ x.bn := by
  obtain ⟨z', hz', -, ez⟩ := sub_mod_distance B x r
  rw [hz] at hz'
  injection hz' with hz'
  subst hz'
  rw [ez]
  constructor
  · intro h
    by_contra hlt
    have hneg : x.bn - r.bn < 0 := by omega
    rw [abs_of_neg hneg] at h
    have h2 : (((2 * (r.bn - x.bn)) : Int) : ZMod q) = 0 := by
      push_cast at h ⊢
      linear_combination h
    rw [ZMod.intCast_zmod_eq_zero_iff_dvd] at h2
    have hp : Prime (q : Int) := Nat.prime_iff_prime_int.mp hq.out
    rcases hp.dvd_or_dvd h2 with h3 | h3
    · have := Int.le_of_dvd (by norm_num) h3
      omega
    · have := Int.le_of_dvd (by omega) h3
      omega
  · intro h
    rw [abs_of_nonneg (by omega)]
    push_cast
    ring

/-- **C165** (negation) `0 - 1` is answered with `1`. -/
theorem sub_mod_wrong (hodd : 2 < q) : ∃ z, Scalar.subMod B ⟨0⟩ ⟨1⟩ = .ok z ∧ (z.bn : ZMod q) = 1 ∧
    (z.bn : ZMod q) ≠ 0 - 1 := by
  obtain ⟨z, hz, -, ez⟩ := sub_mod_distance B ⟨0⟩ ⟨1⟩
  refine ⟨z, hz, by simpa using ez, ?_⟩
  have := (sub_mod_correct_iff B hodd ⟨0⟩ ⟨1⟩ (by constructor <;> simp; omega) (by constructor <;> simp; omega) z hz).not
  simpa using this.mpr (by simp)

/-! ## C166 -/

end

theorem toBytes_eq (x : Scalar) (hx : Fits x) : x.toBytes = .ok (toBe 32 x.bn.toNat) := by
  have : x.bn % 256 ^ 32 = x.bn := Int.emod_eq_of_lt hx.1 (by norm_num; exact hx.2)
  simp only [Scalar.toBytes, modBytes, this]

/-- **C166** Writing and reading a scalar that fits gives it back; it is written in 32 bytes. -/
theorem scalar_round_trip (x : Scalar) (hx : Fits x) :
    ∃ b, x.toBytes = .ok b ∧ b.length = 32 ∧ Scalar.fromBytes b = .ok x := by
  refine ⟨_, toBytes_eq x hx, by simp, ?_⟩
  rw [fromBytes_short _ (by simp), ofBe_toBe]
  · obtain ⟨n⟩ := x
    have : 0 ≤ n := hx.1
    simp [Int.toNat_of_nonneg this]
  · rw [pow256]
    have := hx.2
    have h0 := hx.1
    zify
    rw [Int.toNat_of_nonneg h0]
    exact this

/-- **C166** Exactly the strings of at most 32 bytes are read, as big-endian numbers; they are written back padded with
zeros. -/
theorem scalar_from_bytes (b : Bytes) :
    (b.length ≤ 32 → ∃ x, Scalar.fromBytes b = .ok x ∧ x.bn = ofBe b ∧
      x.toBytes = .ok (List.replicate (32 - b.length) 0 ++ b)) ∧
    (32 < b.length → ∃ m, Scalar.fromBytes b = .err m) := by
  refine ⟨fun h => ⟨_, fromBytes_short b h, rfl, ?_⟩, fun h => ⟨_, fromBytes_long b h⟩⟩
  rw [toBytes_eq _ (fromBytes_fits b _ (fromBytes_short b h)).2.2]
  congr 1
  have hl : (List.replicate (32 - b.length) (0 : UInt8) ++ b).length = 32 := by simp; omega
  have := toBe_ofBe (List.replicate (32 - b.length) (0 : UInt8) ++ b)
  rw [hl, ofBe_replicate_append] at this
  simpa using this

/-- **C166** Two byte strings are read as the same scalar exactly if they are the same up to leading zeros. -/
theorem scalar_from_bytes_eq (b c : Bytes) (hb : b.length ≤ 32) (hc : c.length ≤ 32) :
    Scalar.fromBytes b = Scalar.fromBytes c ↔
      List.replicate (32 - b.length) 0 ++ b = List.replicate (32 - c.length) 0 ++ c := by
  obtain ⟨x, hx, -, bx⟩ := (scalar_from_bytes b).1 hb
  obtain ⟨y, hy, -, by'⟩ := (scalar_from_bytes c).1 hc
  constructor
  · intro h
    rw [hx, hy] at h
    injection h with h
    subst h
    rw [bx] at by'
    injection by'
  · intro h
    rw [fromBytes_short b hb, fromBytes_short c hc, ← ofBe_replicate_append (32 - b.length) b, h, ofBe_replicate_append]

/-- **C166** (negation) A field element has several accepted encodings of 32 bytes, which are read as scalars that are not
`==`: the group order can be added. -/
theorem scalar_encoding_not_unique {q : Nat} (hq : 0 < q) (x : Scalar) (hx : Fits x) (hroom : x.bn + q < 2 ^ 256) :
    ∃ b y, b.length = 32 ∧ Scalar.fromBytes b = .ok y ∧ y ≠ x ∧ (y.bn : ZMod q) = (x.bn : ZMod q) := by
  have hy : Fits ⟨x.bn + q⟩ := ⟨add_nonneg hx.1 (by positivity), hroom⟩
  obtain ⟨b, -, hl, hb⟩ := scalar_round_trip _ hy
  refine ⟨b, _, hl, hb, ?_, by simp⟩
  intro h
  have := congrArg Scalar.bn h
  simp at this
  omega

/-! ## C167: big numbers and scalars -/

/-- **C167** A big number becomes a scalar exactly if its magnitude is below 2^256; the sign is lost. -/
theorem bignum_to_scalar (a : Int) :
    (a.natAbs < 2 ^ 256 → bignumToScalar a = .ok ⟨a.natAbs⟩) ∧
    (2 ^ 256 ≤ a.natAbs → ∃ m, bignumToScalar a = .err m) := by
  have hv : ofBe (BN.toBytes a) = a.natAbs := by
    have h := BN.from_to_bytes (a.natAbs : Int) (by positivity)
    have e : BN.toBytes (a.natAbs : Int) = BN.toBytes a := by
      rcases Int.natAbs_eq a with h | h
      · rw [← h]
      · conv_rhs => rw [h, BN.to_bytes_neg]
    rw [e] at h
    have : ((ofBe (BN.toBytes a) : Nat) : Int) = (a.natAbs : Int) := h
    exact_mod_cast this
  constructor
  · intro h
    have hl : (BN.toBytes a).length ≤ 32 := by
      unfold BN.toBytes
      split
      · simp
      · rw [List.length_map, List.length_reverse]
        rw [Nat.digits_length_le_iff (by norm_num)]
        rw [pow256]
        exact h
    rw [bignumToScalar, fromBytes_short _ hl, hv]
  · intro h
    refine ⟨_, fromBytes_long _ ?_⟩
    by_contra hl
    have := ofBe_lt_256 (BN.toBytes a) (by omega)
    omega

/-- **C167** Converting a scalar to a big number and back gives the scalar. -/
theorem scalar_bignum_scalar (x : Scalar) (hx : Fits x) :
    scalarToBignum x = .ok x.bn ∧ bignumToScalar x.bn = .ok x := by
  obtain ⟨b, hb, -, h⟩ := scalar_round_trip x hx
  obtain ⟨-, e, -⟩ := fromBytes_fits b x h
  refine ⟨?_, ?_⟩
  · rw [scalarToBignum, hb]
    simp [BN.fromBytes, e]
  · have h2 : x.bn.natAbs < 2 ^ 256 := by
      have := hx.1
      have := hx.2
      omega
    rw [(bignum_to_scalar x.bn).1 h2]
    congr 1
    apply Scalar.ext
    exact Int.natAbs_of_nonneg hx.1

/-- **C167** (negation) A number and its negative become the same scalar. -/
theorem bignum_sign_lost (a : Int) : bignumToScalar (-a) = bignumToScalar a := by
  rw [bignumToScalar, BN.to_bytes_neg]
  rfl

/-- **C167** The power of the secret for a revocation index is the power in the field, for every index. -/
theorem index_power {q : Nat} [Fact q.Prime] (B : Big q) (gamma : Scalar) (hg : Fits gamma) (index : Nat)
    (hi : index < 2 ^ 32) : ∃ x, indexPower B gamma index = .ok x ∧ (0 ≤ x.bn ∧ x.bn < q) ∧
      (x.bn : ZMod q) = (gamma.bn : ZMod q) ^ index := by
  have hpos : (0 : Int) < q := by exact_mod_cast (Fact.out : q.Prime).pos
  obtain ⟨hl, hv⟩ := CL.transform_u32_spec index hi
  refine ⟨⟨gamma.bn ^ index % q⟩, ?_, ⟨Int.emod_nonneg _ hpos.ne', Int.emod_lt_of_pos _ hpos⟩, ?_⟩
  · rw [indexPower, fromBytes_short _ (by omega), hv]
    simp only [Res.ok_bind, Scalar.powMod, B.powmod_eq _ _ hg.1 (Int.natCast_nonneg _), Int.toNat_natCast]
  · rw [cast_emod]; push_cast; rfl

/-! ## C168: hashing to the curve -/

theorem searchFrom_of {P : Type} (C : Curve P) (k : Nat) : ∀ (x : Int) (fuel : Nat), k < fuel →
    (∀ j : Nat, j < k → C.isInfinity (C.newBig (x + j)) = true) → C.isInfinity (C.newBig (x + k)) = false →
    searchFrom C fuel x = some (C.newBig (x + k)) := by
  induction k with
  | zero =>
    intro x fuel hf _ h
    obtain ⟨f, rfl⟩ : ∃ f, fuel = f + 1 := ⟨fuel - 1, by omega⟩
    have h' : C.isInfinity (C.newBig x) = false := by simpa using h
    simp [searchFrom, h']
  | succ k ih =>
    intro x fuel hf hlt h
    obtain ⟨f, rfl⟩ : ∃ f, fuel = f + 1 := ⟨fuel - 1, by omega⟩
    have h0 : C.isInfinity (C.newBig x) = true := by simpa using hlt 0 (by omega)
    have e : ∀ j : Nat, x + 1 + (j : Int) = x + ((j + 1 : Nat) : Int) := fun j => by push_cast; ring
    have := ih (x + 1) f (by omega) (fun j hj => by rw [e]; exact hlt (j + 1) (by omega)) (by rw [e]; exact h)
    simp only [searchFrom, h0, if_true, this, e]

/-- **C168** A digest of at most 32 bytes is always mapped to a point that is not the point at infinity: the one whose x
coordinate is the least number, from the digest's value upwards, that belongs to a point; the search is shorter than the
size of the base field.  Longer digests are refused. -/
theorem fromHash_least {P : Type} (C : Curve P) (hash : Bytes) :
    (hash.length ≤ 32 → ∃ k : Nat, k < C.p ∧ fromHash C hash = .ok (C.newBig (ofBe hash + k)) ∧
      C.isInfinity (C.newBig (ofBe hash + k)) = false ∧
      ∀ j : Nat, j < k → C.isInfinity (C.newBig (ofBe hash + j)) = true) ∧
    (32 < hash.length → ∃ m, fromHash C hash = .err m) := by
  constructor
  · intro hl
    have hpos : (0 : Int) < C.p := by exact_mod_cast C.p_pos
    obtain ⟨x, hx⟩ := C.some_point
    have hex : ∃ k : Nat, C.isInfinity (C.newBig (ofBe hash + k)) = false := by
      refine ⟨((x - ofBe hash) % C.p).toNat, ?_⟩
      rw [Int.toNat_of_nonneg (Int.emod_nonneg _ hpos.ne'), C.newBig_mod, Int.add_emod_emod, add_sub_cancel,
        ← C.newBig_mod]
      exact hx
    classical
    have hmin := fun j (hj : j < Nat.find hex) => Nat.find_min hex hj
    have hlt : Nat.find hex < C.p := by
      refine lt_of_le_of_lt (Nat.find_min' hex (m := ((x - ofBe hash) % C.p).toNat) ?_) ?_
      · rw [Int.toNat_of_nonneg (Int.emod_nonneg _ hpos.ne'), C.newBig_mod, Int.add_emod_emod, add_sub_cancel,
          ← C.newBig_mod]
        exact hx
      · have := Int.emod_lt_of_pos (x - ofBe hash) hpos
        have := Int.emod_nonneg (x - ofBe hash) hpos.ne'
        omega
    have hm : ∀ j : Nat, j < Nat.find hex → C.isInfinity (C.newBig (ofBe hash + j)) = true := fun j hj => by
      simpa using hmin j hj
    refine ⟨Nat.find hex, hlt, ?_, Nat.find_spec hex, hm⟩
    rw [fromHash, fromBytes_short hash hl, Res.ok_bind, searchFrom_of C _ _ _ hlt hm (Nat.find_spec hex)]
    rfl
  · intro hl
    exact ⟨_, by rw [fromHash, fromBytes_long hash hl]; rfl⟩

/-- **C169** (negation) Two digests between which no x coordinate belongs to a point are mapped to the same point. -/
theorem fromHash_adjacent {P : Type} (C : Curve P) (h1 h2 : Bytes) (l1 : h1.length ≤ 32) (l2 : h2.length ≤ 32)
    (hle : ofBe h1 ≤ ofBe h2) (hgap : ∀ x : Nat, ofBe h1 ≤ x → x < ofBe h2 → C.isInfinity (C.newBig x) = true) :
    fromHash C h1 = fromHash C h2 := by
  obtain ⟨k1, -, e1, f1, m1⟩ := (fromHash_least C h1).1 l1
  obtain ⟨k2, -, e2, f2, m2⟩ := (fromHash_least C h2).1 l2
  have hk : ofBe h1 + k1 = ofBe h2 + k2 := by
    rcases lt_trichotomy (ofBe h1 + k1) (ofBe h2 + k2) with h | h | h
    · exfalso
      by_cases hc : ofBe h1 + k1 < ofBe h2
      · have := hgap (ofBe h1 + k1) (by omega) hc
        push_cast at this
        rw [this] at f1
        cases f1
      · have := m2 (ofBe h1 + k1 - ofBe h2) (by omega)
        have e : (ofBe h2 : Int) + ((ofBe h1 + k1 - ofBe h2 : Nat) : Int) = ofBe h1 + k1 := by omega
        rw [e, f1] at this
        cases this
    · exact h
    · exfalso
      have := m1 (ofBe h2 + k2 - ofBe h1) (by omega)
      have e : (ofBe h1 : Int) + ((ofBe h2 + k2 - ofBe h1 : Nat) : Int) = ofBe h2 + k2 := by omega
      rw [e, f2] at this
      cases this
  have hk' : (ofBe h1 : Int) + k1 = ofBe h2 + k2 := by exact_mod_cast hk
  rw [e1, e2, hk']

/-- **C169** Conversely the point determines the digest up to such gaps and up to the size of the base field, when points
with different coordinates differ. -/
theorem fromHash_injective {P : Type} (C : Curve P)
    (hinj : ∀ x y : Int, C.isInfinity (C.newBig x) = false → C.newBig x = C.newBig y → x % C.p = y % C.p)
    (h1 h2 : Bytes) (l1 : h1.length ≤ 32) (l2 : h2.length ≤ 32) (he : fromHash C h1 = fromHash C h2) :
    ∃ k1 k2 : Nat, ((ofBe h1 : Int) + k1) % C.p = ((ofBe h2 : Int) + k2) % C.p ∧
      (∀ j : Nat, j < k1 → C.isInfinity (C.newBig (ofBe h1 + j)) = true) ∧
      (∀ j : Nat, j < k2 → C.isInfinity (C.newBig (ofBe h2 + j)) = true) := by
  obtain ⟨k1, -, e1, f1, m1⟩ := (fromHash_least C h1).1 l1
  obtain ⟨k2, -, e2, f2, m2⟩ := (fromHash_least C h2).1 l2
  refine ⟨k1, k2, hinj _ _ f1 ?_, m1, m2⟩
  rw [e1, e2] at he
  injection he

section
variable {F K S GT : Type} [Field F] [AddCommGroup K] [Module F K] [AddCommGroup S] [Module F S]
  [AddCommGroup GT] [Module F GT] [DecidableEq GT]

/-- **C169** (negation) A signature on a message is accepted for every message whose digest follows directly on the
digest of the message, if no point has the first digest as x coordinate. -/
theorem signature_shared (C : Curve S) (e : K →ₗ[F] S →ₗ[F] GT) (c : BLS.PointCodec S) (cK : BLS.PointCodec K)
    (digest : Bytes → Bytes) (hashed : Bytes → S) (hh : ∀ m, fromHash C (digest m) = .ok (hashed m))
    (m1 m2 : Bytes) (l1 : (digest m1).length ≤ 32) (l2 : (digest m2).length ≤ 32)
    (hnext : ofBe (digest m2) = ofBe (digest m1) + 1) (hoff : C.isInfinity (C.newBig (ofBe (digest m1))) = true)
    (sk : F) (gen : K) :
    BLS.verify e hashed (BLS.sign c hashed m1 sk) m2 (BLS.verKeyNew cK gen sk) gen = true := by
  have he := fromHash_adjacent C (digest m1) (digest m2) l1 l2 (by omega) (fun x h h' => by
    have : x = ofBe (digest m1) := by omega
    subst this
    exact hoff)
  rw [hh, hh] at he
  injection he with he
  simp [BLS.verify, BLS.verifySignature, BLS.sign, BLS.genSignature, BLS.verKeyNew, he]

end

/-! ## The hypotheses are met -/

/-- Reference functions for the contract. -/
def refBig (q : Nat) [hq : Fact q.Prime] : Big q where
  rmod a := a % q
  modneg a := q - a % q
  modmul a b := a * b % q
  powmod a e := a ^ e.toNat % q
  invmodp a := (((a : ZMod q)⁻¹).val : Int)
  randomnum s := (ofBe s : Int) % q
  rmod_eq _ _ := rfl
  modneg_cong a := ⟨1 + a / q, by have := Int.emod_add_mul_ediv a q; linear_combination -this⟩
  modneg_range a _ := by
    have hpos : (0 : Int) < q := by exact_mod_cast hq.out.pos
    have := Int.emod_nonneg a hpos.ne'
    have := Int.emod_lt_of_pos a hpos
    omega
  modneg_neg a _ := by
    have hpos : (0 : Int) < q := by exact_mod_cast hq.out.pos
    have := Int.emod_lt_of_pos a hpos
    omega
  modmul_eq _ _ _ _ := rfl
  powmod_eq _ _ _ _ := rfl
  invmodp_eq a _ h := by
    have hne : (a : ZMod q) ≠ 0 := fun e => h ((ZMod.intCast_zmod_eq_zero_iff_dvd _ q).mp e)
    have hz : NeZero q := ⟨hq.out.ne_zero⟩
    refine ⟨⟨by positivity, by exact_mod_cast ZMod.val_lt _⟩, ?_⟩
    rw [← ZMod.intCast_zmod_eq_zero_iff_dvd]
    push_cast
    rw [ZMod.natCast_val, ZMod.cast_id, inv_mul_cancel₀ hne]
    ring
  randomnum_range s := by
    have hpos : (0 : Int) < q := by exact_mod_cast hq.out.pos
    exact ⟨Int.emod_nonneg _ hpos.ne', Int.emod_lt_of_pos _ hpos⟩

/-- A toy curve: half of the coordinates modulo 7 belong to points. -/
def toyCurve : Curve (Option (ZMod 7)) where
  p := 7
  newBig x := if x % 7 = 1 ∨ x % 7 = 4 ∨ x % 7 = 6 then some (x : ZMod 7) else none
  isInfinity P := P.isNone
  newBig_mod x := by
    have e : ((x % ((7 : Nat) : Int) : Int) : ZMod 7) = (x : ZMod 7) := ZMod.intCast_mod x 7
    have e2 : x % ((7 : Nat) : Int) % 7 = x % 7 := by push_cast; exact Int.emod_emod_of_dvd _ (dvd_refl _)
    rw [e, e2]
  p_pos := by norm_num
  some_point := ⟨1, by decide⟩

instance fact13 : Fact (Nat.Prime 13) := ⟨by norm_num⟩

/-- a program over scalars, starting from bytes above the group order -/
def sampleProg : Prog := .add (.inv (.bytes [40])) (.neg (.mul (.bytes [255, 255]) (.pow (.seed (List.replicate 32 7)) [2])))

example : sampleProg.Defined (refBig 13) := by
  refine ⟨⟨show List.length _ ≤ 32 by decide, ?_⟩, show List.length _ ≤ 32 by decide,
    show List.length _ = 32 by decide, by decide⟩
  simp only [Prog.denote]
  decide

example : (Scalar.subMod (refBig 13) ⟨3⟩ ⟨5⟩) = .ok ⟨2⟩ := by decide

example : fromHash toyCurve [2] = fromHash toyCurve [4] ∧ fromHash toyCurve [2] = .ok (some 4) := by decide

example : ∃ m, bignumToScalar (2 ^ 256) = .err m := (bignum_to_scalar _).2 (by norm_num)

end Verif.Pair
