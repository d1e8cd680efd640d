import Verif.Props.CLHiding
import Verif.Props.CLNonRevoc
import Mathlib.Tactic.Abel
import Mathlib.Tactic.Ring
set_option linter.unusedVariables false
set_option linter.unusedSimpArgs false
set_option linter.unusedSectionVars false
/-!
# Presentations with a proof of non-revocation leak no more than the context (C197)
-/
namespace Verif.CL.HidingRev
open Verif BN

/-! ## Counting: numbers from ranges and elements of a finite type -/

section Count
variable {ι : Type} [Fintype ι] [DecidableEq ι] {X Y : Type} [Fintype Y]

open Classical in
/-- the probability that a uniform draw of `ω` leads to an outcome in `P` -/
noncomputable def chance {Ω : Type} [Fintype Ω] (f : Ω → X) (P : X → Prop) : ℚ :=
  ((Finset.univ.filter fun ω => P (f ω)).card : ℚ) / (Fintype.card Ω : ℚ)

open Classical in
theorem shift_count (N D : ι → Nat) (f g : Draws N × Y → X) (φ : Draws N × Y → ι → Int) (ψ : Draws N × Y → Y)
    (hφ : ∀ ω i, |φ ω i - (ω.1 i).val| ≤ D i)
    (hfg : ∀ ω ω' : Draws N × Y, (∀ i, ((ω'.1 i).val : Int) = φ ω i) → ω'.2 = ψ ω → g ω' = f ω)
    (inj : ∀ ω1 ω2, f ω1 = f ω2 → φ ω1 = φ ω2 → ψ ω1 = ψ ω2 → ω1 = ω2) (P : X → Prop) :
    (Finset.univ.filter fun ω => P (f ω)).card ≤ (Finset.univ.filter fun ω => P (g ω)).card +
      (∑ i, 2 * D i * ∏ j ∈ Finset.univ.erase i, N j) * Fintype.card Y := by
  set bad := Finset.univ.filter fun ω : Draws N × Y => ∃ i, ¬ (0 ≤ φ ω i ∧ φ ω i < N i)
  set good := Finset.univ.filter fun ω : Draws N × Y => P (f ω) ∧ ∀ i, 0 ≤ φ ω i ∧ φ ω i < N i
  have h1 : (Finset.univ.filter fun ω => P (f ω)) ⊆ good ∪ bad := by
    intro ω hω
    simp only [Finset.mem_filter, Finset.mem_univ, true_and] at hω
    simp only [good, bad, Finset.mem_union, Finset.mem_filter, Finset.mem_univ, true_and]
    by_cases c : ∀ i, 0 ≤ φ ω i ∧ φ ω i < N i
    · exact .inl ⟨hω, c⟩
    · right; push Not at c ⊢; exact c
  have h2 : good.card ≤ (Finset.univ.filter fun ω => P (g ω)).card := by
    refine Finset.card_le_card_of_injOn (fun ω => ((fun i => if h : 0 ≤ φ ω i ∧ φ ω i < N i then ⟨(φ ω i).toNat, by omega⟩ else ω.1 i), ψ ω)) ?_ ?_
    · intro ω hω
      simp only [good, Finset.coe_filter, Finset.mem_univ, true_and, Set.mem_ofPred_eq] at hω
      simp only [Finset.coe_filter, Finset.mem_univ, true_and, Set.mem_ofPred_eq]
      rw [hfg ω]
      · exact hω.1
      · intro i
        dsimp only
        rw [dif_pos (hω.2 i)]
        exact Int.toNat_of_nonneg (hω.2 i).1
      · rfl
    · intro ω1 hω1 ω2 hω2 he
      simp only [good, Finset.coe_filter, Finset.mem_univ, true_and, Set.mem_ofPred_eq] at hω1 hω2
      have he' := Prod.mk.inj he
      have e1 : ∀ i, φ ω1 i = φ ω2 i := by
        intro i
        have := congrFun he'.1 i
        simp only [dif_pos (hω1.2 i), dif_pos (hω2.2 i), Fin.mk.injEq] at this
        have := hω1.2 i
        have := hω2.2 i
        omega
      refine inj _ _ ?_ (funext e1) he'.2
      rw [← hfg ω1 ((fun i => if h : 0 ≤ φ ω1 i ∧ φ ω1 i < N i then ⟨(φ ω1 i).toNat, by omega⟩ else ω1.1 i), ψ ω1),
        ← hfg ω2 ((fun i => if h : 0 ≤ φ ω2 i ∧ φ ω2 i < N i then ⟨(φ ω2 i).toNat, by omega⟩ else ω2.1 i), ψ ω2)]
      · exact congrArg g he
      · intro i; dsimp only; rw [dif_pos (hω2.2 i)]; exact Int.toNat_of_nonneg (hω2.2 i).1
      · rfl
      · intro i; dsimp only; rw [dif_pos (hω1.2 i)]; exact Int.toNat_of_nonneg (hω1.2 i).1
      · rfl
  have h3 : bad.card ≤ (∑ i, 2 * D i * ∏ j ∈ Finset.univ.erase i, N j) * Fintype.card Y := by
    have hb : bad ⊆ (Finset.univ.biUnion fun i => Finset.univ.filter fun ω : Draws N => (ω i).val < D i ∨ N i ≤ (ω i).val + D i) ×ˢ (Finset.univ : Finset Y) := by
      intro ω hω
      simp only [bad, Finset.mem_filter, Finset.mem_univ, true_and] at hω
      obtain ⟨i, hi⟩ := hω
      simp only [Finset.mem_product, Finset.mem_biUnion, Finset.mem_filter, Finset.mem_univ, true_and, and_true]
      refine ⟨i, ?_⟩
      have h := abs_le.1 (hφ ω i)
      have := (ω.1 i).isLt
      omega
    refine (Finset.card_le_card hb).trans ?_
    rw [Finset.card_product, Finset.card_univ]
    refine Nat.mul_le_mul_right _ (Finset.card_biUnion_le.trans (Finset.sum_le_sum fun i _ => ?_))
    rw [card_coord N i fun x => x.val < D i ∨ N i ≤ x.val + D i]
    exact Nat.mul_le_mul_right _ (card_border _ _)
  exact (Finset.card_le_card h1).trans ((Finset.card_union_le _ _).trans (Nat.add_le_add h2 h3))

theorem chance_shift [Nonempty Y] (N D : ι → Nat) (hN : ∀ i, 0 < N i) (f g : Draws N × Y → X) (φ : Draws N × Y → ι → Int) (ψ : Draws N × Y → Y)
    (hφ : ∀ ω i, |φ ω i - (ω.1 i).val| ≤ D i)
    (hfg : ∀ ω ω' : Draws N × Y, (∀ i, ((ω'.1 i).val : Int) = φ ω i) → ω'.2 = ψ ω → g ω' = f ω)
    (inj : ∀ ω1 ω2, f ω1 = f ω2 → φ ω1 = φ ω2 → ψ ω1 = ψ ω2 → ω1 = ω2) (P : X → Prop) :
    chance f P ≤ chance g P + ∑ i, (2 * D i : ℚ) / N i := by
  have h := shift_count N D f g φ ψ hφ hfg inj P
  have hc : (Fintype.card (Draws N × Y) : ℚ) = (∏ i, (N i : ℚ)) * Fintype.card Y := by simp [Draws, Fintype.card_pi]
  have hY : (0 : ℚ) < Fintype.card Y := by exact_mod_cast Fintype.card_pos
  have hpos : (0 : ℚ) < (∏ i, (N i : ℚ)) * Fintype.card Y := mul_pos (Finset.prod_pos fun i _ => by exact_mod_cast hN i) hY
  rw [chance, chance, hc, div_le_iff₀ hpos, add_mul, div_mul_cancel₀ _ hpos.ne', ← mul_assoc, Finset.sum_mul]
  have : ∀ i ∈ Finset.univ, (2 * D i : ℚ) / N i * ∏ i, (N i : ℚ) = 2 * D i * ∏ j ∈ Finset.univ.erase i, (N j : ℚ) := by
    intro i _
    rw [← Finset.mul_prod_erase Finset.univ (fun i => (N i : ℚ)) (Finset.mem_univ i)]
    have : (N i : ℚ) ≠ 0 := by exact_mod_cast (hN i).ne'
    field_simp
  rw [Finset.sum_congr rfl this]
  exact_mod_cast h

end Count

/-! ## One credential -/

section
variable {F G1 G2 GT : Type} [Field F] [AddCommGroup G1] [Module F G1] [AddCommGroup G2] [Module F G2]
  [AddCommGroup GT] [Module F GT]

theorem coords_injective : Function.Injective (fun x : NonRevRand F => ((x.rho, x.r, x.r', x.r'', x.r''', x.o, x.o'),
    (x.tau.rho, x.tau.r, x.tau.r', x.tau.r'', x.tau.r''', x.tau.o, x.tau.o'), (x.tau.m, x.tau.m', x.tau.t, x.tau.t', x.tau.m2, x.tau.s, x.tau.c))) := by
  rintro ⟨a1, a2, a3, a4, a5, a6, a7, ⟨b1, b2, b3, b4, b5, b6, b7, b8, b9, b10, b11, b12, b13, b14⟩⟩ ⟨a1', a2', a3', a4', a5', a6', a7', ⟨b1', b2', b3', b4', b5', b6', b7', b8', b9', b10', b11', b12', b13', b14'⟩⟩ h
  simp only [Prod.mk.injEq] at h
  obtain ⟨⟨rfl, rfl, rfl, rfl, rfl, rfl, rfl⟩, ⟨rfl, rfl, rfl, rfl, rfl, rfl, rfl⟩, rfl, rfl, rfl, rfl, rfl, rfl, rfl⟩ := h
  rfl

/-- the random values of the non-revocation part are drawn uniformly from the finite field (prover.rs:1743-1785, 1843-1868) -/
noncomputable instance [Fintype F] : Fintype (NonRevRand F) := Fintype.ofInjective _ coords_injective

instance : Nonempty (NonRevRand F) := ⟨⟨0, 0, 0, 0, 0, 0, 0, ⟨0, 0, 0, 0, 0, 0, 0, 0, 0, 0, 0, 0, 0, 0⟩⟩⟩

/-- Two credentials with a proof of non-revocation: issued under the same revocation key, in the same registry with value `acc`, not revoked (`Authentic`), and with the same
context.  In the groups of prime order `htilde` and `hCap` are generators. -/
structure SameRevoc (e : G1 →ₗ[F] G2 →ₗ[F] GT) (it1 it2 : Item F G1 G2 GT) (rk : Rev.PubKey G1 G2) (z : GT) (acc : G2) (rc1 rc2 : Rev.NonRevSig F G1 G2) (w1 w2 : G2) : Prop where
  key : it1.pk.rKey = some rk
  reg1 : it1.reg = some acc
  reg2 : it2.reg = some acc
  cred1 : it1.sig.r = some rc1
  cred2 : it2.sig.r = some rc2
  wit1 : it1.witness = some w1
  wit2 : it2.witness = some w2
  valid1 : Rev.Authentic e rk z acc rc1.sigma rc1.c rc1.vr rc1.m2 rc1.gI rc1.sigmaI rc1.uI w1
  valid2 : Rev.Authentic e rk z acc rc2.sigma rc2.c rc2.vr rc2.m2 rc2.gI rc2.sigmaI rc2.uI w2
  context : rc1.m2 = rc2.m2
  contextP : it1.sig.p.m2 = it2.sig.p.m2
  gen1 : ∀ p : G1, ∃ a : F, p = a • rk.htilde
  gen2 : ∀ q : G2, ∃ a : F, q = a • rk.hCap

/-- the discrete logarithms of the differences -/
structure Diffs (F : Type) where
  rho : F
  o : F
  r : F
  o' : F
  r' : F
  r'' : F
  r''' : F

theorem diffs {e : G1 →ₗ[F] G2 →ₗ[F] GT} {it1 it2 : Item F G1 G2 GT} {rk : Rev.PubKey G1 G2} {z : GT} {acc : G2} {rc1 rc2 : Rev.NonRevSig F G1 G2} {w1 w2 : G2}
    (h : SameRevoc e it1 it2 rk z acc rc1 rc2 w1 w2) : ∃ d : Diffs F,
      rc1.sigma - rc2.sigma = d.rho • rk.htilde ∧ -(d.rho • rk.h) = d.o • rk.htilde ∧ rc1.gI - rc2.gI = d.r • rk.htilde ∧ -(d.r • rk.g) = d.o' • rk.htilde ∧
      w1 - w2 = d.r' • rk.hCap ∧ rc1.sigmaI - rc2.sigmaI = d.r'' • rk.hCap ∧ rc1.uI - rc2.uI = d.r''' • rk.hCap := by
  obtain ⟨a, ha⟩ := h.gen1 (rc1.sigma - rc2.sigma)
  obtain ⟨b, hb⟩ := h.gen1 (-(a • rk.h))
  obtain ⟨c, hc⟩ := h.gen1 (rc1.gI - rc2.gI)
  obtain ⟨d, hd⟩ := h.gen1 (-(c • rk.g))
  obtain ⟨x, hx⟩ := h.gen2 (w1 - w2)
  obtain ⟨y, hy⟩ := h.gen2 (rc1.sigmaI - rc2.sigmaI)
  obtain ⟨t, ht⟩ := h.gen2 (rc1.uI - rc2.uI)
  exact ⟨⟨a, b, c, d, x, y, t⟩, ha, hb, hc, hd, hx, hy, ht⟩

/-- the random values for the second credential that lead to the same non-revocation proof -/
def shiftRand (d : Diffs F) (rc1 rc2 : Rev.NonRevSig F G1 G2) (ch : F) (x : NonRevRand F) : NonRevRand F :=
  let p1 := Rev.genCListParams rc1 x.rho x.r x.r' x.r'' x.r''' x.o x.o'
  let p2 := Rev.genCListParams rc2 (x.rho + d.rho) (x.r + d.r) (x.r' + d.r') (x.r'' + d.r'') (x.r''' + d.r''') (x.o + d.o) (x.o' + d.o')
  ⟨x.rho + d.rho, x.r + d.r, x.r' + d.r', x.r'' + d.r'', x.r''' + d.r''', x.o + d.o, x.o' + d.o',
    ⟨x.tau.rho + ch * (p2.rho - p1.rho), x.tau.r + ch * (p2.r - p1.r), x.tau.r' + ch * (p2.r' - p1.r'), x.tau.r'' + ch * (p2.r'' - p1.r''),
     x.tau.r''' + ch * (p2.r''' - p1.r'''), x.tau.o + ch * (p2.o - p1.o), x.tau.o' + ch * (p2.o' - p1.o'), x.tau.m + ch * (p2.m - p1.m), x.tau.m' + ch * (p2.m' - p1.m'),
     x.tau.t + ch * (p2.t - p1.t), x.tau.t' + ch * (p2.t' - p1.t'), x.tau.m2 + ch * (p2.m2 - p1.m2), x.tau.s + ch * (p2.s - p1.s), x.tau.c + ch * (p2.c - p1.c)⟩⟩

theorem shiftRand_inj (d : Diffs F) (rc1 rc2 : Rev.NonRevSig F G1 G2) (ch : F) (x y : NonRevRand F) (h : shiftRand d rc1 rc2 ch x = shiftRand d rc1 rc2 ch y) : x = y := by
  obtain ⟨a1, a2, a3, a4, a5, a6, a7, ⟨b1, b2, b3, b4, b5, b6, b7, b8, b9, b10, b11, b12, b13, b14⟩⟩ := x
  obtain ⟨a1', a2', a3', a4', a5', a6', a7', ⟨b1', b2', b3', b4', b5', b6', b7', b8', b9', b10', b11', b12', b13', b14'⟩⟩ := y
  simp only [shiftRand, NonRevRand.mk.injEq, Rev.XList.mk.injEq, Rev.genCListParams, add_left_inj] at h
  obtain ⟨rfl, rfl, rfl, rfl, rfl, rfl, rfl, h⟩ := h
  simp only [add_left_inj] at h
  obtain ⟨rfl, rfl, rfl, rfl, rfl, rfl, rfl, rfl, rfl, rfl, rfl, rfl, rfl, rfl⟩ := h
  rfl

/-- with the shifted random values the second credential gives the same commitments and the same non-revocation proof -/
theorem same_nonrevoc {e : G1 →ₗ[F] G2 →ₗ[F] GT} {it1 it2 : Item F G1 G2 GT} {rk : Rev.PubKey G1 G2} {z : GT} {acc : G2} {rc1 rc2 : Rev.NonRevSig F G1 G2} {w1 w2 : G2}
    (h : SameRevoc e it1 it2 rk z acc rc1 rc2 w1 w2) (d : Diffs F)
    (hd : rc1.sigma - rc2.sigma = d.rho • rk.htilde ∧ -(d.rho • rk.h) = d.o • rk.htilde ∧ rc1.gI - rc2.gI = d.r • rk.htilde ∧ -(d.r • rk.g) = d.o' • rk.htilde ∧
      w1 - w2 = d.r' • rk.hCap ∧ rc1.sigmaI - rc2.sigmaI = d.r'' • rk.hCap ∧ rc1.uI - rc2.uI = d.r''' • rk.hCap) (ch : F) (x : NonRevRand F) :
    let i1 := Rev.initNonRevocProof e rc1 acc rk w1 x.rho x.r x.r' x.r'' x.r''' x.o x.o' x.tau
    let x2 := shiftRand d rc1 rc2 ch x
    let i2 := Rev.initNonRevocProof e rc2 acc rk w2 x2.rho x2.r x2.r' x2.r'' x2.r''' x2.o x2.o' x2.tau
    i2.cList = i1.cList ∧ i2.tauList = i1.tauList ∧ i2.tauParams.m2 = i1.tauParams.m2 ∧
      ∃ p, Rev.finalizeNonRevocProof i1 ch = .ok p ∧ Rev.finalizeNonRevocProof i2 ch = .ok p := by
  intro i1 x2 i2
  obtain ⟨d1, d2, d3, d4, d5, d6, d7⟩ := hd
  have hc : i2.cList = i1.cList := by
    simp only [i1, i2, x2, Rev.initNonRevocProof, Rev.createCListValues, Rev.genCListParams, shiftRand, Rev.CList.mk.injEq]
    refine ⟨?_, ?_, ?_, ?_, ?_, ?_, ?_⟩
    · rw [add_smul, add_smul, ← d2]; abel
    · rw [add_smul, add_smul, ← d4]; abel
    · rw [add_smul, ← d1]; abel
    · rw [add_smul, ← d3]; abel
    · rw [add_smul, ← d5]; abel
    · rw [add_smul, ← d6]; abel
    · rw [add_smul, ← d7]; abel
  obtain ⟨p1, f1, v1⟩ := Rev.nonrevoc_proof_complete e rk z acc rc1 w1 h.valid1 x.rho x.r x.r' x.r'' x.r''' x.o x.o' x.tau ch
  obtain ⟨p2, f2, v2⟩ := Rev.nonrevoc_proof_complete e rk z acc rc2 w2 h.valid2 x2.rho x2.r x2.r' x2.r'' x2.r''' x2.o x2.o' x2.tau ch
  have hp : p2 = p1 := by
    have q1 : Rev.finalizeNonRevocProof i1 ch = .ok p1 := f1
    have q2 : Rev.finalizeNonRevocProof i2 ch = .ok p2 := f2
    have e1 : p1.2 = i1.cList := by
      have := Res.ok.inj (show Res.ok (_, i1.cList) = Res.ok p1 from q1)
      rw [← this]
    have e2 : p2.2 = i2.cList := by
      have := Res.ok.inj (show Res.ok (_, i2.cList) = Res.ok p2 from q2)
      rw [← this]
    refine Prod.ext ?_ (e2.trans (hc.trans e1.symm))
    rw [← Res.ok.inj q1, ← Res.ok.inj q2]
    simp only [i1, i2, x2, Rev.initNonRevocProof, shiftRand, Rev.XList.mk.injEq]
    refine ⟨?_, ?_, ?_, ?_, ?_, ?_, ?_, ?_, ?_, ?_, ?_, ?_, ?_, ?_⟩ <;> ring
  refine ⟨hc, ?_, ?_, p1, f1, hp ▸ f2⟩
  · show (Rev.initNonRevocProof e rc2 acc rk w2 x2.rho x2.r x2.r' x2.r'' x2.r''' x2.o x2.o' x2.tau).tauList = (Rev.initNonRevocProof e rc1 acc rk w1 x.rho x.r x.r' x.r'' x.r''' x.o x.o' x.tau).tauList
    rw [← v1, ← v2, hp]
  · simp only [i1, i2, x2, Rev.initNonRevocProof, shiftRand, Rev.genCListParams, h.context, sub_self, mul_zero, add_zero]

/-- two initialised non-revocation parts (or none) that give the same commitments, the same mask of the context and the same proof for the challenge `ch` -/
inductive SamePart (ch : F) : Option (Rev.NonRevocInit F G1 G2 GT) → Option (Rev.NonRevocInit F G1 G2 GT) → Prop where
  | none : SamePart ch .none .none
  | some (i1 i2 p) (hc : i2.cList = i1.cList) (ht : i2.tauList = i1.tauList) (hm : i2.tauParams.m2 = i1.tauParams.m2) (f1 : Rev.finalizeNonRevocProof i1 ch = .ok p)
      (f2 : Rev.finalizeNonRevocProof i2 ch = .ok p) : SamePart ch (.some i1) (.some i2)

/-- the non-revocation part that `add_sub_proof_request` makes -/
abbrev part (e : G1 →ₗ[F] G2 →ₗ[F] GT) (it : Item F G1 G2 GT) : Option (Rev.NonRevocInit F G1 G2 GT) := initNonRevoc e it.sig it.reg it.pk.rKey it.witness it.x

/-- the mask of the context: with a non-revocation part it is the mask of that part -/
def mask (e : G1 →ₗ[F] G2 →ₗ[F] GT) (cv : Conv F G1 G2 GT) (it : Item F G1 G2 GT) : Int := ((part e it).map fun i => cv.ofF i.tauParams.m2).getD it.rnd.m2T

/-- the credential without the non-revocation part, with the same mask -/
def primaryOnly (e : G1 →ₗ[F] G2 →ₗ[F] GT) (cv : Conv F G1 G2 GT) (it : Item F G1 G2 GT) : Item F G1 G2 GT :=
  { it with reg := none, rnd := { it.rnd with m2T := mask e cv it } }

theorem part_primaryOnly (e : G1 →ₗ[F] G2 →ₗ[F] GT) (cv : Conv F G1 G2 GT) (it : Item F G1 G2 GT) : part e (primaryOnly e cv it) = none := by
  show initNonRevoc e it.sig none it.pk.rKey it.witness it.x = none
  unfold initNonRevoc
  cases it.sig.r <;> rfl

/-- adding a credential with a non-revocation part, from adding its primary part -/
theorem add_part (e : G1 →ₗ[F] G2 →ₗ[F] GT) (cv : Conv F G1 G2 GT) (mode : Overflow) (ord : SetOrder) (b : Builder F G1 G2 GT) (it it' : Item F G1 G2 GT) (hit : it' = primaryOnly e cv it)
    (ini : InitProof F G1 G2 GT) (cl tl : List Bytes)
    (h : b.addSubProofRequest e cv mode ord it'.req it'.schema it'.nonSchema it'.sig it'.vals it'.pk it'.reg it'.witness it'.x it'.rnd it'.nrnd =
      .ok ⟨b.common, b.inits ++ [ini], b.cList ++ cl, b.tauList ++ tl⟩) :
    b.addSubProofRequest e cv mode ord it.req it.schema it.nonSchema it.sig it.vals it.pk it.reg it.witness it.x it.rnd it.nrnd =
      .ok ⟨b.common, b.inits ++ [{ ini with nonRevoc := part e it }], b.cList ++ (((part e it).map fun i => cListBytes cv i.cList).getD [] ++ cl),
        b.tauList ++ (((part e it).map fun i => tauListBytes cv i.tauList).getD [] ++ tl)⟩ ∧ ini.nonRevoc = none := by
  have hn : initNonRevoc e it'.sig it'.reg it'.pk.rKey it'.witness it'.x = none := by rw [hit]; exact part_primaryOnly e cv it
  unfold Builder.addSubProofRequest at h ⊢
  rw [hn] at h
  have e1 : it'.rnd = { it.rnd with m2T := mask e cv it } := by rw [hit]; rfl
  have e2 : it'.vals = it.vals := by rw [hit]; rfl
  have e3 : it'.req = it.req := by rw [hit]; rfl
  have e4 : it'.schema = it.schema := by rw [hit]; rfl
  have e5 : it'.nonSchema = it.nonSchema := by rw [hit]; rfl
  have e6 : it'.pk = it.pk := by rw [hit]; rfl
  have e7 : it'.sig = it.sig := by rw [hit]; rfl
  have e8 : it'.nrnd = it.nrnd := by rw [hit]; rfl
  rw [e1, e2, e3, e4, e5, e6, e7, e8] at h
  obtain ⟨_, hk, h⟩ := Res.bind_eq_ok.1 h
  rw [hk, Res.ok_bind]
  simp only [] at h ⊢
  obtain ⟨pi, hp, h⟩ := Res.bind_eq_ok.1 h
  have hp' : initPrimaryProof mode ord b.common it.pk.pKey it.sig.p it.vals it.schema it.nonSchema it.req ((part e it).map fun i => cv.ofF i.tauParams.m2) it.rnd it.nrnd = .ok pi := by
    rw [← hp]
    unfold mask initPrimaryProof initEqProof
    cases part e it <;> rfl
  rw [hp', Res.ok_bind]
  simp only [Option.map_none, Option.getD_none, Res.pure_eq, Res.ok.injEq, Builder.mk.injEq, List.append_cancel_left_eq, List.append_nil, true_and, List.cons.injEq, and_true] at h ⊢
  obtain ⟨rfl, rfl, rfl⟩ := h
  simp only [List.append_assoc, and_self, and_true]

/-- finishing a credential with a non-revocation part -/
theorem finish_part (cv : Conv F G1 G2 GT) (ordF : SetOrder) (c : Int) (ini : InitProof F G1 G2 GT) (hn : ini.nonRevoc = none) (sp : SubProof F G1 G2)
    (h : finalizeSubProof cv ordF c ini = .ok sp) (nr : Option (Rev.NonRevocInit F G1 G2 GT)) (p : Option (Rev.XList F × Rev.CList G1 G2)) (hp : finalizeNonRevocOpt cv c nr = .ok p) :
    finalizeSubProof cv ordF c { ini with nonRevoc := nr } = .ok ⟨sp.primary, p⟩ := by
  unfold finalizeSubProof at h ⊢
  rw [hn] at h
  simp only [finalizeNonRevocOpt, Res.pure_eq, Res.ok_bind] at h
  simp only []
  rw [hp, Res.ok_bind]
  obtain ⟨q, hq, h⟩ := Res.bind_eq_ok.1 h
  rw [hq, Res.ok_bind, Res.pure_eq, ← Res.ok.inj h]

theorem Issued.of {n : Nat} {S Z C : (ZMod n)ˣ} {R : String → (ZMod n)ˣ} {it it' : Item F G1 G2 GT} (h : Issued S Z C R it) (h1 : it'.pk = it.pk) (h2 : it'.sig = it.sig)
    (h3 : it'.vals = it.vals) (h4 : it'.schema = it.schema) (h5 : it'.nonSchema = it.nonSchema) (h6 : it'.req = it.req) : Issued S Z C R it' := by
  obtain ⟨pk, sig, vals, schema, nonSchema, req, reg, witness, rkp, x, rnd, nrnd⟩ := it
  obtain ⟨pk', sig', vals', schema', nonSchema', req', reg', witness', rkp', x', rnd', nrnd'⟩ := it'
  simp only at h1 h2 h3 h4 h5 h6
  subst h1 h2 h3 h4 h5 h6
  exact ⟨h.key, h.size, h.signed, h.exponent, h.blinding, h.context, h.values, h.distinct, h.noCommitment, h.attrs, h.covered, h.revealed⟩

/-- the two credentials add the same bytes to the builder and give the same sub proof -/
def SameOut (e : G1 →ₗ[F] G2 →ₗ[F] GT) (cv : Conv F G1 G2 GT) (mode : Overflow) (ord ordF : SetOrder) (c : Int) (com1 com2 : Map Int) (it1 it2 : Item F G1 G2 GT) : Prop :=
  ∀ b1 b2 : Builder F G1 G2 GT, b1.common = com1 → b2.common = com2 → ∃ ini1 ini2 cl tl sp,
      b1.addSubProofRequest e cv mode ord it1.req it1.schema it1.nonSchema it1.sig it1.vals it1.pk it1.reg it1.witness it1.x it1.rnd it1.nrnd =
        .ok ⟨b1.common, b1.inits ++ [ini1], b1.cList ++ cl, b1.tauList ++ tl⟩ ∧
      b2.addSubProofRequest e cv mode ord it2.req it2.schema it2.nonSchema it2.sig it2.vals it2.pk it2.reg it2.witness it2.x it2.rnd it2.nrnd =
        .ok ⟨b2.common, b2.inits ++ [ini2], b2.cList ++ cl, b2.tauList ++ tl⟩ ∧
      finalizeSubProof cv ordF c ini1 = .ok sp ∧ finalizeSubProof cv ordF c ini2 = .ok sp

theorem sameOut_item (e : G1 →ₗ[F] G2 →ₗ[F] GT) (cv : Conv F G1 G2 GT) (mode : Overflow) (ord ordF : SetOrder) (c : Int) (com1 com2 : Map Int)
    (it1 it2 : Item F G1 G2 GT) {n : Nat} {S Z C : (ZMod n)ˣ} {R : String → (ZMod n)ˣ}
    (h1 : Issued S Z C R it1) (h2 : Issued S Z C R it2) (np : it1.req.predicates = []) (same : SameShown it1 it2)
    {A1 A2 : (ZMod n)ˣ} (hA1 : Rep it1.sig.p.a A1) (hA2 : Rep it2.sig.p.a A2)
    (c1 : CLEquation S Z C R A1 it1.sig.p.e it1.sig.p.v it1.sig.p.m2 it1.vals)
    (c2 : CLEquation S Z C R A2 it2.sig.p.e it2.sig.p.v it2.sig.p.m2 it2.vals)
    (hA : S ^ it1.rnd.r * A1 = S ^ it2.rnd.r * A2)
    (he : it2.rnd.eT = it1.rnd.eT + c * (it1.sig.p.e - it2.sig.p.e))
    (hv : it2.rnd.vT = it1.rnd.vT + c * ((it1.sig.p.v - it1.sig.p.e * it1.rnd.r) - (it2.sig.p.v - it2.sig.p.e * it2.rnd.r)))
    (hm2 : mask e cv it2 = mask e cv it1 + c * (it1.sig.p.m2 - it2.sig.p.m2))
    (hm : ∀ k ∈ unrevealedAttrs it1.schema it1.nonSchema it1.req,
      mTildeOf com2 it2.rnd.mT k = mTildeOf com1 it1.rnd.mT k + c * (attrValue it1.vals k - attrValue it2.vals k))
    (hnr : SamePart (cv.toF c) (part e it1) (part e it2)) :
    SameOut e cv mode ord ordF c com1 com2 it1 it2 := by
  rintro b1 b2 rfl rfl
  obtain ⟨ini1, ini2, cl, tl, sp, a1, a2, f1, f2⟩ := shifted_item e cv mode ord ordF c b1 b2 (primaryOnly e cv it1) (primaryOnly e cv it2)
    (Issued.of h1 rfl rfl rfl rfl rfl rfl) (Issued.of h2 rfl rfl rfl rfl rfl rfl) ⟨np, .inl rfl⟩ ⟨by rw [← np]; exact congrArg _ same.req.symm, .inl rfl⟩
    ⟨same.pk, same.schema, same.nonSchema, same.req, same.shown⟩ hA1 hA2 c1 c2 hA ⟨he, hv, hm2, hm⟩
  obtain ⟨q1, n1⟩ := add_part e cv mode ord b1 it1 _ rfl ini1 cl tl a1
  obtain ⟨q2, n2⟩ := add_part e cv mode ord b2 it2 _ rfl ini2 cl tl a2
  have key : ∃ p, finalizeNonRevocOpt cv c (part e it1) = .ok p ∧ finalizeNonRevocOpt cv c (part e it2) = .ok p ∧
      (part e it2).map (fun i => cListBytes cv i.cList) = (part e it1).map (fun i => cListBytes cv i.cList) ∧
      (part e it2).map (fun i => tauListBytes cv i.tauList) = (part e it1).map (fun i => tauListBytes cv i.tauList) := by
    generalize part e it1 = x1 at hnr
    generalize part e it2 = x2 at hnr
    cases hnr with
    | none => exact ⟨none, rfl, rfl, rfl, rfl⟩
    | some i1 i2 p hc ht _ g1 g2 =>
      refine ⟨some p, ?_, ?_, ?_, ?_⟩
      · simp only [finalizeNonRevocOpt]; rw [g1]; rfl
      · simp only [finalizeNonRevocOpt]; rw [g2]; rfl
      · rw [Option.map_some, Option.map_some, hc]
      · rw [Option.map_some, Option.map_some, ht]
  obtain ⟨p, p1, p2, hc, ht⟩ := key
  rw [hc, ht] at q2
  exact ⟨_, _, _, _, _, q1, q2, finish_part cv ordF c ini1 n1 sp f1 _ p p1, finish_part cv ordF c ini2 n2 sp f2 _ p p2⟩

/-! ## The presentation -/

theorem sameOut_items (e : G1 →ₗ[F] G2 →ₗ[F] GT) (cv : Conv F G1 G2 GT) (mode : Overflow) (ord ordF : SetOrder) (c : Int) (com1 com2 : Map Int)
    (l1 l2 : List (Item F G1 G2 GT)) (h : List.Forall₂ (SameOut e cv mode ord ordF c com1 com2) l1 l2) :
    ∀ (b1 b2 : Builder F G1 G2 GT), b1.common = com1 → b2.common = com2 → ∃ inis1 inis2 cl tl sps,
      l1.foldlM (fun b it => b.addSubProofRequest e cv mode ord it.req it.schema it.nonSchema it.sig it.vals it.pk it.reg it.witness it.x it.rnd it.nrnd) b1 =
        .ok ⟨com1, b1.inits ++ inis1, b1.cList ++ cl, b1.tauList ++ tl⟩ ∧
      l2.foldlM (fun b it => b.addSubProofRequest e cv mode ord it.req it.schema it.nonSchema it.sig it.vals it.pk it.reg it.witness it.x it.rnd it.nrnd) b2 =
        .ok ⟨com2, b2.inits ++ inis2, b2.cList ++ cl, b2.tauList ++ tl⟩ ∧
      inis1.mapM (finalizeSubProof cv ordF c) = .ok sps ∧ inis2.mapM (finalizeSubProof cv ordF c) = .ok sps := by
  induction h with
  | nil =>
    rintro ⟨c1, i1, l1, t1⟩ ⟨c2, i2, l2, t2⟩ rfl rfl
    exact ⟨[], [], [], [], [], by simp [Res.pure_eq], by simp [Res.pure_eq], rfl, rfl⟩
  | @cons it1 it2 l1 l2 hm _ ih =>
    rintro b1 b2 rfl rfl
    obtain ⟨ini1, ini2, cl, tl, sp, x1, x2, f1, f2⟩ := hm b1 b2 rfl rfl
    obtain ⟨inis1, inis2, cl', tl', sps, y1, y2, g1, g2⟩ := ih ⟨b1.common, b1.inits ++ [ini1], b1.cList ++ cl, b1.tauList ++ tl⟩
      ⟨b2.common, b2.inits ++ [ini2], b2.cList ++ cl, b2.tauList ++ tl⟩ rfl rfl
    refine ⟨ini1 :: inis1, ini2 :: inis2, cl ++ cl', tl ++ tl', sp :: sps, ?_, ?_, ?_, ?_⟩
    · rw [List.foldlM_cons, x1, Res.ok_bind, y1]
      simp only [List.append_assoc, List.singleton_append]
    · rw [List.foldlM_cons, x2, Res.ok_bind, y2]
      simp only [List.append_assoc, List.singleton_append]
    · rw [List.mapM_cons, f1, Res.ok_bind, g1]; rfl
    · rw [List.mapM_cons, f2, Res.ok_bind, g2]; rfl

theorem sameOut_present (e : G1 →ₗ[F] G2 →ₗ[F] GT) (cv : Conv F G1 G2 GT) (mode : Overflow) (sha : Bytes → Bytes) (ord ordF : SetOrder)
    (names : List String) (x1 x2 : String → Int) (l1 l2 : List (Item F G1 G2 GT)) (nonce : Int) (π : Proof F G1 G2)
    (hp : present e cv mode sha ord ordF (names.map fun a => (a, x1 a)) l1 nonce = .ok π)
    (h : ∀ com1 com2 : Map Int, (∀ k, com1.lookup k = if k ∈ names then some (x1 k) else none) → (∀ k, com2.lookup k = if k ∈ names then some (x2 k) else none) →
      List.Forall₂ (SameOut e cv mode ord ordF π.cHash com1 com2) l1 l2) :
    present e cv mode sha ord ordF (names.map fun a => (a, x2 a)) l2 nonce = .ok π := by
  obtain ⟨i1, k1, t1, -⟩ := builder_commons (names.map fun a => (a, x1 a)) (Builder.new : Builder F G1 G2 GT)
  obtain ⟨i2, k2, t2, -⟩ := builder_commons (names.map fun a => (a, x2 a)) (Builder.new : Builder F G1 G2 GT)
  have m := h _ _ (fun k => common_lookup names x1 k (Builder.new : Builder F G1 G2 GT)) (fun k => common_lookup names x2 k (Builder.new : Builder F G1 G2 GT))
  unfold present at hp ⊢
  simp only [] at hp ⊢
  generalize hb1 : (names.map fun a => (a, x1 a)).foldl (fun b c => b.addCommonAttribute c.1 c.2) (Builder.new : Builder F G1 G2 GT) = b1 at *
  generalize hb2 : (names.map fun a => (a, x2 a)).foldl (fun b c => b.addCommonAttribute c.1 c.2) (Builder.new : Builder F G1 G2 GT) = b2 at *
  obtain ⟨inis1, inis2, cl, tl, sps, y1, y2, g1, g2⟩ := sameOut_items e cv mode ord ordF π.cHash b1.common b2.common l1 l2 m b1 b2 rfl rfl
  rw [y1, Res.ok_bind] at hp
  rw [y2, Res.ok_bind]
  unfold Builder.finalize at hp ⊢
  simp only [] at hp ⊢
  rw [i1, k1, t1] at hp
  rw [i2, k2, t2]
  simp only [Builder.new, List.nil_append] at hp ⊢
  obtain ⟨sps', hs, hp⟩ := Res.bind_eq_ok.1 hp
  simp only [Res.pure_eq, Res.ok.injEq] at hp
  have hc : π.cHash = getHashAsInt sha (tl ++ cl ++ [toBytes nonce]) := by rw [← hp]
  rw [← hc] at hs ⊢
  rw [g1] at hs
  rw [g2, Res.ok_bind, Res.pure_eq, ← hp, Res.ok.inj hs, hp]

/-- Two credentials that are shown in the same way: both without predicates, and both without non-revocation or both with (same registry, same context). -/
def SameKind (e : G1 →ₗ[F] G2 →ₗ[F] GT) (it1 it2 : Item F G1 G2 GT) : Prop :=
  (it1.Plain ∧ it2.Plain) ∨ (it1.req.predicates = [] ∧ ∃ rk z acc rc1 rc2 w1 w2, SameRevoc e it1 it2 rk z acc rc1 rc2 w1 w2)

theorem SameKind.symm {e : G1 →ₗ[F] G2 →ₗ[F] GT} {it1 it2 : Item F G1 G2 GT} (h : SameKind e it1 it2) (hs : SameShown it1 it2) : SameKind e it2 it1 := by
  rcases h with h | ⟨np, rk, z, acc, rc1, rc2, w1, w2, h⟩
  · exact .inl h.symm
  · exact .inr ⟨by rw [← hs.req]; exact np, rk, z, acc, rc2, rc1, w2, w1, by rw [← hs.pk]; exact h.key, h.reg2, h.reg1, h.cred2, h.cred1, h.wit2, h.wit1, h.valid2, h.valid1,
      h.context.symm, h.contextP.symm, h.gen1, h.gen2⟩

theorem SameKind.noPredicates {e : G1 →ₗ[F] G2 →ₗ[F] GT} {it1 it2 : Item F G1 G2 GT} (h : SameKind e it1 it2) : it1.req.predicates = [] := by
  rcases h with h | h
  · exact h.1.1
  · exact h.1

theorem part_plain (e : G1 →ₗ[F] G2 →ₗ[F] GT) (it : Item F G1 G2 GT) (h : it.reg = none ∨ it.witness = none) (x : NonRevRand F) :
    initNonRevoc e it.sig it.reg it.pk.rKey it.witness x = none := by
  unfold initNonRevoc
  rcases h with h | h
  · rw [h]; cases it.sig.r <;> rfl
  · rw [h]; cases it.sig.r <;> cases it.reg <;> cases it.pk.rKey <;> rfl

/-- the shift of the random values of the non-revocation part -/
theorem kind_shift {e : G1 →ₗ[F] G2 →ₗ[F] GT} {it1 it2 : Item F G1 G2 GT} (h : SameKind e it1 it2) (hs : SameShown it1 it2) (cv : Conv F G1 G2 GT) :
    ∃ s : F → NonRevRand F → NonRevRand F, (∀ ch, Function.Injective (s ch)) ∧ ∀ (c : Int) (x : NonRevRand F) (r1 r2 : EqRand),
      r2.m2T = r1.m2T + c * (it1.sig.p.m2 - it2.sig.p.m2) →
      SamePart (cv.toF c) (part e { it1 with rnd := r1, x := x }) (part e { it2 with rnd := r2, x := s (cv.toF c) x }) ∧
      mask e cv { it2 with rnd := r2, x := s (cv.toF c) x } = mask e cv { it1 with rnd := r1, x := x } + c * (it1.sig.p.m2 - it2.sig.p.m2) := by
  rcases h with ⟨p1, p2⟩ | ⟨np, rk, z, acc, rc1, rc2, w1, w2, h⟩
  · refine ⟨fun _ x => x, fun _ => Function.injective_id, fun c x r1 r2 hr => ?_⟩
    have q1 : part e { it1 with rnd := r1, x := x } = none := part_plain e it1 p1.2 x
    have q2 : part e { it2 with rnd := r2, x := x } = none := part_plain e it2 p2.2 x
    unfold mask
    rw [q1, q2]
    exact ⟨.none, hr⟩
  · obtain ⟨d, hd⟩ := diffs h
    refine ⟨fun ch => shiftRand d rc1 rc2 ch, fun ch x y hxy => shiftRand_inj d rc1 rc2 ch x y hxy, fun c x r1 r2 hr => ?_⟩
    have q1 : part e { it1 with rnd := r1, x := x } = some (Rev.initNonRevocProof e rc1 acc rk w1 x.rho x.r x.r' x.r'' x.r''' x.o x.o' x.tau) := by
      show initNonRevoc e it1.sig it1.reg it1.pk.rKey it1.witness x = _
      unfold initNonRevoc
      rw [h.cred1, h.reg1, h.key, h.wit1]
    have q2 : ∀ y : NonRevRand F, part e { it2 with rnd := r2, x := y } = some (Rev.initNonRevocProof e rc2 acc rk w2 y.rho y.r y.r' y.r'' y.r''' y.o y.o' y.tau) := by
      intro y
      show initNonRevoc e it2.sig it2.reg it2.pk.rKey it2.witness y = _
      unfold initNonRevoc
      rw [h.cred2, h.reg2, ← hs.pk, h.key, h.wit2]
    obtain ⟨hc, ht, hm, p, f1, f2⟩ := same_nonrevoc h d hd (cv.toF c) x
    unfold mask
    rw [q1, q2]
    refine ⟨.some _ _ p hc ht hm f1 f2, ?_⟩
    rw [Option.map_some, Option.map_some, Option.getD_some, Option.getD_some, hm, h.contextP, sub_self, mul_zero, add_zero]

/-- the random values of a presentation of `k` credentials: the numbers of `Slot` and, for every credential, the field elements of the non-revocation part -/
abbrev Rnd (F : Type) (K : Finset String) (k : Nat) : Type := Draws (slotSize (K := K) (k := k)) × (Fin k → NonRevRand F)

/-- a presentation with the random values `ω` -/
def present' (e : G1 →ₗ[F] G2 →ₗ[F] GT) (cv : Conv F G1 G2 GT) (mode : Overflow) (sha : Bytes → Bytes) (ord ordF : SetOrder) (names : List String) {K : Finset String}
    {k : Nat} (its : Fin k → Item F G1 G2 GT) (nonce : Int) (ω : Rnd F K k) : Res String (Proof F G1 G2) :=
  present e cv mode sha ord ordF (names.map fun a => (a, commonRand ω.1 a)) (List.ofFn fun i => { its i with rnd := eqRand ω.1 i, x := ω.2 i }) nonce

/-- Two holders with `k` credentials each, shown for the same requests: what the verifier is told (issuers, requests, revealed values, registries, and for credentials shown with
non-revocation the context) is the same; each holder has one value for every common attribute. -/
structure SameView (e : G1 →ₗ[F] G2 →ₗ[F] GT) (K : Finset String) (names : List String) {k : Nat} (its1 its2 : Fin k → Item F G1 G2 GT) (val1 val2 : String → Int) : Prop where
  issued : ∀ i, ∃ (n : Nat) (S Z C : (ZMod n)ˣ) (R : String → (ZMod n)ˣ), Issued S Z C R (its1 i) ∧ Issued S Z C R (its2 i)
  kind : ∀ i, SameKind e (its1 i) (its2 i)
  shown : ∀ i, SameShown (its1 i) (its2 i)
  known : ∀ a ∈ names, a ∈ K
  attrs : ∀ i, (its1 i).nonSchema ∪ (its1 i).schema ⊆ K
  common : ∀ i, ∀ a ∈ names, attrValue (its1 i).vals a = val1 a ∧ attrValue (its2 i).vals a = val2 a
  small : ∀ a ∈ names, (0 ≤ val1 a ∧ val1 a < 2 ^ 256) ∧ 0 ≤ val2 a ∧ val2 a < 2 ^ 256

theorem SameShown.symm {it1 it2 : Item F G1 G2 GT} (h : SameShown it1 it2) : SameShown it2 it1 :=
  ⟨h.pk.symm, h.schema.symm, h.nonSchema.symm, h.req.symm, fun a ha => (h.shown a (by rw [h.req]; exact ha)).symm⟩

theorem SameView.symm {e : G1 →ₗ[F] G2 →ₗ[F] GT} {K : Finset String} {names : List String} {k : Nat} {its1 its2 : Fin k → Item F G1 G2 GT} {val1 val2 : String → Int}
    (h : SameView e K names its1 its2 val1 val2) : SameView e K names its2 its1 val2 val1 where
  issued i := by obtain ⟨n, S, Z, C, R, h1, h2⟩ := h.issued i; exact ⟨n, S, Z, C, R, h2, h1⟩
  kind i := (h.kind i).symm (h.shown i)
  shown i := SameShown.symm (h.shown i)
  known := h.known
  attrs i := by rw [← (h.shown i).nonSchema, ← (h.shown i).schema]; exact h.attrs i
  common i a ha := (h.common i a ha).symm
  small a ha := (h.small a ha).symm

/-- **C197**: presenting succeeds for every choice of random values. -/
theorem present_ok (e : G1 →ₗ[F] G2 →ₗ[F] GT) (cv : Conv F G1 G2 GT) (mode : Overflow) (sha : Bytes → Bytes) (ord ordF : SetOrder) (names : List String) {K : Finset String}
    {k : Nat} (its : Fin k → Item F G1 G2 GT) (nonce : Int) (ω : Rnd F K k)
    (issued : ∀ i, ∃ (n : Nat) (S Z C : (ZMod n)ˣ) (R : String → (ZMod n)ˣ), Issued S Z C R (its i)) (np : ∀ i, (its i).req.predicates = []) :
    ∃ π, present' e cv mode sha ord ordF names its nonce ω = .ok π := by
  obtain ⟨i1, k1, t1, -⟩ := builder_commons (names.map fun a => (a, commonRand ω.1 a)) (Builder.new : Builder F G1 G2 GT)
  unfold present' present
  simp only []
  generalize hb1 : (names.map fun a => (a, commonRand ω.1 a)).foldl (fun b c => b.addCommonAttribute c.1 c.2) (Builder.new : Builder F G1 G2 GT) = b1 at *
  have key : ∀ c : Int, List.Forall₂ (SameOut e cv mode ord ordF c b1.common b1.common) (List.ofFn fun i => { its i with rnd := eqRand ω.1 i, x := ω.2 i })
      (List.ofFn fun i => { its i with rnd := eqRand ω.1 i, x := ω.2 i }) := by
    intro c
    refine forall₂_ofFn fun i => ?_
    obtain ⟨n, S, Z, C, R, h⟩ := issued i
    obtain ⟨a, ha, hc⟩ := h.signed
    have h' : Issued S Z C R { its i with rnd := eqRand ω.1 i, x := ω.2 i } := Issued.of h rfl rfl rfl rfl rfl rfl
    refine sameOut_item e cv mode ord ordF c _ _ _ _ h' h' (np i) ⟨rfl, rfl, rfl, rfl, fun _ _ => rfl⟩ ha ha hc hc rfl (by ring) (by ring) (by ring) (fun k _ => by ring) ?_
    cases part e { its i with rnd := eqRand ω.1 i, x := ω.2 i } with
    | none => exact .none
    | some j => exact .some j j _ rfl rfl rfl rfl rfl
  obtain ⟨inis, -, cl, tl, -, y, -, -, -⟩ := sameOut_items e cv mode ord ordF 0 b1.common b1.common _ _ (key 0) b1 b1 rfl rfl
  obtain ⟨inis', -, cl', tl', sps, y', -, g, -⟩ := sameOut_items e cv mode ord ordF (getHashAsInt sha ((b1.tauList ++ tl) ++ (b1.cList ++ cl) ++ [toBytes nonce])) b1.common b1.common _ _
    (key _) b1 b1 rfl rfl
  have hi : b1.inits = [] := i1
  have : inis = inis' := by
    have := y.symm.trans y'
    simp only [Res.ok.injEq, Builder.mk.injEq, hi, List.nil_append] at this
    exact this.2.1
  subst this
  rw [y, Res.ok_bind]
  unfold Builder.finalize
  simp only [hi, List.nil_append]
  rw [g]
  exact ⟨_, rfl⟩

/-- one direction of `cl_hiding_nonrevoc` -/
theorem cl_hiding_nonrevoc_le [Fintype F] (e : G1 →ₗ[F] G2 →ₗ[F] GT) (cv : Conv F G1 G2 GT) (mode : Overflow) (sha : Bytes → Bytes) (hsha : ∀ m, (sha m).length = 32) (ord ordF : SetOrder)
    (names : List String) (K : Finset String) {k : Nat} (its1 its2 : Fin k → Item F G1 G2 GT) (val1 val2 : String → Int) (same : SameView e K names its1 its2 val1 val2)
    (nonce : Int) (P : Res String (Proof F G1 G2) → Prop) :
    chance (present' (K := K) e cv mode sha ord ordF names its1 nonce) P ≤
      chance (present' (K := K) e cv mode sha ord ordF names its2 nonce) P + (((k + 1) * K.card + 9 * k : Nat) : ℚ) / 2 ^ 79 := by
  choose n S Z C R hI1 hI2 using same.issued
  choose d hd A1 A2 hA1 hA2 hc1 hc2 hA using fun i => blind_shift (hI1 i) (hI2 i)
  choose sh shInj shOk using fun i => kind_shift (same.kind i) (same.shown i) cv
  set f : Rnd F K k → Res String (Proof F G1 G2) := present' e cv mode sha ord ordF names its1 nonce with hf
  set g : Rnd F K k → Res String (Proof F G1 G2) := present' e cv mode sha ord ordF names its2 nonce with hg
  have hch : ∀ ω, 0 ≤ challengeOf (f ω) ∧ challengeOf (f ω) < 2 ^ 256 := fun ω => present_challenge e cv mode sha ord ordF _ _ nonce hsha
  -- the shift
  let φ : Rnd F K k → Slot K k → Int := fun ω s => match s with
    | .inl a => num ω.1 (.inl a) + (if a.1 ∈ names then challengeOf (f ω) * (val1 a - val2 a) else 0)
    | .inr (i, .inl .blind) => num ω.1 (.inr (i, .inl .blind)) + d i
    | .inr (i, .inl .e) => num ω.1 (.inr (i, .inl .e)) + challengeOf (f ω) * ((its1 i).sig.p.e - (its2 i).sig.p.e)
    | .inr (i, .inl .v) => num ω.1 (.inr (i, .inl .v)) + challengeOf (f ω) * (((its1 i).sig.p.v - (its1 i).sig.p.e * num ω.1 (.inr (i, .inl .blind))) -
        ((its2 i).sig.p.v - (its2 i).sig.p.e * (num ω.1 (.inr (i, .inl .blind)) + d i)))
    | .inr (i, .inl .m2) => num ω.1 (.inr (i, .inl .m2)) + challengeOf (f ω) * ((its1 i).sig.p.m2 - (its2 i).sig.p.m2)
    | .inr (i, .inr a) => num ω.1 (.inr (i, .inr a)) + challengeOf (f ω) * (attrValue (its1 i).vals a - attrValue (its2 i).vals a)
  let ψ : Rnd F K k → Fin k → NonRevRand F := fun ω i => sh i (cv.toF (challengeOf (f ω))) (ω.2 i)
  have p512 : (2 : Int) ^ 256 * 2 ^ 256 = ((2 ^ 512 : Nat) : Int) := by rw [← pow_add, Nat.cast_pow]; rfl
  have h := chance_shift (slotSize (K := K) (k := k)) slotShift (by
      intro s
      rcases s with a | ⟨i, (_ | _ | _ | _) | a⟩ <;> exact pow_pos (by norm_num) _) f g φ ψ ?_ ?_ ?_ P
  · exact h.trans (add_le_add le_rfl (slot_sum K k))
  · -- the shift is bounded
    intro ω s
    have hc := hch ω
    rcases s with a | ⟨i, (_ | _ | _ | _) | a⟩
    · show |num ω.1 (.inl a) + (if a.1 ∈ names then challengeOf (f ω) * (val1 a - val2 a) else 0) - num ω.1 (.inl a)| ≤ ((2 ^ 512 : Nat) : Int)
      rw [add_sub_cancel_left]
      by_cases hn : a.1 ∈ names
      · rw [if_pos hn, ← p512]
        obtain ⟨h1, h2⟩ := same.small _ hn
        exact shift_bound ⟨hc.1, hc.2.le⟩ ⟨h1.1, h1.2.le⟩ ⟨h2.1, h2.2.le⟩
      · rw [if_neg hn, abs_zero]; exact Int.natCast_nonneg _
    · show |num ω.1 (.inr (i, .inl .blind)) + d i - num ω.1 (.inr (i, .inl .blind))| ≤ ((2 ^ 2048 : Nat) : Int)
      rw [add_sub_cancel_left, abs_of_nonneg (Int.natCast_nonneg _)]
      exact_mod_cast hd i
    · show |num ω.1 (.inr (i, .inl .e)) + challengeOf (f ω) * ((its1 i).sig.p.e - (its2 i).sig.p.e) - num ω.1 (.inr (i, .inl .e))| ≤ ((2 ^ 375 : Nat) : Int)
      have p375 : (2 : Int) ^ 256 * 2 ^ 119 = ((2 ^ 375 : Nat) : Int) := by rw [← pow_add, Nat.cast_pow]; rfl
      rw [add_sub_cancel_left, ← p375]
      have e1 := (hI1 i).exponent
      have e2 := (hI2 i).exponent
      have := shift_bound (x := (its1 i).sig.p.e - 2 ^ 596) (y := (its2 i).sig.p.e - 2 ^ 596) (X := 2 ^ 119) ⟨hc.1, hc.2.le⟩
        ⟨sub_nonneg.2 e1.1, sub_le_iff_le_add'.2 e1.2⟩ ⟨sub_nonneg.2 e2.1, sub_le_iff_le_add'.2 e2.2⟩
      rwa [sub_sub_sub_cancel_right] at this
    · show |num ω.1 (.inr (i, .inl .v)) + challengeOf (f ω) * (((its1 i).sig.p.v - (its1 i).sig.p.e * num ω.1 (.inr (i, .inl .blind))) -
        ((its2 i).sig.p.v - (its2 i).sig.p.e * (num ω.1 (.inr (i, .inl .blind)) + d i))) - num ω.1 (.inr (i, .inl .v))| ≤ ((3 * 2 ^ 2981 : Nat) : Int)
      have p2981 : (2 : Int) ^ 256 * (3 * 2 ^ 2725) = ((3 * 2 ^ 2981 : Nat) : Int) := by
        rw [mul_left_comm, ← pow_add, Nat.cast_mul, Nat.cast_pow]; rfl
      rw [add_sub_cancel_left, ← p2981]
      have hr0 : 0 ≤ num ω.1 (.inr (i, .inl .blind)) := Int.natCast_nonneg _
      have hr1 : num ω.1 (.inr (i, .inl .blind)) ≤ 2 ^ 2128 := num_le ω.1 (.inr (i, .inl .blind)) 2128 rfl
      rw [show (2 : Int) ^ 2725 = 2 ^ 597 * 2 ^ 2128 from pow_add 2 597 2128]
      have hz : (0 : Int) ≤ 2 ^ 596 := (pow_pos (by norm_num) _).le
      have e1 := (hI1 i).exponent
      have e2 := (hI2 i).exponent
      have v1 := (hI1 i).blinding
      have v2 := (hI2 i).blinding
      rw [show (2 : Int) ^ 2725 = 2 ^ 597 * 2 ^ 2128 from pow_add 2 597 2128] at v1 v2
      exact v_shift_bound ⟨hc.1, hc.2.le⟩ ⟨hz.trans e1.1, e1.2.trans exponent_le⟩ ⟨hz.trans e2.1, e2.2.trans exponent_le⟩ ⟨hr0, hr1⟩
        ⟨Int.natCast_nonneg _, (show (d i : Int) ≤ 2 ^ 2048 by exact_mod_cast hd i)⟩ (pow_le_pow_right₀ (by norm_num) (by norm_num)) ⟨v1.1, v1.2.le⟩ ⟨v2.1, v2.2.le⟩
    · show |num ω.1 (.inr (i, .inl .m2)) + challengeOf (f ω) * ((its1 i).sig.p.m2 - (its2 i).sig.p.m2) - num ω.1 (.inr (i, .inl .m2))| ≤ ((2 ^ 512 : Nat) : Int)
      rw [add_sub_cancel_left, ← p512]
      exact shift_bound ⟨hc.1, hc.2.le⟩ ⟨(hI1 i).context.1, (hI1 i).context.2.le⟩ ⟨(hI2 i).context.1, (hI2 i).context.2.le⟩
    · show |num ω.1 (.inr (i, .inr a)) + challengeOf (f ω) * (attrValue (its1 i).vals a - attrValue (its2 i).vals a) - num ω.1 (.inr (i, .inr a))| ≤ ((2 ^ 512 : Nat) : Int)
      rw [add_sub_cancel_left, ← p512]
      exact shift_bound ⟨hc.1, hc.2.le⟩ ⟨((hI1 i).values a).1, ((hI1 i).values a).2.le⟩ ⟨((hI2 i).values a).1, ((hI2 i).values a).2.le⟩
  · -- the same proof
    intro ω ω' hω hψ
    have hω : ∀ s, num ω'.1 s = φ ω s := hω
    obtain ⟨π, hπ⟩ := present_ok e cv mode sha ord ordF names its1 nonce ω (fun i => ⟨_, _, _, _, _, hI1 i⟩) (fun i => (same.kind i).noPredicates)
    have hfω : f ω = .ok π := hπ
    have hc : challengeOf (f ω) = π.cHash := by rw [hfω]; rfl
    rw [hfω]
    refine sameOut_present e cv mode sha ord ordF names (commonRand ω.1) (commonRand ω'.1) _ _ nonce π hπ fun com1 com2 l1 l2 => ?_
    refine forall₂_ofFn fun i => ?_
    have h1' : Issued (S i) (Z i) (C i) (R i) { its1 i with rnd := eqRand ω.1 i, x := ω.2 i } := Issued.of (hI1 i) rfl rfl rfl rfl rfl rfl
    have h2' : Issued (S i) (Z i) (C i) (R i) { its2 i with rnd := eqRand ω'.1 i, x := ω'.2 i } := Issued.of (hI2 i) rfl rfl rfl rfl rfl rfl
    have ss := same.shown i
    have er : (eqRand ω'.1 i).r = (eqRand ω.1 i).r + d i := hω (.inr (i, .inl .blind))
    have ex : ω'.2 i = sh i (cv.toF π.cHash) (ω.2 i) := by rw [hψ, ← hc]
    have em2 : (eqRand ω'.1 i).m2T = (eqRand ω.1 i).m2T + π.cHash * ((its1 i).sig.p.m2 - (its2 i).sig.p.m2) := by
      rw [← hc]
      exact hω (.inr (i, .inl .m2))
    obtain ⟨hpart, hmask⟩ := shOk i π.cHash (ω.2 i) (eqRand ω.1 i) (eqRand ω'.1 i) em2
    rw [← ex] at hpart hmask
    refine sameOut_item e cv mode ord ordF π.cHash com1 com2 _ _ h1' h2' (same.kind i).noPredicates ⟨ss.pk, ss.schema, ss.nonSchema, ss.req, ss.shown⟩
      (hA1 i) (hA2 i) (hc1 i) (hc2 i) ?_ ?_ ?_ hmask ?_ hpart
    · show S i ^ (eqRand ω.1 i).r * A1 i = S i ^ (eqRand ω'.1 i).r * A2 i
      rw [er]
      exact hA i _
    · show (eqRand ω'.1 i).eT = (eqRand ω.1 i).eT + π.cHash * ((its1 i).sig.p.e - (its2 i).sig.p.e)
      rw [← hc]
      exact hω (.inr (i, .inl .e))
    · show (eqRand ω'.1 i).vT = (eqRand ω.1 i).vT + π.cHash * (((its1 i).sig.p.v - (its1 i).sig.p.e * (eqRand ω.1 i).r) - ((its2 i).sig.p.v - (its2 i).sig.p.e * (eqRand ω'.1 i).r))
      rw [← hc, er]
      exact hω (.inr (i, .inl .v))
    · intro a ha
      show mTildeOf com2 (eqRand ω'.1 i).mT a = mTildeOf com1 (eqRand ω.1 i).mT a + π.cHash * (attrValue (its1 i).vals a - attrValue (its2 i).vals a)
      have haK : a ∈ K := same.attrs i (Finset.mem_sdiff.1 ha).1
      unfold mTildeOf
      rw [l1, l2, ← hc]
      by_cases hn : a ∈ names
      · rw [if_pos hn, if_pos hn, Option.getD_some, Option.getD_some, (same.common i a hn).1, (same.common i a hn).2]
        unfold commonRand
        rw [dif_pos haK, dif_pos haK, hω (.inl ⟨a, haK⟩)]
        show num ω.1 (.inl ⟨a, haK⟩) + (if a ∈ names then challengeOf (f ω) * (val1 a - val2 a) else 0) = _
        rw [if_pos hn]
      · rw [if_neg hn, if_neg hn, Option.getD_none, Option.getD_none]
        unfold eqRand
        simp only [dif_pos haK]
        exact hω (.inr (i, .inr ⟨a, haK⟩))
  · -- the shift can be undone
    intro ω1 ω2 hf12 hφ hψ
    have hs : ∀ s, φ ω1 s = φ ω2 s := fun s => congrFun hφ s
    have hn : ∀ s, num ω1.1 s = num ω2.1 s := by
      have hb : ∀ i, num ω1.1 (.inr (i, .inl .blind)) = num ω2.1 (.inr (i, .inl .blind)) := fun i => by
        have := hs (.inr (i, .inl .blind))
        exact add_right_cancel this
      intro s
      have h0 := hs s
      rcases s with a | ⟨i, (_ | _ | _ | _) | a⟩
      · simp only [φ, hf12] at h0; exact add_right_cancel h0
      · exact hb i
      · simp only [φ, hf12] at h0; exact add_right_cancel h0
      · simp only [φ, hf12, hb i] at h0; exact add_right_cancel h0
      · simp only [φ, hf12] at h0; exact add_right_cancel h0
      · simp only [φ, hf12] at h0; exact add_right_cancel h0
    refine Prod.ext (funext fun s => ?_) (funext fun i => ?_)
    · have := hn s
      unfold num at this
      exact Fin.ext (by exact_mod_cast this)
    · have := congrFun hψ i
      simp only [ψ, hf12] at this
      exact shInj i _ this

/-- **C197.** Two holders whose credentials the verifier cannot tell apart by what he asked for (same issuers, requests without predicates, same revealed values, same registries) and
that have the same context where they are shown with a proof of non-revocation, give presentations that are statistically indistinguishable: the probabilities of any property `P` of
the presentation, however hard to decide, differ by at most `((k + 1) |K| + 9 k) / 2^79` for `k` credentials with attributes `K`, whatever hash function is used, with the challenge of
the presentation itself.  The holders' revocation credentials, indices, witnesses, primary signatures, link secrets and hidden attributes may all differ. -/
theorem cl_hiding_nonrevoc [Fintype F] (e : G1 →ₗ[F] G2 →ₗ[F] GT) (cv : Conv F G1 G2 GT) (mode : Overflow) (sha : Bytes → Bytes) (hsha : ∀ m, (sha m).length = 32) (ord ordF : SetOrder)
    (names : List String) (K : Finset String) {k : Nat} (its1 its2 : Fin k → Item F G1 G2 GT) (val1 val2 : String → Int) (same : SameView e K names its1 its2 val1 val2)
    (nonce : Int) (P : Res String (Proof F G1 G2) → Prop) :
    |chance (present' (K := K) e cv mode sha ord ordF names its1 nonce) P - chance (present' (K := K) e cv mode sha ord ordF names its2 nonce) P| ≤
      (((k + 1) * K.card + 9 * k : Nat) : ℚ) / 2 ^ 79 := by
  have h1 := cl_hiding_nonrevoc_le e cv mode sha hsha ord ordF names K its1 its2 val1 val2 same nonce P
  have h2 := cl_hiding_nonrevoc_le e cv mode sha hsha ord ordF names K its2 its1 val2 val1 same.symm nonce P
  rw [abs_le]
  exact ⟨by linarith, by linarith⟩

end

/-! ## Many presentations -/

section Mean
variable {Ω X : Type} [Fintype Ω] [Nonempty Ω]

/-- the mean of a number that depends on a uniform draw -/
noncomputable def average (f : Ω → ℚ) : ℚ := (∑ ω, f ω) / (Fintype.card Ω : ℚ)

open Classical in
theorem sum_outcomes (f : Ω → X) (h : X → ℚ) (T : Finset X) (hT : ∀ ω, f ω ∈ T) :
    ∑ ω, h (f ω) = ∑ x ∈ T, ((Finset.univ.filter fun ω => f ω = x).card : ℚ) * h x := by
  rw [← Finset.sum_fiberwise_of_maps_to (s := Finset.univ) (t := T) (g := f) (fun ω _ => hT ω)]
  refine Finset.sum_congr rfl fun x _ => ?_
  rw [Finset.sum_congr rfl (g := fun _ => h x) (fun ω hω => by rw [(Finset.mem_filter.1 hω).2]), Finset.sum_const, nsmul_eq_mul]

open Classical in
theorem card_outcomes (f : Ω → X) (P : X → Prop) (T : Finset X) (hT : ∀ ω, f ω ∈ T) :
    ((Finset.univ.filter fun ω => P (f ω)).card : ℚ) = ∑ x ∈ T.filter P, ((Finset.univ.filter fun ω => f ω = x).card : ℚ) := by
  have := sum_outcomes f (fun x => if P x then 1 else 0) T hT
  simp only [mul_ite, mul_one, mul_zero] at this
  rw [Finset.sum_filter, ← this, Finset.sum_boole]

/-- a number between 0 and 1 that is computed from the outcome has nearly the same mean when no event has very different probabilities -/
theorem average_close (f g : Ω → X) (δ ε : ℚ) (hfg : ∀ P, chance f P ≤ chance g P + δ) (h1 h2 : X → ℚ)
    (h0 : ∀ x, 0 ≤ h1 x ∧ h1 x ≤ 1) (h12 : ∀ x, h1 x ≤ h2 x + ε) : average (fun ω => h1 (f ω)) ≤ average (fun ω => h2 (g ω)) + (δ + ε) := by
  classical
  have hc : (0 : ℚ) < (Fintype.card Ω : ℚ) := by exact_mod_cast Fintype.card_pos
  let T : Finset X := Finset.univ.image f ∪ Finset.univ.image g
  have tf : ∀ ω, f ω ∈ T := fun ω => Finset.mem_union_left _ (Finset.mem_image_of_mem _ (Finset.mem_univ _))
  have tg : ∀ ω, g ω ∈ T := fun ω => Finset.mem_union_right _ (Finset.mem_image_of_mem _ (Finset.mem_univ _))
  let a : X → ℚ := fun x => ((Finset.univ.filter fun ω => f ω = x).card : ℚ)
  let b : X → ℚ := fun x => ((Finset.univ.filter fun ω => g ω = x).card : ℚ)
  let P : X → Prop := fun x => b x ≤ a x
  have hP := hfg P
  unfold chance at hP
  rw [card_outcomes f P T tf, card_outcomes g P T tg, div_add' _ _ _ hc.ne', div_le_div_iff_of_pos_right hc] at hP
  have m1 : ∑ ω, h1 (f ω) - ∑ ω, h1 (g ω) ≤ δ * (Fintype.card Ω : ℚ) := by
    rw [sum_outcomes f h1 T tf, sum_outcomes g h1 T tg, ← Finset.sum_sub_distrib]
    have : ∀ x ∈ T, a x * h1 x - b x * h1 x ≤ if P x then a x - b x else 0 := by
      intro x _
      by_cases hx : P x
      · rw [if_pos hx, ← sub_mul]
        exact mul_le_of_le_one_right (sub_nonneg.2 hx) (h0 x).2
      · rw [if_neg hx, ← sub_mul]
        exact mul_nonpos_of_nonpos_of_nonneg (sub_nonpos.2 (not_le.1 hx).le) (h0 x).1
    refine (Finset.sum_le_sum this).trans ?_
    rw [← Finset.sum_filter, Finset.sum_sub_distrib]
    refine sub_le_iff_le_add'.2 ?_
    convert hP
  have m2 : ∑ ω, h1 (g ω) ≤ ∑ ω, h2 (g ω) + ε * (Fintype.card Ω : ℚ) := by
    refine (Finset.sum_le_sum fun ω _ => h12 (g ω)).trans (le_of_eq ?_)
    rw [Finset.sum_add_distrib, Finset.sum_const, nsmul_eq_mul, Finset.card_univ, mul_comm ε]
  unfold average
  rw [div_add' _ _ _ hc.ne', div_le_div_iff_of_pos_right hc, add_mul]
  linarith

theorem average_unit (f : Ω → ℚ) (h : ∀ ω, 0 ≤ f ω ∧ f ω ≤ 1) : 0 ≤ average f ∧ average f ≤ 1 := by
  unfold average
  refine ⟨div_nonneg (Finset.sum_nonneg fun ω _ => (h ω).1) (Nat.cast_nonneg _), div_le_one_of_le₀ ?_ (Nat.cast_nonneg _)⟩
  refine (Finset.sum_le_sum fun ω _ => (h ω).2).trans (le_of_eq ?_)
  rw [Finset.sum_const, nsmul_eq_mul, mul_one, Finset.card_univ]

end Mean

section Sessions
variable {F G1 G2 GT : Type} [Field F] [Fintype F] [AddCommGroup G1] [Module F G1] [AddCommGroup G2] [Module F G2]
  [AddCommGroup GT] [Module F GT]

/-- the observer (`Observer` of C187) asks for at most `n` presentations, of a size bounded by `M`; in the two worlds the credentials look the same by what is asked for, up to the
context of those shown with non-revocation -/
def Fair (e : G1 →ₗ[F] G2 →ₗ[F] GT) (M : Nat) : Nat → Observer F G1 G2 GT → Prop
  | _, .answer _ => True
  | 0, .ask _ _ _ _ _ _ => False
  | n + 1, .ask K names k its _ next => (∃ val1 val2, SameView e K names (its true) (its false) val1 val2) ∧ (k + 1) * K.card + 9 * k ≤ M ∧ ∀ x, Fair e M n (next x)

/-- the probability of the answer yes in world `w`; the holders draw fresh random values for every presentation -/
noncomputable def yes (e : G1 →ₗ[F] G2 →ₗ[F] GT) (cv : Conv F G1 G2 GT) (mode : Overflow) (sha : Bytes → Bytes) (ord ordF : SetOrder) (w : Bool) : Observer F G1 G2 GT → ℚ
  | .answer y => if y then 1 else 0
  | .ask K names k its nonce next => average (fun ω : Rnd F K k => yes e cv mode sha ord ordF w (next (present' e cv mode sha ord ordF names (its w) nonce ω)))

theorem slot_pos {K : Finset String} {k : Nat} (s : Slot K k) : 0 < slotSize s := by
  rcases s with a | ⟨i, (_ | _ | _ | _) | a⟩ <;> exact pow_pos (by norm_num) _

instance {K : Finset String} {k : Nat} : Nonempty (Rnd F K k) :=
  ⟨fun s => ⟨0, slot_pos s⟩, fun _ => Classical.choice inferInstance⟩

theorem yes_unit (e : G1 →ₗ[F] G2 →ₗ[F] GT) (cv : Conv F G1 G2 GT) (mode : Overflow) (sha : Bytes → Bytes) (ord ordF : SetOrder) (w : Bool) (o : Observer F G1 G2 GT) :
    0 ≤ yes e cv mode sha ord ordF w o ∧ yes e cv mode sha ord ordF w o ≤ 1 := by
  induction o with
  | answer y => unfold yes; cases y <;> norm_num
  | ask K names k its nonce next ih => unfold yes; exact average_unit _ fun ω => ih _

/-- **C197**, many presentations: an observer who asks for `n` presentations, adaptively, with or without non-revocation, can hardly tell whose credentials are shown, if those that
are shown with non-revocation have the same context in both worlds. -/
theorem cl_unlinkable_nonrevoc (e : G1 →ₗ[F] G2 →ₗ[F] GT) (cv : Conv F G1 G2 GT) (mode : Overflow) (sha : Bytes → Bytes) (hsha : ∀ m, (sha m).length = 32) (ord ordF : SetOrder)
    (M n : Nat) (o : Observer F G1 G2 GT) (fair : Fair e M n o) :
    |yes e cv mode sha ord ordF true o - yes e cv mode sha ord ordF false o| ≤ (n * M : ℚ) / 2 ^ 79 := by
  have key : ∀ (o : Observer F G1 G2 GT) (n : Nat), Fair e M n o → ∀ w, yes e cv mode sha ord ordF w o ≤ yes e cv mode sha ord ordF (!w) o + (n * M : ℚ) / 2 ^ 79 := by
    intro o
    induction o with
    | answer y =>
      intro n _ w
      unfold yes
      have : (0 : ℚ) ≤ (n * M : ℚ) / 2 ^ 79 := by positivity
      linarith
    | ask K names k its nonce next ih =>
      intro n hf w
      cases n with
      | zero => exact absurd hf (by unfold Fair; exact id)
      | succ n =>
        unfold Fair at hf
        obtain ⟨⟨val1, val2, same⟩, hM, hn⟩ := hf
        unfold yes
        have hδ : ∀ P, chance (present' (K := K) e cv mode sha ord ordF names (its w) nonce) P ≤
            chance (present' (K := K) e cv mode sha ord ordF names (its !w) nonce) P + (M : ℚ) / 2 ^ 79 := by
          intro P
          have hb : (((k + 1) * K.card + 9 * k : Nat) : ℚ) / 2 ^ 79 ≤ (M : ℚ) / 2 ^ 79 := by
            gcongr
          cases w
          · exact (cl_hiding_nonrevoc_le e cv mode sha hsha ord ordF names K _ _ _ _ same.symm nonce P).trans (add_le_add le_rfl hb)
          · exact (cl_hiding_nonrevoc_le e cv mode sha hsha ord ordF names K _ _ _ _ same nonce P).trans (add_le_add le_rfl hb)
        refine (average_close _ _ _ ((n * M : ℚ) / 2 ^ 79) hδ _ _ (fun x => yes_unit e cv mode sha ord ordF w (next x)) (fun x => ih x n (hn x) w)).trans (le_of_eq ?_)
        push_cast; ring
  have h1 := key o n fair true
  have h2 := key o n fair false
  simp only [Bool.not_true, Bool.not_false] at h1 h2
  rw [abs_le]
  exact ⟨by linarith, by linarith⟩

end Sessions

/-! ## The hypotheses are met -/

namespace Met
open Toy77

/-- the curve groups are `ZMod 101`, the pairing is the product -/
def rpub : Rev.PubKey (ZMod 101) (ZMod 101) := ⟨1, 6, 2, 5, 7, 11, 3, 4, 9, 8, 10⟩

/-- two revocation credentials with the same context 3, for different indices -/
def rcOf (i : Nat) (g c vr : ZMod 101) : Rev.NonRevSig (ZMod 101) (ZMod 101) (ZMod 101) :=
  ⟨(5 + 3 * 7 + vr * 11 + g) * 4 / (10 + c * 4), c, vr, 6 / (8 + g), g * 9, g, g, i, 3⟩

def rc1 := rcOf 1 20 30 40
def rc2 := rcOf 2 21 33 44

theorem valid1 : Rev.Authentic Toy.toyE rpub 15 50 rc1.sigma rc1.c rc1.vr rc1.m2 rc1.gI rc1.sigmaI rc1.uI (20 * 50 - 15) := by
  constructor <;> simp only [Toy.toyE_apply, rpub, rc1, rcOf] <;> decide +kernel

theorem valid2 : Rev.Authentic Toy.toyE rpub 15 50 rc2.sigma rc2.c rc2.vr rc2.m2 rc2.gI rc2.sigmaI rc2.uI (21 * 50 - 15) := by
  constructor <;> simp only [Toy.toyE_apply, rpub, rc2, rcOf] <;> decide +kernel

/-- the second person's primary signature, with the context of the first -/
def sig3 : PrimarySig := ⟨3, 64, 2 ^ 596 + 25, 8⟩

theorem signed3 : CLEquation (u 4) (u 9) (u 16) R (u 4 ^ (3 : Int)) sig3.e sig3.v sig3.m2 vals2 := by
  unfold CLEquation attrProd signedAttrs
  have h1 : vals2.filter (fun e => e.2.isKnown || e.2.isHidden) = vals2 := by decide
  have h2 : (sig3.e % 30).toNat = 11 := by decide +kernel
  rw [h1, zpow30 _ sig3.e, h2]
  simp only [sig3, vals2, List.map_cons, List.map_nil, List.prod_cons, List.prod_nil, CredentialValue.value, mul_one, zpow30]
  ext
  decide +kernel

abbrev It := Item (ZMod 101) (ZMod 101) (ZMod 101) (ZMod 101)

def itA : It := { item1 (ZMod 101) (ZMod 101) (ZMod 101) (ZMod 101) with pk := ⟨pk, some rpub⟩, sig := ⟨sig1, some rc1⟩, reg := some 50, witness := some (20 * 50 - 15), revKeyPub := some 15 }
def itB : It := { item2 (ZMod 101) (ZMod 101) (ZMod 101) (ZMod 101) with pk := ⟨pk, some rpub⟩, sig := ⟨sig3, some rc2⟩, reg := some 50, witness := some (21 * 50 - 15), revKeyPub := some 15 }

theorem issuedA : Issued (u 4) (u 9) (u 16) R itA :=
  have h := toy_issued1 (F := ZMod 101) (G1 := ZMod 101) (G2 := ZMod 101) (GT := ZMod 101)
  ⟨h.key, h.size, h.signed, h.exponent, h.blinding, h.context, h.values, h.distinct, h.noCommitment, h.attrs, h.covered, h.revealed⟩

theorem issuedB : Issued (u 4) (u 9) (u 16) R itB :=
  have h := toy_issued2 (F := ZMod 101) (G1 := ZMod 101) (G2 := ZMod 101) (GT := ZMod 101)
  ⟨h.key, h.size, ⟨3, (⟨by decide, by decide +kernel⟩ : Rep (64 : Int) (u 4 ^ (3 : Int))), signed3⟩, h.exponent,
    by show (0 : Int) ≤ 8 ∧ (8 : Int) < 2 ^ 2725; decide +kernel, by show (0 : Int) ≤ 3 ∧ (3 : Int) < 2 ^ 256; decide +kernel, h.values, h.distinct, h.noCommitment, h.attrs,
    h.covered, h.revealed⟩

theorem sameRevoc : SameRevoc Toy.toyE itA itB rpub 15 50 rc1 rc2 (20 * 50 - 15) (21 * 50 - 15) :=
  ⟨rfl, rfl, rfl, rfl, rfl, rfl, rfl, valid1, valid2, rfl, rfl, by show ∀ p : ZMod 101, ∃ a : ZMod 101, p = a * 3; exact fun p => ⟨p / 3, by rw [div_mul_cancel₀]; decide⟩,
    by show ∀ p : ZMod 101, ∃ a : ZMod 101, p = a * 4; exact fun p => ⟨p / 4, by rw [div_mul_cancel₀]; decide⟩⟩

theorem sameView : SameView Toy.toyE {"master_secret", "name", "age"} ["master_secret"] (k := 2) (fun _ => itA) (fun _ => itB) (fun _ => 6) (fun _ => 8) where
  issued _ := ⟨77, _, _, _, _, issuedA, issuedB⟩
  kind _ := .inr ⟨rfl, _, _, _, _, _, _, _, sameRevoc⟩
  shown _ := ⟨rfl, rfl, rfl, rfl, by
    show ∀ k ∈ ({"name"} : Finset String), attrValue vals1 k = attrValue vals2 k
    decide⟩
  known := by simp
  attrs _ := by show ({"master_secret"} ∪ {"name", "age"} : Finset String) ⊆ _; decide
  common _ := by show ∀ a ∈ ["master_secret"], attrValue vals1 a = 6 ∧ attrValue vals2 a = 8; decide
  small a _ := ⟨by decide, by decide⟩

/-- `cl_hiding_nonrevoc` applies: two people with different master secrets, ages, signatures and indices show twice, with proofs of non-revocation, that they have the same name -/
example (cv : Conv (ZMod 101) (ZMod 101) (ZMod 101) (ZMod 101)) (nonce : Int) (P : Res String (Proof (ZMod 101) (ZMod 101) (ZMod 101)) → Prop) :=
  cl_hiding_nonrevoc Toy.toyE cv .checked (fun _ => List.replicate 32 1) (fun _ => by rw [List.length_replicate]) ord ord _ _ _ _ _ _ sameView nonce P

/-- the two people do differ -/
example : itA.witness ≠ itB.witness ∧ rc1.sigma ≠ rc2.sigma ∧ rc1.gI ≠ rc2.gI ∧ itA.sig.p.a ≠ itB.sig.p.a := by
  refine ⟨?_, ?_, ?_, ?_⟩ <;> decide +kernel

/-- `cl_unlinkable_nonrevoc` applies: two presentations, the second with a nonce that depends on the first -/
example (cv : Conv (ZMod 101) (ZMod 101) (ZMod 101) (ZMod 101)) (nonce : Res String (Proof (ZMod 101) (ZMod 101) (ZMod 101)) → Int)
    (judge : Res String (Proof (ZMod 101) (ZMod 101) (ZMod 101)) → Res String (Proof (ZMod 101) (ZMod 101) (ZMod 101)) → Bool) :=
  cl_unlinkable_nonrevoc Toy.toyE cv .checked (fun _ => List.replicate 32 1) (fun _ => by rw [List.length_replicate]) ord ord 27 2
    (.ask {"master_secret", "name", "age"} ["master_secret"] 2 (fun w _ => if w then itA else itB) 7 fun x =>
      .ask {"master_secret", "name", "age"} ["master_secret"] 2 (fun w _ => if w then itA else itB) (nonce x) fun y => .answer (judge x y))
    ⟨⟨_, _, sameView⟩, by decide, fun x => ⟨⟨_, _, sameView⟩, by decide, fun y => trivial⟩⟩

end Met
end Verif.CL.HidingRev
