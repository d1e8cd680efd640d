import Verif.Props.CLPresentation
import Mathlib.Data.Fintype.BigOperators
import Mathlib.Data.Fintype.Pi
import Mathlib.Data.Rat.Cast.Order
import Mathlib.Algebra.Order.BigOperators.Ring.Finset
import Mathlib.Algebra.Order.Field.Basic
import Mathlib.Tactic.FieldSimp
import Mathlib.Tactic.Linarith
import Mathlib.Tactic.NormNum
set_option linter.unusedVariables false
set_option linter.unusedSimpArgs false
set_option linter.unusedSectionVars false
/-!
# Presentations of CL credentials hide the credential (C187)
-/
namespace Verif.CL
open Verif BN

/-! ## Counting -/

section Count
variable {ι : Type} [Fintype ι] [DecidableEq ι] {X : Type}

/-- the draws: coordinate `i` is a number below `N i` -/
abbrev Draws (N : ι → Nat) : Type := ∀ i, Fin (N i)

open Classical in
/-- the probability that a uniform draw leads to an outcome in `P` -/
noncomputable def prob (N : ι → Nat) (f : Draws N → X) (P : X → Prop) : ℚ :=
  ((Finset.univ.filter fun ω => P (f ω)).card : ℚ) / (Fintype.card (Draws N) : ℚ)

theorem card_coord (N : ι → Nat) (i : ι) (p : Fin (N i) → Prop) [DecidablePred p] :
    (Finset.univ.filter fun ω : Draws N => p (ω i)).card = (Finset.univ.filter p).card * ∏ j ∈ Finset.univ.erase i, N j := by
  have : (Finset.univ.filter fun ω : Draws N => p (ω i)) =
      Fintype.piFinset (fun j => if h : j = i then (Finset.univ.filter fun x : Fin (N j) => p (h ▸ x)) else Finset.univ) := by
    ext ω
    simp only [Finset.mem_filter, Finset.mem_univ, true_and, Fintype.mem_piFinset]
    constructor
    · intro h j
      by_cases c : j = i
      · subst c; simpa using h
      · simp [c]
    · intro h
      have := h i
      simpa using this
  rw [this, Fintype.card_piFinset, ← Finset.mul_prod_erase Finset.univ _ (Finset.mem_univ i)]
  congr 1
  · simp
  · refine Finset.prod_congr rfl fun j hj => ?_
    rw [dif_neg (Finset.ne_of_mem_erase hj)]
    simp

theorem card_border (N D : Nat) : (Finset.univ.filter fun x : Fin N => x.val < D ∨ N ≤ x.val + D).card ≤ 2 * D := by
  have h1 : (Finset.univ.filter fun x : Fin N => x.val < D ∨ N ≤ x.val + D).card =
      (((Finset.univ.filter fun x : Fin N => x.val < D ∨ N ≤ x.val + D)).image Fin.val).card := by
    rw [Finset.card_image_of_injective _ Fin.val_injective]
  rw [h1]
  have h2 : ((Finset.univ.filter fun x : Fin N => x.val < D ∨ N ≤ x.val + D)).image Fin.val ⊆ Finset.range D ∪ Finset.Ico (N - D) N := by
    intro y hy
    simp only [Finset.mem_image, Finset.mem_filter, Finset.mem_univ, true_and] at hy
    obtain ⟨x, hx, rfl⟩ := hy
    have := x.isLt
    simp only [Finset.mem_union, Finset.mem_range, Finset.mem_Ico]
    omega
  refine (Finset.card_le_card h2).trans ((Finset.card_union_le _ _).trans ?_)
  simp only [Finset.card_range, Nat.card_Ico]
  omega

open Classical in
/-- Two experiments that are related by a bounded shift of the draws have nearly the same outcomes: only draws near the border of their ranges matter. -/
theorem shift_count (N D : ι → Nat) (f g : Draws N → X) (φ : Draws N → ι → Int)
    (hφ : ∀ ω i, |φ ω i - (ω i).val| ≤ D i)
    (hfg : ∀ ω ω' : Draws N, (∀ i, ((ω' i).val : Int) = φ ω i) → g ω' = f ω)
    (inj : ∀ ω1 ω2, f ω1 = f ω2 → φ ω1 = φ ω2 → ω1 = ω2) (P : X → Prop) :
    (Finset.univ.filter fun ω => P (f ω)).card ≤ (Finset.univ.filter fun ω => P (g ω)).card + ∑ i, 2 * D i * ∏ j ∈ Finset.univ.erase i, N j := by
  set bad := Finset.univ.filter fun ω : Draws N => ∃ i, ¬ (0 ≤ φ ω i ∧ φ ω i < N i)
  set good := Finset.univ.filter fun ω : Draws N => P (f ω) ∧ ∀ i, 0 ≤ φ ω i ∧ φ ω i < N i
  have h1 : (Finset.univ.filter fun ω => P (f ω)) ⊆ good ∪ bad := by
    intro ω hω
    simp only [Finset.mem_filter, Finset.mem_univ, true_and] at hω
    simp only [good, bad, Finset.mem_union, Finset.mem_filter, Finset.mem_univ, true_and]
    by_cases c : ∀ i, 0 ≤ φ ω i ∧ φ ω i < N i
    · exact .inl ⟨hω, c⟩
    · right; push Not at c ⊢; exact c
  have h2 : good.card ≤ (Finset.univ.filter fun ω => P (g ω)).card := by
    refine Finset.card_le_card_of_injOn (fun ω i => if h : 0 ≤ φ ω i ∧ φ ω i < N i then ⟨(φ ω i).toNat, by omega⟩ else ω i) ?_ ?_
    · intro ω hω
      simp only [good, Finset.coe_filter, Finset.mem_univ, true_and, Set.mem_setOf_eq] at hω
      simp only [Finset.coe_filter, Finset.mem_univ, true_and, Set.mem_setOf_eq]
      rw [hfg ω]
      · exact hω.1
      · intro i
        rw [dif_pos (hω.2 i)]
        exact Int.toNat_of_nonneg (hω.2 i).1
    · intro ω1 hω1 ω2 hω2 he
      simp only [good, Finset.coe_filter, Finset.mem_univ, true_and, Set.mem_setOf_eq] at hω1 hω2
      have e1 : ∀ i, φ ω1 i = φ ω2 i := by
        intro i
        have := congrFun he i
        simp only [dif_pos (hω1.2 i), dif_pos (hω2.2 i), Fin.mk.injEq] at this
        have := hω1.2 i
        have := hω2.2 i
        omega
      refine inj _ _ ?_ (funext e1)
      rw [← hfg ω1 (fun i => if h : 0 ≤ φ ω1 i ∧ φ ω1 i < N i then ⟨(φ ω1 i).toNat, by omega⟩ else ω1 i),
        ← hfg ω2 (fun i => if h : 0 ≤ φ ω2 i ∧ φ ω2 i < N i then ⟨(φ ω2 i).toNat, by omega⟩ else ω2 i)]
      · exact congrArg g he
      · intro i; rw [dif_pos (hω2.2 i)]; exact Int.toNat_of_nonneg (hω2.2 i).1
      · intro i; rw [dif_pos (hω1.2 i)]; exact Int.toNat_of_nonneg (hω1.2 i).1
  have h3 : bad.card ≤ ∑ i, 2 * D i * ∏ j ∈ Finset.univ.erase i, N j := by
    have hb : bad ⊆ Finset.univ.biUnion fun i => Finset.univ.filter fun ω : Draws N => (ω i).val < D i ∨ N i ≤ (ω i).val + D i := by
      intro ω hω
      simp only [bad, Finset.mem_filter, Finset.mem_univ, true_and] at hω
      obtain ⟨i, hi⟩ := hω
      simp only [Finset.mem_biUnion, Finset.mem_filter, Finset.mem_univ, true_and]
      refine ⟨i, ?_⟩
      have h := abs_le.1 (hφ ω i)
      have := (ω i).isLt
      omega
    refine (Finset.card_le_card hb).trans (Finset.card_biUnion_le.trans (Finset.sum_le_sum fun i _ => ?_))
    rw [card_coord N i fun x => x.val < D i ∨ N i ≤ x.val + D i]
    exact Nat.mul_le_mul_right _ (card_border _ _)
  exact (Finset.card_le_card h1).trans ((Finset.card_union_le _ _).trans (Nat.add_le_add h2 h3))

theorem prob_shift (N D : ι → Nat) (hN : ∀ i, 0 < N i) (f g : Draws N → X) (φ : Draws N → ι → Int)
    (hφ : ∀ ω i, |φ ω i - (ω i).val| ≤ D i)
    (hfg : ∀ ω ω' : Draws N, (∀ i, ((ω' i).val : Int) = φ ω i) → g ω' = f ω)
    (inj : ∀ ω1 ω2, f ω1 = f ω2 → φ ω1 = φ ω2 → ω1 = ω2) (P : X → Prop) :
    prob N f P ≤ prob N g P + ∑ i, (2 * D i : ℚ) / N i := by
  have h := shift_count N D f g φ hφ hfg inj P
  have hc : (Fintype.card (Draws N) : ℚ) = ∏ i, (N i : ℚ) := by simp [Draws, Fintype.card_pi]
  have hpos : (0 : ℚ) < ∏ i, (N i : ℚ) := Finset.prod_pos fun i _ => by exact_mod_cast hN i
  rw [prob, prob, hc, div_le_iff₀ hpos, add_mul, div_mul_cancel₀ _ hpos.ne', Finset.sum_mul]
  have : ∀ i ∈ Finset.univ, (2 * D i : ℚ) / N i * ∏ i, (N i : ℚ) = 2 * D i * ∏ j ∈ Finset.univ.erase i, (N j : ℚ) := by
    intro i _
    rw [← Finset.mul_prod_erase Finset.univ (fun i => (N i : ℚ)) (Finset.mem_univ i)]
    have : (N i : ℚ) ≠ 0 := by exact_mod_cast (hN i).ne'
    field_simp
  rw [Finset.sum_congr rfl this]
  exact_mod_cast h

end Count

/-! ## Presentations -/

section
variable {F G1 G2 GT : Type} [Field F] [AddCommGroup G1] [Module F G1] [AddCommGroup G2] [Module F G2]
  [AddCommGroup GT] [Module F GT]

/-- A credential as issued: numbers of the sizes that the issuer uses, the signature in the subgroup of the generator `S`, and the CL equation. -/
structure Issued {n : Nat} (S Z C : (ZMod n)ˣ) (R : String → (ZMod n)ˣ) (it : Item F G1 G2 GT) : Prop where
  key : KeyUnits it.pk.pKey n S Z C R
  size : n < 2 ^ 2048
  signed : ∃ a : Int, Rep it.sig.p.a (S ^ a) ∧ CLEquation S Z C R (S ^ a) it.sig.p.e it.sig.p.v it.sig.p.m2 it.vals
  exponent : 2 ^ 596 ≤ it.sig.p.e ∧ it.sig.p.e ≤ 2 ^ 596 + 2 ^ 119
  blinding : 0 ≤ it.sig.p.v ∧ it.sig.p.v < 2 ^ 2725
  context : 0 ≤ it.sig.p.m2 ∧ it.sig.p.m2 < 2 ^ 256
  values : ∀ k, 0 ≤ attrValue it.vals k ∧ attrValue it.vals k < 2 ^ 256
  distinct : (it.vals.map (·.1)).Nodup
  noCommitment : ∀ a ∈ it.vals, a.2.isCommitment = false
  attrs : it.nonSchema ∪ it.schema = (it.vals.map (·.1)).toFinset
  covered : ∀ k ∈ it.vals.map (·.1), it.pk.pKey.r.hasKey k = true
  revealed : it.req.revealed ⊆ it.schema

/-- no predicates and no proof of non-revocation -/
def Item.Plain (it : Item F G1 G2 GT) : Prop := it.req.predicates = [] ∧ (it.reg = none ∨ it.witness = none)

/-- two credentials, shown for the same request of the same issuer, that agree in the revealed attributes -/
structure SameShown (it1 it2 : Item F G1 G2 GT) : Prop where
  pk : it1.pk = it2.pk
  schema : it1.schema = it2.schema
  nonSchema : it1.nonSchema = it2.nonSchema
  req : it1.req = it2.req
  shown : ∀ k ∈ it1.req.revealed, attrValue it1.vals k = attrValue it2.vals k

/-- what `addSubProofRequest` adds for a plain credential -/
theorem plain_added (e : G1 →ₗ[F] G2 →ₗ[F] GT) (cv : Conv F G1 G2 GT) (mode : Overflow) (ord : SetOrder) (b : Builder F G1 G2 GT)
    (it : Item F G1 G2 GT) {n : Nat} {S Z C : (ZMod n)ˣ} {R : String → (ZMod n)ˣ} (h : Issued S Z C R it) (hp : it.Plain) {A : (ZMod n)ˣ}
    (hA : Rep it.sig.p.a A) :
    b.addSubProofRequest e cv mode ord it.req it.schema it.nonSchema it.sig it.vals it.pk it.reg it.witness it.x it.rnd it.nrnd = .ok
      ⟨b.common, b.inits ++ [⟨⟨⟨val (S ^ it.rnd.r * A), val ((S ^ it.rnd.r * A) ^ it.rnd.eT *
          hiddenProd R (mTildeOf b.common it.rnd.mT) (ord.enum (unrevealedAttrs it.schema it.nonSchema it.req)) * S ^ it.rnd.vT * C ^ it.rnd.m2T),
          it.rnd.eT, it.sig.p.e - LARGE_E_START_VALUE, it.rnd.vT, it.sig.p.v - it.sig.p.e * it.rnd.r,
          getMtilde (ord.enum (unrevealedAttrs it.schema it.nonSchema it.req)) b.common it.rnd.mT, it.rnd.m2T, it.sig.p.m2⟩, []⟩, none, it.vals, it.req, it.schema,
          it.nonSchema⟩],
        b.cList ++ [toBytes (val (S ^ it.rnd.r * A))],
        b.tauList ++ [toBytes (val ((S ^ it.rnd.r * A) ^ it.rnd.eT *
          hiddenProd R (mTildeOf b.common it.rnd.mT) (ord.enum (unrevealedAttrs it.schema it.nonSchema it.req)) * S ^ it.rnd.vT * C ^ it.rnd.m2T))]⟩ := by
  have hchk : checkBuilderParams it.vals it.req it.schema it.nonSchema = .ok () := by
    unfold checkBuilderParams
    simp only []
    have hs : it.schema ⊆ (it.vals.map (·.1)).toFinset := by rw [← h.attrs]; exact Finset.subset_union_right
    rw [if_neg (not_not.2 h.attrs), if_neg, if_neg, if_neg]
    · rw [hp.1]; simp
    · rw [hp.1]; simp
    · rw [not_not, Finset.sdiff_eq_empty_iff_subset]
      exact h.revealed.trans hs
  have hnr : initNonRevoc e it.sig it.reg it.pk.rKey it.witness it.x = none := by
    unfold initNonRevoc
    rcases hp.2 with h | h
    · rw [h]; cases it.sig.r <;> rfl
    · rw [h]; cases it.sig.r <;> cases it.reg <;> cases it.pk.rKey <;> rfl
  have hUr : ∀ k ∈ unrevealedAttrs it.schema it.nonSchema it.req, it.pk.pKey.r.hasKey k = true := by
    intro k hk
    refine h.covered k ?_
    have := (Finset.mem_sdiff.1 hk).1
    rw [h.attrs, List.mem_toFinset] at this
    exact this
  unfold Builder.addSubProofRequest
  rw [hchk, Res.ok_bind]
  simp only []
  rw [hnr]
  unfold initPrimaryProof
  rw [initEqProof_units h.key ord b.common it.sig.p hA it.schema it.nonSchema it.req _ it.rnd hUr, hp.1, Res.ok_bind]
  simp [PrimaryInit.asCList, PrimaryInit.asTauList, Res.ok_bind, Res.pure_eq]

/-- the finished sub proof of a plain credential -/
theorem plain_finished (cv : Conv F G1 G2 GT) (ord ordF : SetOrder) (common : Map Int)
    (it : Item F G1 G2 GT) {n : Nat} {S Z C : (ZMod n)ˣ} {R : String → (ZMod n)ˣ} (h : Issued S Z C R it) (A T : Int) (c : Int) :
    finalizeSubProof cv ordF c (⟨⟨⟨A, T, it.rnd.eT, it.sig.p.e - LARGE_E_START_VALUE, it.rnd.vT, it.sig.p.v - it.sig.p.e * it.rnd.r,
          getMtilde (ord.enum (unrevealedAttrs it.schema it.nonSchema it.req)) common it.rnd.mT, it.rnd.m2T, it.sig.p.m2⟩, []⟩, none, it.vals, it.req, it.schema,
          it.nonSchema⟩ : InitProof F G1 G2 GT) = .ok
      ⟨⟨⟨(ordF.enum it.req.revealed).map (fun k => (k, attrValue it.vals k)), A, c * (it.sig.p.e - LARGE_E_START_VALUE) + it.rnd.eT,
          c * (it.sig.p.v - it.sig.p.e * it.rnd.r) + it.rnd.vT,
          (ordF.enum (unrevealedAttrs it.schema it.nonSchema it.req)).map (fun k => (k, c * attrValue it.vals k + mTildeOf common it.rnd.mT k)),
          c * it.sig.p.m2 + it.rnd.m2T⟩, []⟩, none⟩ := by
  have hU : unrevealedAttrs it.schema it.nonSchema it.req ∪ it.req.revealed = (it.vals.map (·.1)).toFinset := by
    unfold unrevealedAttrs
    rw [Finset.sdiff_union_of_subset (h.revealed.trans Finset.subset_union_right), h.attrs]
  have hUk : ∀ k ∈ unrevealedAttrs it.schema it.nonSchema it.req ∪ it.req.revealed, k ∈ it.vals.map (·.1) := by
    intro k hkm
    rw [hU, List.mem_toFinset] at hkm
    exact hkm
  have hmT := (getMtilde_lookup (ord.enum (unrevealedAttrs it.schema it.nonSchema it.req)) common it.rnd.mT).1
  unfold finalizeSubProof finalizePrimaryProof
  simp only [finalizeNonRevocOpt, Res.pure_eq, Res.ok_bind]
  rw [finalizeEq_units ordF _ c it.schema it.nonSchema it.vals it.req (mTildeOf common it.rnd.mT) (fun k hk => hmT k ((ord.mem _ _).2 hk)) hUk]
  simp [Res.ok_bind, Res.pure_eq]

/-- the random values for the second credential that lead to the same responses, for the challenge `c` -/
structure Shifted (c : Int) (com1 com2 : Map Int) (it1 it2 : Item F G1 G2 GT) : Prop where
  e : it2.rnd.eT = it1.rnd.eT + c * (it1.sig.p.e - it2.sig.p.e)
  v : it2.rnd.vT = it1.rnd.vT + c * ((it1.sig.p.v - it1.sig.p.e * it1.rnd.r) - (it2.sig.p.v - it2.sig.p.e * it2.rnd.r))
  m2 : it2.rnd.m2T = it1.rnd.m2T + c * (it1.sig.p.m2 - it2.sig.p.m2)
  m : ∀ k ∈ unrevealedAttrs it1.schema it1.nonSchema it1.req,
    mTildeOf com2 it2.rnd.mT k = mTildeOf com1 it1.rnd.mT k + c * (attrValue it1.vals k - attrValue it2.vals k)

/-- one credential: with shifted random values the other credential adds the same bytes and gives the same sub proof -/
theorem shifted_item (e : G1 →ₗ[F] G2 →ₗ[F] GT) (cv : Conv F G1 G2 GT) (mode : Overflow) (ord ordF : SetOrder) (c : Int)
    (b1 b2 : Builder F G1 G2 GT) (it1 it2 : Item F G1 G2 GT) {n : Nat} {S Z C : (ZMod n)ˣ} {R : String → (ZMod n)ˣ}
    (h1 : Issued S Z C R it1) (h2 : Issued S Z C R it2) (p1 : it1.Plain) (p2 : it2.Plain) (same : SameShown it1 it2)
    {A1 A2 : (ZMod n)ˣ} (hA1 : Rep it1.sig.p.a A1) (hA2 : Rep it2.sig.p.a A2)
    (c1 : CLEquation S Z C R A1 it1.sig.p.e it1.sig.p.v it1.sig.p.m2 it1.vals)
    (c2 : CLEquation S Z C R A2 it2.sig.p.e it2.sig.p.v it2.sig.p.m2 it2.vals)
    (hA : S ^ it1.rnd.r * A1 = S ^ it2.rnd.r * A2) (sh : Shifted c b1.common b2.common it1 it2) :
    ∃ ini1 ini2 cl tl sp,
      b1.addSubProofRequest e cv mode ord it1.req it1.schema it1.nonSchema it1.sig it1.vals it1.pk it1.reg it1.witness it1.x it1.rnd it1.nrnd =
        .ok ⟨b1.common, b1.inits ++ [ini1], b1.cList ++ cl, b1.tauList ++ tl⟩ ∧
      b2.addSubProofRequest e cv mode ord it2.req it2.schema it2.nonSchema it2.sig it2.vals it2.pk it2.reg it2.witness it2.x it2.rnd it2.nrnd =
        .ok ⟨b2.common, b2.inits ++ [ini2], b2.cList ++ cl, b2.tauList ++ tl⟩ ∧
      finalizeSubProof cv ordF c ini1 = .ok sp ∧ finalizeSubProof cv ordF c ini2 = .ok sp := by
  have a1 := plain_added e cv mode ord b1 it1 h1 p1 hA1
  have a2 := plain_added e cv mode ord b2 it2 h2 p2 hA2
  have hsU : unrevealedAttrs it2.schema it2.nonSchema it2.req = unrevealedAttrs it1.schema it1.nonSchema it1.req := by
    rw [same.schema, same.nonSchema, same.req]
  have f1 := fun A T => plain_finished cv ord ordF b1.common it1 h1 A T c
  have f2 := fun A T => plain_finished cv ord ordF b2.common it2 h2 A T c
  rw [hsU] at a2 f2
  -- the two first messages are the same
  have split : ∀ (it : Item F G1 G2 GT), Issued S Z C R it → attrProd R (signedAttrs it.vals) =
      hiddenProd R (attrValue it.vals) (ord.enum (unrevealedAttrs it.schema it.nonSchema it.req)) * hiddenProd R (attrValue it.vals) (ord.enum it.req.revealed) := by
    intro it h
    refine attr_split R h.distinct h.noCommitment ord ord _ _ ?_ ?_
    · unfold unrevealedAttrs; exact Finset.sdiff_disjoint
    · unfold unrevealedAttrs
      rw [Finset.sdiff_union_of_subset (h.revealed.trans Finset.subset_union_right), h.attrs]
  have hrev : hiddenProd R (attrValue it2.vals) (ord.enum it2.req.revealed) = hiddenProd R (attrValue it1.vals) (ord.enum it1.req.revealed) := by
    rw [← same.req]
    unfold hiddenProd
    congr 1
    refine List.map_congr_left fun k hk => ?_
    rw [same.shown k ((ord.mem _ _).1 hk)]
  have q1 := eq_algebra A1 S C (hiddenProd R (attrValue it1.vals) (ord.enum (unrevealedAttrs it1.schema it1.nonSchema it1.req)))
    (hiddenProd R (attrValue it1.vals) (ord.enum it1.req.revealed))
    (hiddenProd R (mTildeOf b1.common it1.rnd.mT) (ord.enum (unrevealedAttrs it1.schema it1.nonSchema it1.req))) Z
    it1.sig.p.e it1.sig.p.v it1.sig.p.m2 it1.rnd.r c LARGE_E_START_VALUE it1.rnd.eT it1.rnd.vT it1.rnd.m2T (by rw [← split it1 h1]; exact c1)
  have q2 := eq_algebra A2 S C (hiddenProd R (attrValue it2.vals) (ord.enum (unrevealedAttrs it1.schema it1.nonSchema it1.req)))
    (hiddenProd R (attrValue it1.vals) (ord.enum it1.req.revealed))
    (hiddenProd R (mTildeOf b2.common it2.rnd.mT) (ord.enum (unrevealedAttrs it1.schema it1.nonSchema it1.req))) Z
    it2.sig.p.e it2.sig.p.v it2.sig.p.m2 it2.rnd.r c LARGE_E_START_VALUE it2.rnd.eT it2.rnd.vT it2.rnd.m2T
    (by rw [← hrev, ← hsU, ← split it2 h2]; exact c2)
  have hc : ∀ (x y : String → Int) (l : List String), hiddenProd R x l ^ c * hiddenProd R y l = hiddenProd R (fun k => c * x k + y k) l := by
    intro x y l
    unfold hiddenProd
    induction l with
    | nil => simp
    | cons k l ih =>
      simp only [List.map_cons, List.prod_cons]
      rw [← ih, mul_zpow, zpow_add, mul_comm c, zpow_mul, mul_mul_mul_comm]
  have hhid : hiddenProd R (fun k => c * attrValue it1.vals k + mTildeOf b1.common it1.rnd.mT k) (ord.enum (unrevealedAttrs it1.schema it1.nonSchema it1.req)) =
      hiddenProd R (fun k => c * attrValue it2.vals k + mTildeOf b2.common it2.rnd.mT k) (ord.enum (unrevealedAttrs it1.schema it1.nonSchema it1.req)) := by
    unfold hiddenProd
    congr 1
    refine List.map_congr_left fun k hk => ?_
    simp only []
    rw [sh.m k ((ord.mem _ _).1 hk)]
    congr 1
    ring
  have ee : c * (it2.sig.p.e - LARGE_E_START_VALUE) + it2.rnd.eT = c * (it1.sig.p.e - LARGE_E_START_VALUE) + it1.rnd.eT := by rw [sh.e]; ring
  have ev : c * (it2.sig.p.v - it2.sig.p.e * it2.rnd.r) + it2.rnd.vT = c * (it1.sig.p.v - it1.sig.p.e * it1.rnd.r) + it1.rnd.vT := by rw [sh.v]; ring
  have em : c * it2.sig.p.m2 + it2.rnd.m2T = c * it1.sig.p.m2 + it1.rnd.m2T := by rw [sh.m2]; ring
  rw [hc] at q1 q2
  rw [hhid, ← ee, ← ev, ← em, hA] at q1
  have hT := q1.symm.trans q2
  rw [← hA] at hT a2
  rw [← hT] at a2
  refine ⟨_, _, _, _, _, a1, a2, f1 _ _, ?_⟩
  have hr1 : (ordF.enum it1.req.revealed).map (fun k => (k, attrValue it2.vals k)) = (ordF.enum it1.req.revealed).map (fun k => (k, attrValue it1.vals k)) :=
    List.map_congr_left fun k hk => by rw [same.shown k ((ordF.mem _ _).1 hk)]
  have hr2 : (ordF.enum (unrevealedAttrs it1.schema it1.nonSchema it1.req)).map (fun k => (k, c * attrValue it2.vals k + mTildeOf b2.common it2.rnd.mT k)) =
      (ordF.enum (unrevealedAttrs it1.schema it1.nonSchema it1.req)).map (fun k => (k, c * attrValue it1.vals k + mTildeOf b1.common it1.rnd.mT k)) :=
    List.map_congr_left fun k hk => by
      rw [sh.m k ((ordF.mem _ _).1 hk)]
      congr 1
      ring
  rw [f2, ee, ev, em, ← same.req, hr1, hr2]

/-- two credentials with random values that lead to the same presentation for the challenge `c` -/
def Matched (c : Int) (com1 com2 : Map Int) (it1 it2 : Item F G1 G2 GT) : Prop :=
  ∃ (n : Nat) (S Z C : (ZMod n)ˣ) (R : String → (ZMod n)ˣ) (A1 A2 : (ZMod n)ˣ), Issued S Z C R it1 ∧ Issued S Z C R it2 ∧ it1.Plain ∧ it2.Plain ∧
    SameShown it1 it2 ∧ Rep it1.sig.p.a A1 ∧ Rep it2.sig.p.a A2 ∧ CLEquation S Z C R A1 it1.sig.p.e it1.sig.p.v it1.sig.p.m2 it1.vals ∧
    CLEquation S Z C R A2 it2.sig.p.e it2.sig.p.v it2.sig.p.m2 it2.vals ∧ S ^ it1.rnd.r * A1 = S ^ it2.rnd.r * A2 ∧ Shifted c com1 com2 it1 it2

theorem matched_items (e : G1 →ₗ[F] G2 →ₗ[F] GT) (cv : Conv F G1 G2 GT) (mode : Overflow) (ord ordF : SetOrder) (c : Int) (com1 com2 : Map Int)
    (l1 l2 : List (Item F G1 G2 GT)) (h : List.Forall₂ (Matched c com1 com2) l1 l2) :
    ∀ (b1 b2 : Builder F G1 G2 GT), b1.common = com1 → b2.common = com2 → ∃ inis1 inis2 cl tl sps,
      l1.foldlM (fun b it => b.addSubProofRequest e cv mode ord it.req it.schema it.nonSchema it.sig it.vals it.pk it.reg it.witness it.x it.rnd it.nrnd) b1 =
        .ok ⟨com1, b1.inits ++ inis1, b1.cList ++ cl, b1.tauList ++ tl⟩ ∧
      l2.foldlM (fun b it => b.addSubProofRequest e cv mode ord it.req it.schema it.nonSchema it.sig it.vals it.pk it.reg it.witness it.x it.rnd it.nrnd) b2 =
        .ok ⟨com2, b2.inits ++ inis2, b2.cList ++ cl, b2.tauList ++ tl⟩ ∧
      inis1.mapM (finalizeSubProof cv ordF c) = .ok sps ∧ inis2.mapM (finalizeSubProof cv ordF c) = .ok sps := by
  induction h with
  | nil =>
    rintro ⟨c1, i1, l1, t1⟩ ⟨c2, i2, l2, t2⟩ rfl rfl
    exact ⟨[], [], [], [], [], by simp [Res.pure_eq], by simp [Res.pure_eq], rfl, rfl⟩
  | @cons it1 it2 l1 l2 hm _ ih =>
    rintro b1 b2 rfl rfl
    obtain ⟨n, S, Z, C, R, A1, A2, h1, h2, p1, p2, same, hA1, hA2, c1, c2, hA, sh⟩ := hm
    obtain ⟨ini1, ini2, cl, tl, sp, x1, x2, f1, f2⟩ := shifted_item e cv mode ord ordF c b1 b2 it1 it2 h1 h2 p1 p2 same hA1 hA2 c1 c2 hA sh
    obtain ⟨inis1, inis2, cl', tl', sps, y1, y2, g1, g2⟩ := ih ⟨b1.common, b1.inits ++ [ini1], b1.cList ++ cl, b1.tauList ++ tl⟩
      ⟨b2.common, b2.inits ++ [ini2], b2.cList ++ cl, b2.tauList ++ tl⟩ rfl rfl
    refine ⟨ini1 :: inis1, ini2 :: inis2, cl ++ cl', tl ++ tl', sp :: sps, ?_, ?_, ?_, ?_⟩
    · rw [List.foldlM_cons, x1, Res.ok_bind, y1]
      simp only [List.append_assoc, List.singleton_append]
    · rw [List.foldlM_cons, x2, Res.ok_bind, y2]
      simp only [List.append_assoc, List.singleton_append]
    · rw [List.mapM_cons, f1, Res.ok_bind, g1]; rfl
    · rw [List.mapM_cons, f2, Res.ok_bind, g2]; rfl

/-- the common attributes of the builder -/
theorem common_lookup (names : List String) (x : String → Int) (k : String) : ∀ (b : Builder F G1 G2 GT),
    ((names.map fun a => (a, x a)).foldl (fun b c => b.addCommonAttribute c.1 c.2) b).common.lookup k = if k ∈ names then some (x k) else b.common.lookup k := by
  induction names with
  | nil => intro b; simp
  | cons a l ih =>
    intro b
    rw [List.map_cons, List.foldl_cons, ih]
    have hb : (b.addCommonAttribute a (x a)).common = b.common.insert a (x a) := rfl
    by_cases h : k ∈ l
    · simp [h]
    · rw [if_neg h, hb]
      by_cases hk : k = a
      · subst hk; rw [lookup_insert_self]; simp
      · rw [lookup_insert_ne _ _ hk]; simp [h, hk]

/-- the whole presentation: matched random values give the same proof -/
theorem matched_present (e : G1 →ₗ[F] G2 →ₗ[F] GT) (cv : Conv F G1 G2 GT) (mode : Overflow) (sha : Bytes → Bytes) (ord ordF : SetOrder)
    (names : List String) (x1 x2 : String → Int) (l1 l2 : List (Item F G1 G2 GT)) (nonce : Int) (π : Proof F G1 G2)
    (hp : present e cv mode sha ord ordF (names.map fun a => (a, x1 a)) l1 nonce = .ok π)
    (h : ∀ com1 com2 : Map Int, (∀ k, com1.lookup k = if k ∈ names then some (x1 k) else none) → (∀ k, com2.lookup k = if k ∈ names then some (x2 k) else none) →
      List.Forall₂ (Matched π.cHash com1 com2) l1 l2) :
    present e cv mode sha ord ordF (names.map fun a => (a, x2 a)) l2 nonce = .ok π := by
  obtain ⟨i1, k1, t1, -⟩ := builder_commons (names.map fun a => (a, x1 a)) (Builder.new : Builder F G1 G2 GT)
  obtain ⟨i2, k2, t2, -⟩ := builder_commons (names.map fun a => (a, x2 a)) (Builder.new : Builder F G1 G2 GT)
  have m := h _ _ (fun k => common_lookup names x1 k (Builder.new : Builder F G1 G2 GT)) (fun k => common_lookup names x2 k (Builder.new : Builder F G1 G2 GT))
  unfold present at hp ⊢
  simp only [] at hp ⊢
  generalize hb1 : (names.map fun a => (a, x1 a)).foldl (fun b c => b.addCommonAttribute c.1 c.2) (Builder.new : Builder F G1 G2 GT) = b1 at *
  generalize hb2 : (names.map fun a => (a, x2 a)).foldl (fun b c => b.addCommonAttribute c.1 c.2) (Builder.new : Builder F G1 G2 GT) = b2 at *
  obtain ⟨inis1, inis2, cl, tl, sps, y1, y2, g1, g2⟩ := matched_items e cv mode ord ordF π.cHash b1.common b2.common l1 l2 m b1 b2 rfl rfl
  rw [y1, Res.ok_bind] at hp
  rw [y2, Res.ok_bind]
  unfold Builder.finalize at hp ⊢
  simp only [] at hp ⊢
  rw [i1, k1, t1] at hp
  rw [i2, k2, t2]
  simp only [Builder.new, List.nil_append] at hp ⊢
  obtain ⟨sps', hs, hp⟩ := Res.bind_eq_ok.1 hp
  simp only [Res.pure_eq, Res.ok.injEq] at hp
  have hc : π.cHash = getHashAsInt sha (tl ++ cl ++ [toBytes nonce]) := by rw [← hp]
  rw [← hc] at hs ⊢
  rw [g1] at hs
  rw [g2, Res.ok_bind, Res.pure_eq, ← hp, Res.ok.inj hs, hp]

/-! ## The random values of a presentation -/

/-- the random values for one credential: the exponent that blinds the signature, and the masks of `e`, `v` and the context -/
inductive Mask where
  | blind | e | v | m2
  deriving DecidableEq

instance : Fintype Mask := ⟨{.blind, .e, .v, .m2}, by intro x; cases x <;> decide⟩

theorem sum_mask {M : Type} [AddCommMonoid M] (f : Mask → M) : ∑ x, f x = f .blind + (f .e + (f .v + f .m2)) := by
  show ∑ x ∈ ({.blind, .e, .v, .m2} : Finset Mask), f x = _
  rw [Finset.sum_insert (by decide), Finset.sum_insert (by decide), Finset.sum_insert (by decide), Finset.sum_singleton]

/-- the random values of a presentation of `k` credentials: the masks of the common attributes; for every credential those of `Mask` and one for every attribute.  `K` is the
set of all attribute names (masks of attributes that are revealed or common are drawn here too but not used). -/
abbrev Slot (K : Finset String) (k : Nat) : Type := K ⊕ (Fin k × (Mask ⊕ K))

/-- constants.rs: `LARGE_MVECT`, `LARGE_VPRIME`, `LARGE_ETILDE`, `LARGE_VTILDE`; prover.rs:852-856, 1341-1345, helpers.rs:295-312 -/
def slotSize {K : Finset String} {k : Nat} : Slot K k → Nat
  | .inl _ => 2 ^ 592
  | .inr (_, .inl .blind) => 2 ^ 2128
  | .inr (_, .inl .e) => 2 ^ 456
  | .inr (_, .inl .v) => 2 ^ 3060
  | .inr (_, .inl .m2) => 2 ^ 592
  | .inr (_, .inr _) => 2 ^ 592

/-- the draw of a slot, as a number -/
def num {K : Finset String} {k : Nat} (ω : Draws (slotSize (K := K) (k := k))) (s : Slot K k) : Int := ((ω s).val : Int)

/-- the random values of credential `i` -/
def eqRand {K : Finset String} {k : Nat} (ω : Draws (slotSize (K := K) (k := k))) (i : Fin k) : EqRand :=
  { m2T := num ω (.inr (i, .inl .m2)), r := num ω (.inr (i, .inl .blind)), eT := num ω (.inr (i, .inl .e)), vT := num ω (.inr (i, .inl .v)),
    mT := fun a => if h : a ∈ K then num ω (.inr (i, .inr ⟨a, h⟩)) else 0 }

/-- the masks of common attributes -/
def commonRand {K : Finset String} {k : Nat} (ω : Draws (slotSize (K := K) (k := k))) (a : String) : Int :=
  if h : a ∈ K then num ω (.inl ⟨a, h⟩) else 0

/-- a presentation with the random values `ω` -/
def show' (e : G1 →ₗ[F] G2 →ₗ[F] GT) (cv : Conv F G1 G2 GT) (mode : Overflow) (sha : Bytes → Bytes) (ord ordF : SetOrder) (names : List String) {K : Finset String}
    {k : Nat} (its : Fin k → Item F G1 G2 GT) (nonce : Int) (ω : Draws (slotSize (K := K) (k := k))) : Res String (Proof F G1 G2) :=
  present e cv mode sha ord ordF (names.map fun a => (a, commonRand ω a)) (List.ofFn fun i => { its i with rnd := eqRand ω i }) nonce

theorem ofBe_lt_pow (b : Bytes) : ofBe b < 256 ^ b.length := by
  unfold ofBe
  have : ∀ (l : Bytes) (a : Nat), l.foldl (fun acc x => acc * 256 + x.toNat) a < (a + 1) * 256 ^ l.length := by
    intro l
    induction l with
    | nil => intro a; simp
    | cons x l ih =>
      intro a
      rw [List.foldl_cons, List.length_cons]
      refine (ih _).trans_le ?_
      have := x.toNat_lt
      rw [pow_succ', ← mul_assoc]
      exact Nat.mul_le_mul_right _ (by omega)
  simpa using this b 0

theorem getHashAsInt_lt {sha : Bytes → Bytes} (hsha : ∀ m, (sha m).length = 32) (l : List Bytes) : getHashAsInt sha l < 2 ^ 256 := by
  unfold getHashAsInt fromBytes
  have := ofBe_lt_pow (sha l.flatten)
  rw [hsha] at this
  have h2 : (256 : Nat) ^ 32 = 2 ^ 256 := by norm_num
  rw [h2] at this
  exact_mod_cast this

theorem shift_bound {c x y C X : Int} (hc : 0 ≤ c ∧ c ≤ C) (hx : 0 ≤ x ∧ x ≤ X) (hy : 0 ≤ y ∧ y ≤ X) : |c * (x - y)| ≤ C * X := by
  rw [abs_mul, abs_of_nonneg hc.1]
  have : |x - y| ≤ X := abs_le.2 ⟨by linarith [hx.1, hy.2], by linarith [hx.2, hy.1]⟩
  exact mul_le_mul hc.2 this (abs_nonneg _) (hc.1.trans hc.2)

/-- how far a slot is shifted at most -/
def slotShift {K : Finset String} {k : Nat} : Slot K k → Nat
  | .inl _ => 2 ^ 512
  | .inr (_, .inl .blind) => 2 ^ 2048
  | .inr (_, .inl .e) => 2 ^ 375
  | .inr (_, .inl .v) => 3 * 2 ^ 2981
  | .inr (_, .inl .m2) => 2 ^ 512
  | .inr (_, .inr _) => 2 ^ 512

theorem ratio (x : ℚ) (a d : Nat) : 2 * (x * 2 ^ a) / 2 ^ (a + d) = 2 * x / 2 ^ d := by
  have h1 : (2 : ℚ) ^ a ≠ 0 := pow_ne_zero _ two_ne_zero
  have h2 : (2 : ℚ) ^ d ≠ 0 := pow_ne_zero _ two_ne_zero
  rw [pow_add]
  field_simp

theorem ratio1 (a d : Nat) : 2 * ((2 ^ a : Nat) : ℚ) / ((2 ^ (a + d) : Nat) : ℚ) = 2 / 2 ^ d := by
  have := ratio 1 a d
  rw [one_mul, mul_one] at this
  rw [Nat.cast_pow, Nat.cast_pow]
  exact_mod_cast this

theorem slot_sum (K : Finset String) (k : Nat) :
    ∑ s : Slot K k, (2 * slotShift s : ℚ) / slotSize s ≤ (((k + 1) * K.card + 9 * k : Nat) : ℚ) / 2 ^ 79 := by
  rw [Fintype.sum_sum_type, Fintype.sum_prod_type]
  have h1 : ∀ a : K, (2 * (slotShift (k := k) (.inl a) : ℚ)) / slotSize (k := k) (.inl a) = 2 / 2 ^ 80 := fun a => ratio1 512 80
  have h2 : ∀ i : Fin k, ∑ s : Mask ⊕ K, (2 * (slotShift (.inr (i, s)) : ℚ)) / slotSize (.inr (i, s)) ≤ ((K.card + 9 : Nat) : ℚ) / 2 ^ 79 := by
    intro i
    rw [Fintype.sum_sum_type, sum_mask]
    have h3 : ∀ a : K, (2 * (slotShift (.inr (i, .inr a)) : ℚ)) / slotSize (.inr (i, .inr a)) = 2 / 2 ^ 80 := fun a => ratio1 512 80
    have h4 : (2 * (slotShift (K := K) (.inr (i, .inl .blind)) : ℚ)) / slotSize (K := K) (.inr (i, .inl .blind)) = 2 / 2 ^ 80 := ratio1 2048 80
    have h5 : (2 * (slotShift (K := K) (.inr (i, .inl .e)) : ℚ)) / slotSize (K := K) (.inr (i, .inl .e)) = 2 / 2 ^ 81 := ratio1 375 81
    have h6 : (2 * (slotShift (K := K) (.inr (i, .inl .v)) : ℚ)) / slotSize (K := K) (.inr (i, .inl .v)) = 6 / 2 ^ 79 := by
      have := ratio 3 2981 79
      simp only [slotShift, slotSize, Nat.cast_mul, Nat.cast_pow, Nat.cast_ofNat]
      rw [show (6 : ℚ) = 2 * 3 by norm_num]
      exact this
    have h7 : (2 * (slotShift (K := K) (.inr (i, .inl .m2)) : ℚ)) / slotSize (K := K) (.inr (i, .inl .m2)) = 2 / 2 ^ 80 := ratio1 512 80
    rw [Finset.sum_congr rfl fun a _ => h3 a, h4, h5, h6, h7]
    simp only [Finset.sum_const, Finset.card_univ, Fintype.card_coe, nsmul_eq_mul]
    push_cast
    rw [add_div]
    have : (K.card : ℚ) * (2 / 2 ^ 80) = K.card / 2 ^ 79 := by
      rw [show (2 : ℚ) ^ 80 = 2 ^ 79 * 2 by norm_num]; field_simp
    rw [this]
    norm_num
    linarith
  rw [Finset.sum_congr rfl fun a _ => h1 a]
  refine (add_le_add le_rfl (Finset.sum_le_sum fun i _ => h2 i)).trans (le_of_eq ?_)
  simp only [Finset.sum_const, Finset.card_univ, Fintype.card_coe, Fintype.card_fin, nsmul_eq_mul]
  push_cast
  rw [show (2 : ℚ) ^ 80 = 2 ^ 79 * 2 by norm_num]
  field_simp
  ring

/-- Two holders with `k` credentials each, shown for the same requests: what the verifier is told (issuers, requests, revealed values) is the same; each holder has one value for
every common attribute. -/
structure SameView (K : Finset String) (names : List String) {k : Nat} (its1 its2 : Fin k → Item F G1 G2 GT) (val1 val2 : String → Int) : Prop where
  issued : ∀ i, ∃ (n : Nat) (S Z C : (ZMod n)ˣ) (R : String → (ZMod n)ˣ), Issued S Z C R (its1 i) ∧ Issued S Z C R (its2 i)
  plain : ∀ i, (its1 i).Plain ∧ (its2 i).Plain
  shown : ∀ i, SameShown (its1 i) (its2 i)
  known : ∀ a ∈ names, a ∈ K
  attrs : ∀ i, (its1 i).nonSchema ∪ (its1 i).schema ⊆ K
  common : ∀ i, ∀ a ∈ names, attrValue (its1 i).vals a = val1 a ∧ attrValue (its2 i).vals a = val2 a
  small : ∀ a ∈ names, (0 ≤ val1 a ∧ val1 a < 2 ^ 256) ∧ 0 ≤ val2 a ∧ val2 a < 2 ^ 256

theorem SameView.symm {K : Finset String} {names : List String} {k : Nat} {its1 its2 : Fin k → Item F G1 G2 GT} {val1 val2 : String → Int}
    (h : SameView K names its1 its2 val1 val2) : SameView K names its2 its1 val2 val1 where
  issued i := by obtain ⟨n, S, Z, C, R, h1, h2⟩ := h.issued i; exact ⟨n, S, Z, C, R, h2, h1⟩
  plain i := (h.plain i).symm
  shown i := ⟨(h.shown i).pk.symm, (h.shown i).schema.symm, (h.shown i).nonSchema.symm, (h.shown i).req.symm, fun a ha => ((h.shown i).shown a (by rw [(h.shown i).req]; exact ha)).symm⟩
  known := h.known
  attrs i := by rw [← (h.shown i).nonSchema, ← (h.shown i).schema]; exact h.attrs i
  common i a ha := (h.common i a ha).symm
  small a ha := (h.small a ha).symm

theorem forall₂_ofFn {α β : Type} {r : α → β → Prop} : ∀ {k : Nat} {f : Fin k → α} {g : Fin k → β}, (∀ i, r (f i) (g i)) → List.Forall₂ r (List.ofFn f) (List.ofFn g)
  | 0, f, g, h => by simp
  | k + 1, f, g, h => by
    rw [List.ofFn_succ, List.ofFn_succ]
    exact .cons (h 0) (forall₂_ofFn fun i => h i.succ)

/-- the difference of the signatures in the exponent -/
theorem blind_shift {n : Nat} {S Z C : (ZMod n)ˣ} {R : String → (ZMod n)ˣ} {it1 it2 : Item F G1 G2 GT} (h1 : Issued S Z C R it1) (h2 : Issued S Z C R it2) :
    ∃ d : Nat, d ≤ 2 ^ 2048 ∧ ∃ A1 A2 : (ZMod n)ˣ, Rep it1.sig.p.a A1 ∧ Rep it2.sig.p.a A2 ∧
      CLEquation S Z C R A1 it1.sig.p.e it1.sig.p.v it1.sig.p.m2 it1.vals ∧ CLEquation S Z C R A2 it2.sig.p.e it2.sig.p.v it2.sig.p.m2 it2.vals ∧
      ∀ r : Int, S ^ r * A1 = S ^ (r + d) * A2 := by
  obtain ⟨a1, r1, c1⟩ := h1.signed
  obtain ⟨a2, r2, c2⟩ := h2.signed
  have hn0 := neZero_of h1.key.hn
  have hpos : 0 < orderOf S := orderOf_pos S
  have hle : orderOf S ≤ n := by
    refine orderOf_le_card_univ.trans ?_
    rw [ZMod.card_units_eq_totient]
    exact Nat.totient_le n
  have h0 := Int.emod_nonneg (a1 - a2) (show (orderOf S : Int) ≠ 0 by omega)
  have hlt := Int.emod_lt_of_pos (a1 - a2) (show (0 : Int) < orderOf S by omega)
  refine ⟨((a1 - a2) % (orderOf S : Int)).toNat, ?_, S ^ a1, S ^ a2, r1, r2, c1, c2, fun r => ?_⟩
  · have : ((a1 - a2) % (orderOf S : Int)).toNat ≤ n := by omega
    exact this.trans h1.size.le
  · rw [Int.toNat_of_nonneg h0, zpow_add S r, zpow_mod_orderOf, mul_assoc, ← zpow_add S (a1 - a2), sub_add_cancel]

/-- the challenge of a presentation -/
def challengeOf (x : Res String (Proof F G1 G2)) : Int := match x with
  | .ok π => π.cHash
  | _ => 0

theorem present_challenge (e : G1 →ₗ[F] G2 →ₗ[F] GT) (cv : Conv F G1 G2 GT) (mode : Overflow) (sha : Bytes → Bytes) (ord ordF : SetOrder)
    (commons : List (String × Int)) (l : List (Item F G1 G2 GT)) (nonce : Int) (hsha : ∀ m, (sha m).length = 32) :
    0 ≤ challengeOf (present e cv mode sha ord ordF commons l nonce) ∧ challengeOf (present e cv mode sha ord ordF commons l nonce) < 2 ^ 256 := by
  have hz : (0 : Int) ≤ 0 ∧ (0 : Int) < 2 ^ 256 := ⟨le_rfl, pow_pos (by norm_num) _⟩
  cases hp : present e cv mode sha ord ordF commons l nonce with
  | err m => exact hz
  | panic => exact hz
  | ok π =>
    unfold present at hp
    simp only [] at hp
    obtain ⟨b, -, hp⟩ := Res.bind_eq_ok.1 hp
    unfold Builder.finalize at hp
    simp only [] at hp
    obtain ⟨sps, -, hp⟩ := Res.bind_eq_ok.1 hp
    simp only [Res.pure_eq, Res.ok.injEq] at hp
    have : challengeOf (Res.ok π : Res String (Proof F G1 G2)) = getHashAsInt sha (b.tauList ++ b.cList ++ [toBytes nonce]) := by rw [← hp]; rfl
    rw [this]
    exact ⟨getHashAsInt_nonneg _ _, getHashAsInt_lt hsha _⟩

/-- **C187**: presenting succeeds for every choice of random values. -/
theorem show_ok (e : G1 →ₗ[F] G2 →ₗ[F] GT) (cv : Conv F G1 G2 GT) (mode : Overflow) (sha : Bytes → Bytes) (ord ordF : SetOrder) (names : List String) {K : Finset String}
    {k : Nat} (its : Fin k → Item F G1 G2 GT) (nonce : Int) (ω : Draws (slotSize (K := K) (k := k)))
    (issued : ∀ i, ∃ (n : Nat) (S Z C : (ZMod n)ˣ) (R : String → (ZMod n)ˣ), Issued S Z C R (its i)) (plain : ∀ i, (its i).Plain) :
    ∃ π, show' e cv mode sha ord ordF names its nonce ω = .ok π := by
  obtain ⟨i1, k1, t1, -⟩ := builder_commons (names.map fun a => (a, commonRand ω a)) (Builder.new : Builder F G1 G2 GT)
  unfold show' present
  simp only []
  generalize hb1 : (names.map fun a => (a, commonRand ω a)).foldl (fun b c => b.addCommonAttribute c.1 c.2) (Builder.new : Builder F G1 G2 GT) = b1 at *
  have key : ∀ c : Int, List.Forall₂ (Matched c b1.common b1.common) (List.ofFn fun i => { its i with rnd := eqRand ω i })
      (List.ofFn fun i => { its i with rnd := eqRand ω i }) := by
    intro c
    refine forall₂_ofFn fun i => ?_
    obtain ⟨n, S, Z, C, R, h⟩ := issued i
    obtain ⟨a, ha, hc⟩ := h.signed
    have h' : Issued S Z C R { its i with rnd := eqRand ω i } := ⟨h.key, h.size, h.signed, h.exponent, h.blinding, h.context, h.values, h.distinct, h.noCommitment, h.attrs,
      h.covered, h.revealed⟩
    exact ⟨n, S, Z, C, R, S ^ a, S ^ a, h', h', plain i, plain i, ⟨rfl, rfl, rfl, rfl, fun _ _ => rfl⟩, ha, ha, hc, hc, rfl,
      ⟨by ring, by ring, by ring, fun k _ => by ring⟩⟩
  obtain ⟨inis, -, cl, tl, -, y, -, -, -⟩ := matched_items e cv mode ord ordF 0 b1.common b1.common _ _ (key 0) b1 b1 rfl rfl
  obtain ⟨inis', -, cl', tl', sps, y', -, g, -⟩ := matched_items e cv mode ord ordF (getHashAsInt sha ((b1.tauList ++ tl) ++ (b1.cList ++ cl) ++ [toBytes nonce])) b1.common b1.common _ _
    (key _) b1 b1 rfl rfl
  have hi : b1.inits = [] := i1
  have : inis = inis' := by
    have := y.symm.trans y'
    simp only [Res.ok.injEq, Builder.mk.injEq, hi, List.nil_append] at this
    exact this.2.1
  subst this
  rw [y, Res.ok_bind]
  unfold Builder.finalize
  simp only [hi, List.nil_append]
  rw [g]
  exact ⟨_, rfl⟩

/-- a drawn number is below the bound of its range -/
theorem num_le {K : Finset String} {k : Nat} (ω : Draws (slotSize (K := K) (k := k))) (s : Slot K k) (b : Nat) (h : slotSize (K := K) (k := k) s = 2 ^ b) :
    num ω s ≤ 2 ^ b := by
  have := (ω s).isLt.le.trans (le_of_eq h)
  unfold num
  have h' : (((ω s : Fin _) : Nat) : Int) ≤ ((2 ^ b : Nat) : Int) := Int.ofNat_le.2 this
  rwa [Nat.cast_pow] at h'

/-- the exponents of a signature have 597 bits -/
theorem exponent_le : (2 : Int) ^ 596 + 2 ^ 119 ≤ 2 ^ 597 := by
  rw [show (2 : Int) ^ 597 = 2 ^ 596 * 2 from pow_succ 2 596]
  have : (2 : Int) ^ 119 ≤ 2 ^ 596 := pow_le_pow_right₀ (by norm_num) (by norm_num)
  generalize (2 : Int) ^ 596 = X at *
  generalize (2 : Int) ^ 119 = Y at *
  linarith

/-- how far the mask of the blinded signature moves -/
theorem v_shift_bound {c e1 e2 v1 v2 r d C E R D : Int} (hc : 0 ≤ c ∧ c ≤ C) (he1 : 0 ≤ e1 ∧ e1 ≤ E) (he2 : 0 ≤ e2 ∧ e2 ≤ E) (hr : 0 ≤ r ∧ r ≤ R) (hd : 0 ≤ d ∧ d ≤ D)
    (hD : D ≤ R) (hv1 : 0 ≤ v1 ∧ v1 ≤ E * R) (hv2 : 0 ≤ v2 ∧ v2 ≤ E * R) : |c * ((v1 - e1 * r) - (v2 - e2 * (r + d)))| ≤ C * (3 * (E * R)) := by
  have q1 : 0 ≤ e1 * r := mul_nonneg he1.1 hr.1
  have q2 : e1 * r ≤ E * R := mul_le_mul he1.2 hr.2 hr.1 (he1.1.trans he1.2)
  have q3 : 0 ≤ e2 * (r + d) := mul_nonneg he2.1 (add_nonneg hr.1 hd.1)
  have q4 : e2 * (r + d) ≤ E * (R + R) := mul_le_mul he2.2 (add_le_add hr.2 (hd.2.trans hD)) (add_nonneg hr.1 hd.1) (he2.1.trans he2.2)
  have := shift_bound (x := v1 + e2 * (r + d)) (y := v2 + e1 * r) (X := 3 * (E * R)) (C := C) hc
    ⟨add_nonneg hv1.1 q3, by linarith⟩ ⟨add_nonneg hv2.1 q1, by linarith⟩
  refine le_trans (le_of_eq ?_) this
  congr 1
  ring

/-- one direction of `cl_hiding` -/
theorem cl_hiding_le (e : G1 →ₗ[F] G2 →ₗ[F] GT) (cv : Conv F G1 G2 GT) (mode : Overflow) (sha : Bytes → Bytes) (hsha : ∀ m, (sha m).length = 32) (ord ordF : SetOrder)
    (names : List String) (K : Finset String) {k : Nat} (its1 its2 : Fin k → Item F G1 G2 GT) (val1 val2 : String → Int) (same : SameView K names its1 its2 val1 val2)
    (nonce : Int) (P : Res String (Proof F G1 G2) → Prop) :
    prob (slotSize (K := K) (k := k)) (show' e cv mode sha ord ordF names its1 nonce) P ≤
      prob (slotSize (K := K) (k := k)) (show' e cv mode sha ord ordF names its2 nonce) P + (((k + 1) * K.card + 9 * k : Nat) : ℚ) / 2 ^ 79 := by
  choose n S Z C R hI1 hI2 using same.issued
  choose d hd A1 A2 hA1 hA2 hc1 hc2 hA using fun i => blind_shift (hI1 i) (hI2 i)
  set f : Draws (slotSize (K := K) (k := k)) → Res String (Proof F G1 G2) := show' e cv mode sha ord ordF names its1 nonce with hf
  set g : Draws (slotSize (K := K) (k := k)) → Res String (Proof F G1 G2) := show' e cv mode sha ord ordF names its2 nonce with hg
  have hch : ∀ ω, 0 ≤ challengeOf (f ω) ∧ challengeOf (f ω) < 2 ^ 256 := fun ω => present_challenge e cv mode sha ord ordF _ _ nonce hsha
  -- the shift
  let φ : Draws (slotSize (K := K) (k := k)) → Slot K k → Int := fun ω s => match s with
    | .inl a => num ω (.inl a) + (if a.1 ∈ names then challengeOf (f ω) * (val1 a - val2 a) else 0)
    | .inr (i, .inl .blind) => num ω (.inr (i, .inl .blind)) + d i
    | .inr (i, .inl .e) => num ω (.inr (i, .inl .e)) + challengeOf (f ω) * ((its1 i).sig.p.e - (its2 i).sig.p.e)
    | .inr (i, .inl .v) => num ω (.inr (i, .inl .v)) + challengeOf (f ω) * (((its1 i).sig.p.v - (its1 i).sig.p.e * num ω (.inr (i, .inl .blind))) -
        ((its2 i).sig.p.v - (its2 i).sig.p.e * (num ω (.inr (i, .inl .blind)) + d i)))
    | .inr (i, .inl .m2) => num ω (.inr (i, .inl .m2)) + challengeOf (f ω) * ((its1 i).sig.p.m2 - (its2 i).sig.p.m2)
    | .inr (i, .inr a) => num ω (.inr (i, .inr a)) + challengeOf (f ω) * (attrValue (its1 i).vals a - attrValue (its2 i).vals a)
  have p512 : (2 : Int) ^ 256 * 2 ^ 256 = ((2 ^ 512 : Nat) : Int) := by rw [← pow_add, Nat.cast_pow]; rfl
  have h := prob_shift (slotSize (K := K) (k := k)) slotShift (by
      intro s
      rcases s with a | ⟨i, (_ | _ | _ | _) | a⟩ <;> exact pow_pos (by norm_num) _) f g φ ?_ ?_ ?_ P
  · exact h.trans (add_le_add le_rfl (slot_sum K k))
  · -- the shift is bounded
    intro ω s
    have hc := hch ω
    rcases s with a | ⟨i, (_ | _ | _ | _) | a⟩
    · show |num ω (.inl a) + (if a.1 ∈ names then challengeOf (f ω) * (val1 a - val2 a) else 0) - num ω (.inl a)| ≤ ((2 ^ 512 : Nat) : Int)
      rw [add_sub_cancel_left]
      by_cases hn : a.1 ∈ names
      · rw [if_pos hn, ← p512]
        obtain ⟨h1, h2⟩ := same.small _ hn
        exact shift_bound ⟨hc.1, hc.2.le⟩ ⟨h1.1, h1.2.le⟩ ⟨h2.1, h2.2.le⟩
      · rw [if_neg hn, abs_zero]; exact Int.natCast_nonneg _
    · show |num ω (.inr (i, .inl .blind)) + d i - num ω (.inr (i, .inl .blind))| ≤ ((2 ^ 2048 : Nat) : Int)
      rw [add_sub_cancel_left, abs_of_nonneg (Int.natCast_nonneg _)]
      exact_mod_cast hd i
    · show |num ω (.inr (i, .inl .e)) + challengeOf (f ω) * ((its1 i).sig.p.e - (its2 i).sig.p.e) - num ω (.inr (i, .inl .e))| ≤ ((2 ^ 375 : Nat) : Int)
      have p375 : (2 : Int) ^ 256 * 2 ^ 119 = ((2 ^ 375 : Nat) : Int) := by rw [← pow_add, Nat.cast_pow]; rfl
      rw [add_sub_cancel_left, ← p375]
      have e1 := (hI1 i).exponent
      have e2 := (hI2 i).exponent
      have := shift_bound (x := (its1 i).sig.p.e - 2 ^ 596) (y := (its2 i).sig.p.e - 2 ^ 596) (X := 2 ^ 119) ⟨hc.1, hc.2.le⟩
        ⟨sub_nonneg.2 e1.1, sub_le_iff_le_add'.2 e1.2⟩ ⟨sub_nonneg.2 e2.1, sub_le_iff_le_add'.2 e2.2⟩
      rwa [sub_sub_sub_cancel_right] at this
    · show |num ω (.inr (i, .inl .v)) + challengeOf (f ω) * (((its1 i).sig.p.v - (its1 i).sig.p.e * num ω (.inr (i, .inl .blind))) -
        ((its2 i).sig.p.v - (its2 i).sig.p.e * (num ω (.inr (i, .inl .blind)) + d i))) - num ω (.inr (i, .inl .v))| ≤ ((3 * 2 ^ 2981 : Nat) : Int)
      have p2981 : (2 : Int) ^ 256 * (3 * 2 ^ 2725) = ((3 * 2 ^ 2981 : Nat) : Int) := by
        rw [mul_left_comm, ← pow_add, Nat.cast_mul, Nat.cast_pow]; rfl
      rw [add_sub_cancel_left, ← p2981]
      have hr0 : 0 ≤ num ω (.inr (i, .inl .blind)) := Int.natCast_nonneg _
      have hr1 : num ω (.inr (i, .inl .blind)) ≤ 2 ^ 2128 := num_le ω (.inr (i, .inl .blind)) 2128 rfl
      rw [show (2 : Int) ^ 2725 = 2 ^ 597 * 2 ^ 2128 from pow_add 2 597 2128]
      have hz : (0 : Int) ≤ 2 ^ 596 := (pow_pos (by norm_num) _).le
      have e1 := (hI1 i).exponent
      have e2 := (hI2 i).exponent
      have v1 := (hI1 i).blinding
      have v2 := (hI2 i).blinding
      rw [show (2 : Int) ^ 2725 = 2 ^ 597 * 2 ^ 2128 from pow_add 2 597 2128] at v1 v2
      exact v_shift_bound ⟨hc.1, hc.2.le⟩ ⟨hz.trans e1.1, e1.2.trans exponent_le⟩ ⟨hz.trans e2.1, e2.2.trans exponent_le⟩ ⟨hr0, hr1⟩
        ⟨Int.natCast_nonneg _, (show (d i : Int) ≤ 2 ^ 2048 by exact_mod_cast hd i)⟩ (pow_le_pow_right₀ (by norm_num) (by norm_num)) ⟨v1.1, v1.2.le⟩ ⟨v2.1, v2.2.le⟩
    · show |num ω (.inr (i, .inl .m2)) + challengeOf (f ω) * ((its1 i).sig.p.m2 - (its2 i).sig.p.m2) - num ω (.inr (i, .inl .m2))| ≤ ((2 ^ 512 : Nat) : Int)
      rw [add_sub_cancel_left, ← p512]
      exact shift_bound ⟨hc.1, hc.2.le⟩ ⟨(hI1 i).context.1, (hI1 i).context.2.le⟩ ⟨(hI2 i).context.1, (hI2 i).context.2.le⟩
    · show |num ω (.inr (i, .inr a)) + challengeOf (f ω) * (attrValue (its1 i).vals a - attrValue (its2 i).vals a) - num ω (.inr (i, .inr a))| ≤ ((2 ^ 512 : Nat) : Int)
      rw [add_sub_cancel_left, ← p512]
      exact shift_bound ⟨hc.1, hc.2.le⟩ ⟨((hI1 i).values a).1, ((hI1 i).values a).2.le⟩ ⟨((hI2 i).values a).1, ((hI2 i).values a).2.le⟩
  · -- the same proof
    intro ω ω' hω
    have hω : ∀ s, num ω' s = φ ω s := hω
    obtain ⟨π, hπ⟩ := show_ok e cv mode sha ord ordF names its1 nonce ω (fun i => ⟨_, _, _, _, _, hI1 i⟩) (fun i => (same.plain i).1)
    have hfω : f ω = .ok π := hπ
    have hc : challengeOf (f ω) = π.cHash := by rw [hfω]; rfl
    rw [hfω]
    refine matched_present e cv mode sha ord ordF names (commonRand ω) (commonRand ω') _ _ nonce π hπ fun com1 com2 l1 l2 => ?_
    refine forall₂_ofFn fun i => ?_
    have h1 := hI1 i
    have h2 := hI2 i
    have h1' : Issued (S i) (Z i) (C i) (R i) { its1 i with rnd := eqRand ω i } := ⟨h1.key, h1.size, h1.signed, h1.exponent, h1.blinding, h1.context, h1.values, h1.distinct,
      h1.noCommitment, h1.attrs, h1.covered, h1.revealed⟩
    have h2' : Issued (S i) (Z i) (C i) (R i) { its2 i with rnd := eqRand ω' i } := ⟨h2.key, h2.size, h2.signed, h2.exponent, h2.blinding, h2.context, h2.values, h2.distinct,
      h2.noCommitment, h2.attrs, h2.covered, h2.revealed⟩
    have ss := same.shown i
    have er : (eqRand ω' i).r = (eqRand ω i).r + d i := hω (.inr (i, .inl .blind))
    refine ⟨n i, S i, Z i, C i, R i, A1 i, A2 i, h1', h2', (same.plain i).1, (same.plain i).2, ⟨ss.pk, ss.schema, ss.nonSchema, ss.req, ss.shown⟩, hA1 i, hA2 i, hc1 i, hc2 i, ?_, ?_⟩
    · show S i ^ (eqRand ω i).r * A1 i = S i ^ (eqRand ω' i).r * A2 i
      rw [er]
      exact hA i _
    · refine ⟨?_, ?_, ?_, ?_⟩
      · show (eqRand ω' i).eT = (eqRand ω i).eT + π.cHash * ((its1 i).sig.p.e - (its2 i).sig.p.e)
        rw [← hc]
        exact hω (.inr (i, .inl .e))
      · show (eqRand ω' i).vT = (eqRand ω i).vT + π.cHash * (((its1 i).sig.p.v - (its1 i).sig.p.e * (eqRand ω i).r) - ((its2 i).sig.p.v - (its2 i).sig.p.e * (eqRand ω' i).r))
        rw [← hc, er]
        exact hω (.inr (i, .inl .v))
      · show (eqRand ω' i).m2T = (eqRand ω i).m2T + π.cHash * ((its1 i).sig.p.m2 - (its2 i).sig.p.m2)
        rw [← hc]
        exact hω (.inr (i, .inl .m2))
      · intro a ha
        show mTildeOf com2 (eqRand ω' i).mT a = mTildeOf com1 (eqRand ω i).mT a + π.cHash * (attrValue (its1 i).vals a - attrValue (its2 i).vals a)
        have haK : a ∈ K := same.attrs i (Finset.mem_sdiff.1 ha).1
        unfold mTildeOf
        rw [l1, l2, ← hc]
        by_cases hn : a ∈ names
        · rw [if_pos hn, if_pos hn, Option.getD_some, Option.getD_some, (same.common i a hn).1, (same.common i a hn).2]
          unfold commonRand
          rw [dif_pos haK, dif_pos haK, hω (.inl ⟨a, haK⟩)]
          show num ω (.inl ⟨a, haK⟩) + (if a ∈ names then challengeOf (f ω) * (val1 a - val2 a) else 0) = _
          rw [if_pos hn]
        · rw [if_neg hn, if_neg hn, Option.getD_none, Option.getD_none]
          unfold eqRand
          simp only [dif_pos haK]
          exact hω (.inr (i, .inr ⟨a, haK⟩))
  · -- the shift can be undone
    intro ω1 ω2 hf12 hφ
    have hs : ∀ s, φ ω1 s = φ ω2 s := fun s => congrFun hφ s
    have hn : ∀ s, num ω1 s = num ω2 s := by
      have hb : ∀ i, num ω1 (.inr (i, .inl .blind)) = num ω2 (.inr (i, .inl .blind)) := fun i => by
        have := hs (.inr (i, .inl .blind))
        exact add_right_cancel this
      intro s
      have h0 := hs s
      rcases s with a | ⟨i, (_ | _ | _ | _) | a⟩
      · simp only [φ, hf12] at h0; exact add_right_cancel h0
      · exact hb i
      · simp only [φ, hf12] at h0; exact add_right_cancel h0
      · simp only [φ, hf12, hb i] at h0; exact add_right_cancel h0
      · simp only [φ, hf12] at h0; exact add_right_cancel h0
      · simp only [φ, hf12] at h0; exact add_right_cancel h0
    funext s
    have := hn s
    unfold num at this
    exact Fin.ext (by exact_mod_cast this)

/-- **C187.** Two holders whose credentials the verifier cannot tell apart by what he asked for (same issuers, same requests without predicates and without non-revocation, same
revealed values) give presentations that are statistically indistinguishable: the probabilities of any property `P` of the presentation, however hard to decide, differ by at
most `((k + 1) |K| + 9 k) / 2^79` for `k` credentials with attributes `K`, whatever hash function is used, with the challenge of the presentation itself. -/
theorem cl_hiding (e : G1 →ₗ[F] G2 →ₗ[F] GT) (cv : Conv F G1 G2 GT) (mode : Overflow) (sha : Bytes → Bytes) (hsha : ∀ m, (sha m).length = 32) (ord ordF : SetOrder)
    (names : List String) (K : Finset String) {k : Nat} (its1 its2 : Fin k → Item F G1 G2 GT) (val1 val2 : String → Int) (same : SameView K names its1 its2 val1 val2)
    (nonce : Int) (P : Res String (Proof F G1 G2) → Prop) :
    |prob (slotSize (K := K) (k := k)) (show' e cv mode sha ord ordF names its1 nonce) P - prob (slotSize (K := K) (k := k)) (show' e cv mode sha ord ordF names its2 nonce) P| ≤
      (((k + 1) * K.card + 9 * k : Nat) : ℚ) / 2 ^ 79 := by
  have h1 := cl_hiding_le e cv mode sha hsha ord ordF names K its1 its2 val1 val2 same nonce P
  have h2 := cl_hiding_le e cv mode sha hsha ord ordF names K its2 its1 val2 val1 same.symm nonce P
  rw [abs_le]
  exact ⟨by linarith, by linarith⟩

end

/-! ## Many presentations -/

section Mean
variable {ι : Type} [Fintype ι] [DecidableEq ι] {X : Type}

/-- the mean of a number that depends on the draw -/
noncomputable def mean (N : ι → Nat) (f : Draws N → ℚ) : ℚ := (∑ ω, f ω) / (Fintype.card (Draws N) : ℚ)

open Classical in
theorem sum_outcomes (N : ι → Nat) (f : Draws N → X) (h : X → ℚ) (T : Finset X) (hT : ∀ ω, f ω ∈ T) :
    ∑ ω, h (f ω) = ∑ x ∈ T, ((Finset.univ.filter fun ω => f ω = x).card : ℚ) * h x := by
  rw [← Finset.sum_fiberwise_of_maps_to (s := Finset.univ) (t := T) (g := f) (fun ω _ => hT ω)]
  refine Finset.sum_congr rfl fun x _ => ?_
  rw [Finset.sum_congr rfl (g := fun _ => h x) (fun ω hω => by rw [(Finset.mem_filter.1 hω).2]), Finset.sum_const, nsmul_eq_mul]

open Classical in
theorem card_outcomes (N : ι → Nat) (f : Draws N → X) (P : X → Prop) (T : Finset X) (hT : ∀ ω, f ω ∈ T) :
    ((Finset.univ.filter fun ω => P (f ω)).card : ℚ) = ∑ x ∈ T.filter P, ((Finset.univ.filter fun ω => f ω = x).card : ℚ) := by
  have := sum_outcomes N f (fun x => if P x then 1 else 0) T hT
  simp only [mul_ite, mul_one, mul_zero] at this
  rw [Finset.sum_filter, ← this, Finset.sum_boole]

/-- a number between 0 and 1 that is computed from the outcome has nearly the same mean when no event has very different probabilities -/
theorem mean_close (N : ι → Nat) (hN : ∀ i, 0 < N i) (f g : Draws N → X) (δ ε : ℚ) (hfg : ∀ P, prob N f P ≤ prob N g P + δ) (h1 h2 : X → ℚ)
    (h0 : ∀ x, 0 ≤ h1 x ∧ h1 x ≤ 1) (h12 : ∀ x, h1 x ≤ h2 x + ε) : mean N (fun ω => h1 (f ω)) ≤ mean N (fun ω => h2 (g ω)) + (δ + ε) := by
  classical
  have hne : Nonempty (Draws N) := ⟨fun i => ⟨0, hN i⟩⟩
  have hc : (0 : ℚ) < (Fintype.card (Draws N) : ℚ) := by exact_mod_cast Fintype.card_pos
  let T : Finset X := Finset.univ.image f ∪ Finset.univ.image g
  have tf : ∀ ω, f ω ∈ T := fun ω => Finset.mem_union_left _ (Finset.mem_image_of_mem _ (Finset.mem_univ _))
  have tg : ∀ ω, g ω ∈ T := fun ω => Finset.mem_union_right _ (Finset.mem_image_of_mem _ (Finset.mem_univ _))
  let a : X → ℚ := fun x => ((Finset.univ.filter fun ω => f ω = x).card : ℚ)
  let b : X → ℚ := fun x => ((Finset.univ.filter fun ω => g ω = x).card : ℚ)
  let P : X → Prop := fun x => b x ≤ a x
  have hP := hfg P
  unfold prob at hP
  rw [card_outcomes N f P T tf, card_outcomes N g P T tg, div_add' _ _ _ hc.ne', div_le_div_iff_of_pos_right hc] at hP
  have m1 : ∑ ω, h1 (f ω) - ∑ ω, h1 (g ω) ≤ δ * (Fintype.card (Draws N) : ℚ) := by
    rw [sum_outcomes N f h1 T tf, sum_outcomes N g h1 T tg, ← Finset.sum_sub_distrib]
    have : ∀ x ∈ T, a x * h1 x - b x * h1 x ≤ if P x then a x - b x else 0 := by
      intro x _
      by_cases hx : P x
      · rw [if_pos hx, ← sub_mul]
        exact mul_le_of_le_one_right (sub_nonneg.2 hx) (h0 x).2
      · rw [if_neg hx, ← sub_mul]
        exact mul_nonpos_of_nonpos_of_nonneg (sub_nonpos.2 (not_le.1 hx).le) (h0 x).1
    refine (Finset.sum_le_sum this).trans ?_
    rw [← Finset.sum_filter, Finset.sum_sub_distrib]
    refine sub_le_iff_le_add'.2 ?_
    convert hP
  have m2 : ∑ ω, h1 (g ω) ≤ ∑ ω, h2 (g ω) + ε * (Fintype.card (Draws N) : ℚ) := by
    refine (Finset.sum_le_sum fun ω _ => h12 (g ω)).trans (le_of_eq ?_)
    rw [Finset.sum_add_distrib, Finset.sum_const, nsmul_eq_mul, Finset.card_univ, mul_comm ε]
  unfold mean
  rw [div_add' _ _ _ hc.ne', div_le_div_iff_of_pos_right hc, add_mul]
  linarith

theorem mean_unit (N : ι → Nat) (f : Draws N → ℚ) (h : ∀ ω, 0 ≤ f ω ∧ f ω ≤ 1) : 0 ≤ mean N f ∧ mean N f ≤ 1 := by
  unfold mean
  refine ⟨div_nonneg (Finset.sum_nonneg fun ω _ => (h ω).1) (Nat.cast_nonneg _), div_le_one_of_le₀ ?_ (Nat.cast_nonneg _)⟩
  refine (Finset.sum_le_sum fun ω _ => (h ω).2).trans (le_of_eq ?_)
  rw [Finset.sum_const, nsmul_eq_mul, mul_one, Finset.card_univ]

end Mean

section Sessions
variable {F G1 G2 GT : Type} [Field F] [AddCommGroup G1] [Module F G1] [AddCommGroup G2] [Module F G2]
  [AddCommGroup GT] [Module F GT]

/-- What an observer does who talks to holders: he asks for presentations (for requests and with nonces of his choice, that may depend on all he has seen), and ends with a yes or
no.  For every presentation there are two worlds: in one it is made with the credentials `its true`, in the other with `its false`. -/
inductive Observer (F G1 G2 GT : Type) : Type where
  | answer (yes : Bool)
  | ask (K : Finset String) (names : List String) (k : Nat) (its : Bool → Fin k → Item F G1 G2 GT) (nonce : Int)
      (next : Res String (Proof F G1 G2) → Observer F G1 G2 GT)

/-- the observer asks for at most `n` presentations, of a size bounded by `M`; in the two worlds the credentials look the same by what is asked for -/
def Observer.Fair (M : Nat) : Nat → Observer F G1 G2 GT → Prop
  | _, .answer _ => True
  | 0, .ask _ _ _ _ _ _ => False
  | n + 1, .ask K names k its _ next => (∃ val1 val2, SameView K names (its true) (its false) val1 val2) ∧ (k + 1) * K.card + 9 * k ≤ M ∧ ∀ x, (next x).Fair M n

/-- the probability of the answer yes in world `w`; the holders draw fresh random values for every presentation -/
noncomputable def Observer.yes (e : G1 →ₗ[F] G2 →ₗ[F] GT) (cv : Conv F G1 G2 GT) (mode : Overflow) (sha : Bytes → Bytes) (ord ordF : SetOrder) (w : Bool) : Observer F G1 G2 GT → ℚ
  | .answer y => if y then 1 else 0
  | .ask K names k its nonce next => mean (slotSize (K := K) (k := k)) (fun ω => (next (show' e cv mode sha ord ordF names (its w) nonce ω)).yes e cv mode sha ord ordF w)

theorem yes_unit (e : G1 →ₗ[F] G2 →ₗ[F] GT) (cv : Conv F G1 G2 GT) (mode : Overflow) (sha : Bytes → Bytes) (ord ordF : SetOrder) (w : Bool) (o : Observer F G1 G2 GT) :
    0 ≤ o.yes e cv mode sha ord ordF w ∧ o.yes e cv mode sha ord ordF w ≤ 1 := by
  induction o with
  | answer y => unfold Observer.yes; cases y <;> norm_num
  | ask K names k its nonce next ih => unfold Observer.yes; exact mean_unit _ _ fun ω => ih _

/-- **C187**, many presentations: an observer who asks for `n` presentations, adaptively, can hardly tell whose credentials are shown.  In particular he can hardly tell whether two
presentations come from the same credential or from two. -/
theorem cl_unlinkable (e : G1 →ₗ[F] G2 →ₗ[F] GT) (cv : Conv F G1 G2 GT) (mode : Overflow) (sha : Bytes → Bytes) (hsha : ∀ m, (sha m).length = 32) (ord ordF : SetOrder)
    (M n : Nat) (o : Observer F G1 G2 GT) (fair : o.Fair M n) :
    |o.yes e cv mode sha ord ordF true - o.yes e cv mode sha ord ordF false| ≤ (n * M : ℚ) / 2 ^ 79 := by
  have key : ∀ (o : Observer F G1 G2 GT) (n : Nat), o.Fair M n → ∀ w, o.yes e cv mode sha ord ordF w ≤ o.yes e cv mode sha ord ordF (!w) + (n * M : ℚ) / 2 ^ 79 := by
    intro o
    induction o with
    | answer y =>
      intro n _ w
      unfold Observer.yes
      have : (0 : ℚ) ≤ (n * M : ℚ) / 2 ^ 79 := by positivity
      linarith
    | ask K names k its nonce next ih =>
      intro n hf w
      cases n with
      | zero => exact absurd hf (by unfold Observer.Fair; exact id)
      | succ n =>
        unfold Observer.Fair at hf
        obtain ⟨⟨val1, val2, same⟩, hM, hn⟩ := hf
        unfold Observer.yes
        have hδ : ∀ P, prob (slotSize (K := K) (k := k)) (show' e cv mode sha ord ordF names (its w) nonce) P ≤
            prob (slotSize (K := K) (k := k)) (show' e cv mode sha ord ordF names (its !w) nonce) P + (M : ℚ) / 2 ^ 79 := by
          intro P
          have hb : (((k + 1) * K.card + 9 * k : Nat) : ℚ) / 2 ^ 79 ≤ (M : ℚ) / 2 ^ 79 := by
            gcongr
          cases w
          · exact (cl_hiding_le e cv mode sha hsha ord ordF names K _ _ _ _ same.symm nonce P).trans (add_le_add le_rfl hb)
          · exact (cl_hiding_le e cv mode sha hsha ord ordF names K _ _ _ _ same nonce P).trans (add_le_add le_rfl hb)
        refine (mean_close _ ?_ _ _ _ ((n * M : ℚ) / 2 ^ 79) hδ _ _ (fun x => yes_unit e cv mode sha ord ordF w (next x)) (fun x => ih x n (hn x) w)).trans (le_of_eq ?_)
        · intro s
          rcases s with a | ⟨i, (_ | _ | _ | _) | a⟩ <;> exact pow_pos (by norm_num) _
        · push_cast; ring
  have h1 := key o n fair true
  have h2 := key o n fair false
  simp only [Bool.not_true, Bool.not_false] at h1 h2
  rw [abs_le]
  exact ⟨by linarith, by linarith⟩

end Sessions

namespace Toy77

/-- two credentials of the same issuer with different holders, contexts and ages, and exponents of the size that the issuer uses -/
def vals1 : Map CredentialValue := [("master_secret", .hidden 6), ("name", .known 3), ("age", .known 28)]
def vals2 : Map CredentialValue := [("master_secret", .hidden 8), ("name", .known 3), ("age", .known 41)]
def sig1 : PrimarySig := ⟨3, 16, 2 ^ 596 + 21, 5⟩
def sig2 : PrimarySig := ⟨4, 64, 2 ^ 596 + 25, 6⟩

theorem pow30 (x : (ZMod 77)ˣ) : x ^ 30 = 1 := by
  have : ∀ y : ZMod 77, y * y⁻¹ = 1 → y ^ 30 = 1 := by decide +kernel
  ext
  rw [Units.val_pow_eq_pow_val, Units.val_one]
  exact this _ (ZMod.mul_inv_of_unit _ x.isUnit)

theorem zpow30 (x : (ZMod 77)ˣ) (k : Int) : x ^ k = x ^ (k % 30).toNat := by
  have h0 : 0 ≤ k % 30 := Int.emod_nonneg _ (by decide)
  conv_lhs => rw [← Int.mul_ediv_add_emod k 30, zpow_add, zpow_mul, show x ^ (30 : Int) = 1 from pow30 x, one_zpow, one_mul]
  rw [← zpow_natCast, Int.toNat_of_nonneg h0]

theorem signed1 : CLEquation (u 4) (u 9) (u 16) R (u 4 ^ (2 : Int)) sig1.e sig1.v sig1.m2 vals1 := by
  unfold CLEquation attrProd signedAttrs
  have h1 : vals1.filter (fun e => e.2.isKnown || e.2.isHidden) = vals1 := by decide
  have h2 : (sig1.e % 30).toNat = 7 := by decide +kernel
  rw [h1, zpow30 _ sig1.e, h2]
  simp only [sig1, vals1, List.map_cons, List.map_nil, List.prod_cons, List.prod_nil, CredentialValue.value, mul_one, zpow30]
  ext
  decide +kernel

theorem signed2 : CLEquation (u 4) (u 9) (u 16) R (u 4 ^ (3 : Int)) sig2.e sig2.v sig2.m2 vals2 := by
  unfold CLEquation attrProd signedAttrs
  have h1 : vals2.filter (fun e => e.2.isKnown || e.2.isHidden) = vals2 := by decide
  have h2 : (sig2.e % 30).toNat = 11 := by decide +kernel
  rw [h1, zpow30 _ sig2.e, h2]
  simp only [sig2, vals2, List.map_cons, List.map_nil, List.prod_cons, List.prod_nil, CredentialValue.value, mul_one, zpow30]
  ext
  decide +kernel

variable (F G1 G2 GT : Type) [Zero F]

/-- show `name` -/
def item1 : Item F G1 G2 GT := { item F G1 G2 GT with sig := ⟨sig1, none⟩, vals := vals1, req := ⟨{"name"}, []⟩ }
def item2 : Item F G1 G2 GT := { item F G1 G2 GT with sig := ⟨sig2, none⟩, vals := vals2, req := ⟨{"name"}, []⟩ }

end Toy77

section
variable {F G1 G2 GT : Type} [Field F] [AddCommGroup G1] [Module F G1] [AddCommGroup G2] [Module F G2]
  [AddCommGroup GT] [Module F GT]

theorem toy_value {vals : Map CredentialValue} (h : ∀ k ∈ vals.map (·.1), 0 ≤ attrValue vals k ∧ attrValue vals k < 2 ^ 256) (k : String) :
    0 ≤ attrValue vals k ∧ attrValue vals k < 2 ^ 256 := by
  by_cases hk : k ∈ vals.map (·.1)
  · exact h k hk
  · have : vals.lookup k = none := by
      rw [List.lookup_eq_none_iff]
      intro p hp
      simp only [bne_iff_ne, ne_eq, beq_eq_false_iff_ne]
      intro he
      exact hk (by rw [he]; exact List.mem_map_of_mem hp)
    unfold attrValue
    simp only [this]
    decide

theorem toy_issued1 : Issued (Toy77.u 4) (Toy77.u 9) (Toy77.u 16) Toy77.R (Toy77.item1 F G1 G2 GT) where
  key := Toy77.key
  size := by decide +kernel
  signed := ⟨2, (⟨by decide, by decide +kernel⟩ : Rep (16 : Int) (Toy77.u 4 ^ (2 : Int))), Toy77.signed1⟩
  exponent := by show (2 : Int) ^ 596 ≤ 2 ^ 596 + 21 ∧ (2 : Int) ^ 596 + 21 ≤ 2 ^ 596 + 2 ^ 119; decide +kernel
  blinding := by show (0 : Int) ≤ 5 ∧ (5 : Int) < 2 ^ 2725; decide +kernel
  context := by show (0 : Int) ≤ 3 ∧ (3 : Int) < 2 ^ 256; decide +kernel
  values := toy_value (vals := Toy77.vals1) (by decide)
  distinct := by show (Toy77.vals1.map (·.1)).Nodup; decide
  noCommitment := by show ∀ a ∈ Toy77.vals1, a.2.isCommitment = false; decide
  attrs := by show ({"master_secret"} ∪ {"name", "age"} : Finset String) = (Toy77.vals1.map (·.1)).toFinset; decide
  covered := by show ∀ k ∈ Toy77.vals1.map (·.1), Toy77.pk.r.hasKey k = true; decide
  revealed := by show ({"name"} : Finset String) ⊆ {"name", "age"}; decide

theorem toy_issued2 : Issued (Toy77.u 4) (Toy77.u 9) (Toy77.u 16) Toy77.R (Toy77.item2 F G1 G2 GT) where
  key := Toy77.key
  size := by decide +kernel
  signed := ⟨3, (⟨by decide, by decide +kernel⟩ : Rep (64 : Int) (Toy77.u 4 ^ (3 : Int))), Toy77.signed2⟩
  exponent := by show (2 : Int) ^ 596 ≤ 2 ^ 596 + 25 ∧ (2 : Int) ^ 596 + 25 ≤ 2 ^ 596 + 2 ^ 119; decide +kernel
  blinding := by show (0 : Int) ≤ 6 ∧ (6 : Int) < 2 ^ 2725; decide +kernel
  context := by show (0 : Int) ≤ 4 ∧ (4 : Int) < 2 ^ 256; decide +kernel
  values := toy_value (vals := Toy77.vals2) (by decide)
  distinct := by show (Toy77.vals2.map (·.1)).Nodup; decide
  noCommitment := by show ∀ a ∈ Toy77.vals2, a.2.isCommitment = false; decide
  attrs := by show ({"master_secret"} ∪ {"name", "age"} : Finset String) = (Toy77.vals2.map (·.1)).toFinset; decide
  covered := by show ∀ k ∈ Toy77.vals2.map (·.1), Toy77.pk.r.hasKey k = true; decide
  revealed := by show ({"name"} : Finset String) ⊆ {"name", "age"}; decide

/-- `cl_hiding` applies: two people with different master secrets, contexts and ages show twice that they have the same name -/
example (e : G1 →ₗ[F] G2 →ₗ[F] GT) (cv : Conv F G1 G2 GT) (nonce : Int) (P : Res String (Proof F G1 G2) → Prop) :=
  cl_hiding e cv .checked (fun _ => List.replicate 32 1) (fun _ => by rw [List.length_replicate]) Toy77.ord Toy77.ord ["master_secret"] {"master_secret", "name", "age"}
    (k := 2) (fun _ => Toy77.item1 F G1 G2 GT) (fun _ => Toy77.item2 F G1 G2 GT) (fun _ => 6) (fun _ => 8)
    { issued := fun _ => ⟨77, _, _, _, _, toy_issued1, toy_issued2⟩
      plain := fun _ => ⟨⟨rfl, .inl rfl⟩, ⟨rfl, .inl rfl⟩⟩
      shown := fun _ => ⟨rfl, rfl, rfl, rfl, by
        show ∀ k ∈ ({"name"} : Finset String), attrValue Toy77.vals1 k = attrValue Toy77.vals2 k
        decide⟩
      known := by simp
      attrs := fun _ => by show ({"master_secret"} ∪ {"name", "age"} : Finset String) ⊆ _; decide
      common := fun _ => by show ∀ a ∈ ["master_secret"], attrValue Toy77.vals1 a = 6 ∧ attrValue Toy77.vals2 a = 8; decide
      small := by intro a _; exact ⟨by decide, by decide⟩ } nonce P

theorem toy_same (its1 its2 : Item F G1 G2 GT) (h1 : its1 = Toy77.item1 F G1 G2 GT ∨ its1 = Toy77.item2 F G1 G2 GT) (h2 : its2 = Toy77.item1 F G1 G2 GT ∨ its2 = Toy77.item2 F G1 G2 GT) :
    SameView {"master_secret", "name", "age"} [] (k := 1) (fun _ => its1) (fun _ => its2) (fun _ => 0) (fun _ => 0) where
  issued _ := by
    refine ⟨77, Toy77.u 4, Toy77.u 9, Toy77.u 16, Toy77.R, ?_, ?_⟩
    · rcases h1 with rfl | rfl; exacts [toy_issued1, toy_issued2]
    · rcases h2 with rfl | rfl; exacts [toy_issued1, toy_issued2]
  plain _ := by
    refine ⟨?_, ?_⟩
    · rcases h1 with rfl | rfl <;> exact ⟨rfl, .inl rfl⟩
    · rcases h2 with rfl | rfl <;> exact ⟨rfl, .inl rfl⟩
  shown _ := by
    have v11 : ∀ k ∈ ({"name"} : Finset String), attrValue Toy77.vals1 k = attrValue Toy77.vals2 k := by decide
    rcases h1 with rfl | rfl <;> rcases h2 with rfl | rfl
    · exact ⟨rfl, rfl, rfl, rfl, fun _ _ => rfl⟩
    · exact ⟨rfl, rfl, rfl, rfl, v11⟩
    · exact ⟨rfl, rfl, rfl, rfl, fun k hk => (v11 k hk).symm⟩
    · exact ⟨rfl, rfl, rfl, rfl, fun _ _ => rfl⟩
  known := by simp
  attrs _ := by rcases h1 with rfl | rfl <;> (show ({"master_secret"} ∪ {"name", "age"} : Finset String) ⊆ _; decide)
  common _ := by simp
  small a ha := by simp at ha

/-- `cl_unlinkable` applies: an observer who asks for two presentations, the second with a nonce that depends on the first, and compares them in some way; in one world both are made
with the same credential, in the other with the credentials of two people -/
example (e : G1 →ₗ[F] G2 →ₗ[F] GT) (cv : Conv F G1 G2 GT) (nonce : Res String (Proof F G1 G2) → Int) (judge : Res String (Proof F G1 G2) → Res String (Proof F G1 G2) → Bool) :=
  cl_unlinkable e cv .checked (fun _ => List.replicate 32 1) (fun _ => by rw [List.length_replicate]) Toy77.ord Toy77.ord 15 2
    (.ask {"master_secret", "name", "age"} [] 1 (fun _ _ => Toy77.item1 F G1 G2 GT) 7 fun x =>
      .ask {"master_secret", "name", "age"} [] 1 (fun w _ => if w then Toy77.item1 F G1 G2 GT else Toy77.item2 F G1 G2 GT) (nonce x) fun y => .answer (judge x y))
    ⟨⟨_, _, toy_same _ _ (.inl rfl) (.inl rfl)⟩, by decide, fun x => ⟨⟨_, _, toy_same _ _ (.inl rfl) (.inr rfl)⟩, by decide, fun y => trivial⟩⟩

end

end Verif.CL
