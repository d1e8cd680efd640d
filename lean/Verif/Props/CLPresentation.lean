import Verif.CL.Presentation
import Verif.Props.CLPrimary
import Verif.Props.CLNonRevoc
import Verif.Props.CLHelpers
/-!
# Properties of proof presentation (C20, C21, C22, C23, C24, C52, C53)
-/
set_option linter.unusedSectionVars false

namespace Verif.CL

open Verif BN

/-! ## Lemmas on maps and orders -/

theorem getHashAsInt_nonneg (sha : Bytes → Bytes) (l : List Bytes) : 0 ≤ getHashAsInt sha l := by
  unfold getHashAsInt fromBytes
  exact Int.natCast_nonneg _

theorem lookup_insert_self {V : Type} (m : Map V) (k : String) (v : V) : (m.insert k v).lookup k = some v := by
  unfold Map.insert
  rw [List.lookup_cons]
  simp

theorem lookup_insert_ne {V : Type} (m : Map V) {k k' : String} (v : V) (h : k' ≠ k) :
    (m.insert k v).lookup k' = m.lookup k' := by
  unfold Map.insert
  rw [List.lookup_cons, beq_eq_false_iff_ne.2 h]
  simp only []
  induction m with
  | nil => rfl
  | cons a m ih =>
    obtain ⟨a, x⟩ := a
    by_cases ha : a = k
    · subst ha
      rw [List.filter_cons_of_neg (by simp), List.lookup_cons, beq_eq_false_iff_ne.2 h]
      exact ih
    · rw [List.filter_cons_of_pos (by simpa using ha), List.lookup_cons, List.lookup_cons, ih]

theorem keys_insert {V : Type} {m : Map V} {k k' : String} {v : V} (h : k' ∈ (m.insert k v).map (·.1)) :
    k' = k ∨ k' ∈ m.map (·.1) := by
  unfold Map.insert at h
  rw [List.map_cons, List.mem_cons] at h
  rcases h with h | h
  · exact .inl h
  · right
    rw [List.mem_map] at h ⊢
    obtain ⟨e, he, hk⟩ := h
    exact ⟨e, (List.mem_filter.1 he).1, hk⟩

/-- the value the prover's `m~` map holds for an unrevealed attribute -/
def mTildeOf (common : Map Int) (rnd : String → Int) (k : String) : Int := (common.lookup k).getD (rnd k)

theorem getMtilde_lookup (attrs : List String) (common : Map Int) (rnd : String → Int) :
    (∀ k ∈ attrs, (getMtilde attrs common rnd).lookup k = some (mTildeOf common rnd k)) ∧
    ∀ k, k ∉ attrs → (getMtilde attrs common rnd).lookup k = common.lookup k := by
  unfold getMtilde
  suffices h : ∀ (l : List String) (m : Map Int),
      (∀ k, m.lookup k = common.lookup k ∨ m.lookup k = some (mTildeOf common rnd k)) →
      (∀ k ∈ l, (l.foldl (fun mt k => if mt.hasKey k then mt else mt.insert k (rnd k)) m).lookup k =
        some (mTildeOf common rnd k)) ∧
      ∀ k, k ∉ l → (l.foldl (fun mt k => if mt.hasKey k then mt else mt.insert k (rnd k)) m).lookup k = m.lookup k by
    exact h attrs common (fun k => .inl rfl)
  intro l
  induction l with
  | nil => intro m _; exact ⟨by simp, by simp⟩
  | cons a l ih =>
    intro m hm
    rw [List.foldl_cons]
    by_cases hk : m.hasKey a = true
    · rw [if_pos hk]
      obtain ⟨h1, h2⟩ := ih m hm
      refine ⟨?_, fun k hk' => h2 k (by simp at hk'; exact hk'.2)⟩
      intro k hkl
      by_cases hin : k ∈ l
      · exact h1 k hin
      · have : k = a := by simpa [hin] using hkl
        subst this
        rw [h2 k hin]
        obtain ⟨v, hv⟩ := hasKey_iff.1 hk
        rcases hm k with h | h
        · rw [h] at hv
          rw [h, hv]
          simp [mTildeOf, hv]
        · exact h
    · rw [if_neg hk]
      have hnone : m.lookup a = none := by
        cases hl : m.lookup a with
        | none => rfl
        | some v => exact absurd (hasKey_iff.2 ⟨v, hl⟩) hk
      have hcn : common.lookup a = none := by
        rcases hm a with h | h
        · rw [← h, hnone]
        · rw [hnone] at h; cases h
      obtain ⟨h1, h2⟩ := ih (m.insert a (rnd a)) (by
        intro k
        by_cases hka : k = a
        · subst hka
          right
          rw [lookup_insert_self, mTildeOf, hcn]; rfl
        · rw [lookup_insert_ne _ _ hka]; exact hm k)
      refine ⟨?_, ?_⟩
      · intro k hkl
        by_cases hin : k ∈ l
        · exact h1 k hin
        · have : k = a := by simpa [hin] using hkl
          subst this
          rw [h2 k hin, lookup_insert_self, mTildeOf, hcn]; rfl
      · intro k hk'
        simp only [List.mem_cons, not_or] at hk'
        rw [h2 k hk'.2, lookup_insert_ne _ _ hk'.1]

theorem hiddenProd_perm {n : Nat} (R : String → (ZMod n)ˣ) (m : String → Int) {l l' : List String} (h : l.Perm l') :
    hiddenProd R m l = hiddenProd R m l' := (h.map _).prod_eq

theorem hiddenProd_append {n : Nat} (R : String → (ZMod n)ˣ) (m : String → Int) (l l' : List String) :
    hiddenProd R m (l ++ l') = hiddenProd R m l * hiddenProd R m l' := by
  unfold hiddenProd
  rw [List.map_append, List.prod_append]

theorem SetOrder.perm (o o' : SetOrder) (s : Finset String) : (o.enum s).Perm (o'.enum s) :=
  (List.perm_ext_iff_of_nodup (o.nodup s) (o'.nodup s)).2 (fun k => by rw [o.mem, o'.mem])

/-- all attributes = unrevealed ones followed by revealed ones, up to order -/
theorem attr_split {n : Nat} (R : String → (ZMod n)ˣ) {vals : Map CredentialValue} (hnd : (vals.map (·.1)).Nodup)
    (hcom : ∀ e ∈ vals, e.2.isCommitment = false) (o o' : SetOrder) (U Rv : Finset String) (hdis : Disjoint U Rv)
    (hall : U ∪ Rv = (vals.map (·.1)).toFinset) :
    attrProd R (signedAttrs vals) = hiddenProd R (attrValue vals) (o.enum U) * hiddenProd R (attrValue vals) (o'.enum Rv) := by
  have h1 : signedAttrs vals = vals := by
    unfold signedAttrs
    rw [List.filter_eq_self]
    intro e he
    have := hcom e he
    rcases e with ⟨k, v | v | v⟩ <;> simp_all
  have h2 : attrProd R vals = hiddenProd R (attrValue vals) (vals.map (·.1)) := by
    unfold attrProd hiddenProd
    rw [List.map_map]
    congr 1
    apply List.map_congr_left
    intro e he
    simp only [Function.comp]
    rw [attrValue_of_mem hnd he]
  rw [h1, h2, ← hiddenProd_append]
  apply hiddenProd_perm
  rw [List.perm_ext_iff_of_nodup hnd]
  · intro k
    have : k ∈ U ∪ Rv ↔ k ∈ (vals.map (·.1)).toFinset := by rw [hall]
    rw [Finset.mem_union, List.mem_toFinset] at this
    rw [List.mem_append, o.mem, o'.mem, this]
  · rw [List.nodup_append']
    refine ⟨o.nodup _, o'.nodup _, ?_⟩
    intro k hk hk'
    rw [o.mem] at hk
    rw [o'.mem] at hk'
    exact Finset.disjoint_left.1 hdis hk hk'

/-! ## The shared computations on representatives of units -/

section
variable {pk : PrimaryPubKey} {n : Nat} {S Z C : (ZMod n)ˣ} {R : String → (ZMod n)ˣ}

theorem calcTeq_units (hk : KeyUnits pk n S Z C R) {a : Int} {A : (ZMod n)ˣ} (hA : Rep a A) (e v m2 : Int) (m : Map Int)
    (mf : String → Int) (attrs : List String) (hr : ∀ k ∈ attrs, pk.r.hasKey k = true)
    (hm : ∀ k ∈ attrs, m.lookup k = some (mf k)) :
    calcTeq pk a e v m m2 attrs = .ok (val (A ^ e * hiddenProd R mf attrs * S ^ v * C ^ m2)) := by
  have hn := hk.hn
  have hn0 := neZero_of hn
  unfold calcTeq
  rw [hk.n_eq, hA.modExp hn, Res.ok_bind]
  rw [foldlM_units (n := n) _ (fun k => R k ^ mf k) attrs (by
    intro u k hkm
    obtain ⟨r, hr⟩ := hasKey_iff.1 (hr k hkm)
    rw [hr, hm k hkm, Res.ofOption_some, Res.ok_bind, Res.ofOption_some, Res.ok_bind, (hk.r _ _ hr).modExp hn, Res.ok_bind,
      (rep_val _).modMul (rep_val _), mul_comm]), Res.ok_bind, hk.s.modExp hn, Res.ok_bind, (rep_val _).modMul (rep_val _),
    Res.ok_bind, hk.c.modExp hn, Res.ok_bind, (rep_val _).modMul (rep_val _)]
  congr 2
  unfold hiddenProd
  rw [mul_comm, mul_comm (S ^ v)]

/-- exponent of `S` in the fifth value of `calc_tne` -/
def signedDelta (isLess : Bool) (d : Int) : Int := if isLess then setNegative d true else d

theorem calcTne_units (hk : KeyUnits pk n S Z C R) (u r t : Map Int) (mj alpha : Int) (less : Bool) (uf rf : String → Int)
    (rd : Int) (T : String → (ZMod n)ˣ) (hu : ∀ k ∈ iterKeys, u.lookup k = some (uf k))
    (hr : ∀ k ∈ iterKeys, r.lookup k = some (rf k)) (hrd : r.lookup "DELTA" = some rd)
    (ht : ∀ k ∈ iterKeys, ∃ x, t.lookup k = some x ∧ Rep x (T k)) :
    calcTne pk u r mj alpha t less = .ok (iterKeys.map (fun k => val (Z ^ uf k * S ^ rf k)) ++
      [val (Z ^ mj * S ^ signedDelta less rd), val ((iterKeys.map (fun k => T k ^ uf k)).prod * S ^ alpha)]) := by
  have hn := hk.hn
  have hn0 := neZero_of hn
  unfold calcTne
  rw [hk.n_eq, mapM_ok (fun k => do
      let cu ← Res.ofOption "Value by key not found in u" (u.lookup k)
      let cr ← Res.ofOption "Value by key not found in r" (r.lookup k)
      pedersen pk.z cu pk.s cr n) (fun k => val (Z ^ uf k * S ^ rf k)) iterKeys (by
    intro k hkm
    rw [hu k hkm, hr k hkm, Res.ofOption_some, Res.ok_bind, Res.ofOption_some, Res.ok_bind, pedersen_units hn hk.z hk.s]),
    Res.ok_bind, hrd, Res.ofOption_some, Res.ok_bind]
  simp only []
  rw [pedersen_units hn hk.z hk.s, Res.ok_bind]
  have hfold : ∀ (l : List String), (∀ k ∈ l, k ∈ iterKeys) → ∀ (q : Int) (Q : (ZMod n)ˣ), Rep q Q →
      ∃ q', l.foldlM (fun q k => do
        let ct ← Res.ofOption "Value by key not found in t" (t.lookup k)
        let cu ← Res.ofOption "Value by key not found in u" (u.lookup k)
        let x ← modExp ct cu n
        pure (x * q)) q = (.ok q' : Res String Int) ∧ Rep q' (Q * (l.map (fun k => T k ^ uf k)).prod) := by
    intro l
    induction l with
    | nil => intro _ q Q hQ; exact ⟨q, rfl, by simpa using hQ⟩
    | cons k l ih =>
      intro hl q Q hQ
      obtain ⟨x, hx, hX⟩ := ht k (hl k (by simp))
      obtain ⟨q', h1, h2⟩ := ih (fun k hk => hl k (by simp [hk])) (val (T k ^ uf k) * q) (T k ^ uf k * Q)
        ((rep_val _).mul hQ)
      refine ⟨q', ?_, ?_⟩
      · rw [List.foldlM_cons, hx, hu k (hl k (by simp)), Res.ofOption_some, Res.ok_bind, Res.ofOption_some, Res.ok_bind,
          hX.modExp hn, Res.ok_bind, Res.pure_eq, Res.ok_bind]
        exact h1
      · rw [List.map_cons, List.prod_cons, ← mul_assoc, mul_comm Q]
        exact h2
  obtain ⟨q', h1, h2⟩ := hfold iterKeys (fun _ h => h) 1 1 rep_one
  rw [h1, Res.ok_bind, hk.s.modExp hn, Res.ok_bind, (rep_val _).modMul h2, Res.ok_bind, Res.pure_eq, one_mul, mul_comm (S ^ alpha)]
  rfl

/-- `A'` on units -/
theorem initEq_aPrime (hk : KeyUnits pk n S Z C R) {a : Int} {A : (ZMod n)ˣ} (hA : Rep a A) (r : Int) :
    (do let sr ← modExp pk.s r pk.n; modMul sr a pk.n : Res String Int) = .ok (val (S ^ r * A)) := by
  have hn0 := neZero_of hk.hn
  rw [hk.n_eq, hk.s.modExp hk.hn, Res.ok_bind, (rep_val _).modMul hA]

theorem initEqProof_units (hk : KeyUnits pk n S Z C R) (ord : SetOrder) (common : Map Int) (sig : PrimarySig)
    {A : (ZMod n)ˣ} (hA : Rep sig.a A) (schema nonSchema : Finset String) (req : SubProofRequest) (m2t : Option Int)
    (rnd : EqRand) (hr : ∀ k ∈ unrevealedAttrs schema nonSchema req, pk.r.hasKey k = true) :
    initEqProof ord common pk sig schema nonSchema req m2t rnd = .ok
      { aPrime := val (S ^ rnd.r * A),
        t := val ((S ^ rnd.r * A) ^ rnd.eT * hiddenProd R (mTildeOf common rnd.mT) (ord.enum (unrevealedAttrs schema nonSchema req)) *
          S ^ rnd.vT * C ^ (m2t.getD rnd.m2T)),
        eT := rnd.eT, ePrime := sig.e - LARGE_E_START_VALUE, vT := rnd.vT, vPrime := sig.v - sig.e * rnd.r,
        mT := getMtilde (ord.enum (unrevealedAttrs schema nonSchema req)) common rnd.mT, m2T := m2t.getD rnd.m2T, m2 := sig.m2 } := by
  have hn := hk.hn
  have hn0 := neZero_of hn
  unfold initEqProof
  simp only []
  rw [hk.n_eq, hk.s.modExp hn, Res.ok_bind, (rep_val _).modMul hA, Res.ok_bind,
    calcTeq_units hk (rep_val _) _ _ _ _ (mTildeOf common rnd.mT) _ (fun k hkm => hr k ((ord.mem _ _).1 hkm))
      (getMtilde_lookup _ _ _).1, Res.ok_bind]
  rfl

/-- the algebra of the equality proof, written additively -/
theorem eq_algebra_add {M : Type} [AddCommGroup M] (A S C U V Ut Z : M) (e v m2 r c E eT vT m2T : Int)
    (h : Z = e • A + v • S + m2 • C + (U + V)) :
    (c * (e - E) + eT) • (r • S + A) + (c • U + Ut) + (c * (v - e * r) + vT) • S + (c * m2 + m2T) • C +
      c • (-(Z - (E • (r • S + A) + V))) = eT • (r • S + A) + Ut + vT • S + m2T • C := by
  rw [h]; module

theorem eq_algebra {G : Type} [CommGroup G] (A S C U V Ut Z : G) (e v m2 r c E eT vT m2T : Int)
    (h : Z = A ^ e * S ^ v * C ^ m2 * (U * V)) :
    (S ^ r * A) ^ (c * (e - E) + eT) * (U ^ c * Ut) * S ^ (c * (v - e * r) + vT) * C ^ (c * m2 + m2T) *
      ((Z / ((S ^ r * A) ^ E * V))⁻¹) ^ c = (S ^ r * A) ^ eT * Ut * S ^ vT * C ^ m2T :=
  congrArg Additive.toMul (eq_algebra_add (M := Additive G) (.ofMul A) (.ofMul S) (.ofMul C) (.ofMul U) (.ofMul V) (.ofMul Ut)
    (.ofMul Z) e v m2 r c E eT vT m2T (congrArg Additive.ofMul h))

/-- what the verifier recomputes from any equality proof over units -/
theorem verifyEquality_units (hk : KeyUnits pk n S Z C R) (ordV : SetOrder) (p : EqProof) {A' : (ZMod n)ˣ} (hA : Rep p.aPrime A')
    (c : Int) (schema nonSchema : Finset String) (req : SubProofRequest) (mf : String → Int)
    (hr : ∀ k ∈ unrevealedAttrs schema nonSchema req, pk.r.hasKey k = true)
    (hm : ∀ k ∈ unrevealedAttrs schema nonSchema req, p.m.lookup k = some (mf k))
    (hrev : ∀ e ∈ p.revealed, pk.r.hasKey e.1 = true) :
    verifyEquality ordV pk p c schema nonSchema req = .ok (val
      (A' ^ p.e * hiddenProd R mf (ordV.enum (unrevealedAttrs schema nonSchema req)) * S ^ p.v * C ^ p.m2 *
        ((Z / (A' ^ LARGE_E_START_VALUE * (p.revealed.map (fun e => R e.1 ^ e.2)).prod))⁻¹) ^ c)) := by
  have hn := hk.hn
  have hn0 := neZero_of hn
  unfold verifyEquality
  rw [calcTeq_units hk hA _ _ _ _ mf _ (fun k hkm => hr k ((ordV.mem _ _).1 hkm)) (fun k hkm => hm k ((ordV.mem _ _).1 hkm)),
    Res.ok_bind, hk.n_eq, hA.modExp hn, Res.ok_bind,
    foldlM_units (n := n) _ (fun e : String × Int => R e.1 ^ e.2) p.revealed (by
      intro u e he
      obtain ⟨r, hr⟩ := hasKey_iff.1 (hrev e he)
      rw [hr, Res.ofOption_some, Res.ok_bind, (hk.r _ _ hr).modExp hn, Res.ok_bind, (rep_val _).modMul (rep_val _), mul_comm]),
    Res.ok_bind, hk.z.modDiv hn (rep_val _), Res.ok_bind, (rep_val _).inverse hn, Res.ok_bind, (rep_val _).modExp hn, Res.ok_bind,
    (rep_val _).modMul (rep_val _)]

/-- what the prover's `_finalize_eq_proof` returns -/
theorem finalizeEq_units (ordF : SetOrder) (i : EqInit) (c : Int) (schema nonSchema : Finset String) (vals : Map CredentialValue)
    (req : SubProofRequest) (mt : String → Int)
    (hmt : ∀ k ∈ unrevealedAttrs schema nonSchema req, i.mT.lookup k = some (mt k))
    (hv : ∀ k ∈ unrevealedAttrs schema nonSchema req ∪ req.revealed, k ∈ vals.map (·.1)) :
    finalizeEqProof ordF i c schema nonSchema vals req = .ok
      { revealed := (ordF.enum req.revealed).map (fun k => (k, attrValue vals k)), aPrime := i.aPrime, e := c * i.ePrime + i.eT,
        v := c * i.vPrime + i.vT,
        m := (ordF.enum (unrevealedAttrs schema nonSchema req)).map (fun k => (k, c * attrValue vals k + mt k)),
        m2 := c * i.m2 + i.m2T } := by
  have hval : ∀ k ∈ unrevealedAttrs schema nonSchema req ∪ req.revealed, ∃ cv, vals.lookup k = some cv ∧ cv.value = attrValue vals k := by
    intro k hk
    obtain ⟨cv, hcv⟩ := hasKey_iff.1 (hasKey_iff_mem.2 (hv k hk))
    exact ⟨cv, hcv, by simp [attrValue, hcv]⟩
  unfold finalizeEqProof
  rw [mapM_ok (fun k => do
      let mt ← Res.ofOption "Value by key not found in init_proof.mtilde" (i.mT.lookup k)
      let cv ← Res.ofOption "Value by key not found in attributes_values" (vals.lookup k)
      pure (k, c * cv.value + mt)) (fun k => (k, c * attrValue vals k + mt k)) _ (by
    intro k hk
    rw [ordF.mem] at hk
    obtain ⟨cv, h1, h2⟩ := hval k (Finset.mem_union_left _ hk)
    rw [hmt k hk, h1, Res.ofOption_some, Res.ok_bind, Res.ofOption_some, Res.ok_bind, h2]
    rfl), Res.ok_bind, mapM_ok (fun k => do
      let cv ← Res.ofOption "Encoded value not found" (vals.lookup k)
      pure (k, cv.value)) (fun k => (k, attrValue vals k)) _ (by
    intro k hk
    rw [ordF.mem] at hk
    obtain ⟨cv, h1, h2⟩ := hval k (Finset.mem_union_right _ hk)
    rw [h1, Res.ofOption_some, Res.ok_bind, h2]
    rfl), Res.ok_bind]
  rfl

theorem signedDelta_lin (less : Bool) (c d dt : Int) (hc : 0 ≤ c) (hd : 0 ≤ d) (hdt : 0 ≤ dt) :
    signedDelta less (c * d + dt) = (if less then -1 else 1) * (c * d + dt) ∧ signedDelta less dt = (if less then -1 else 1) * dt := by
  have h1 : ¬ (c * d + dt < 0) := by have := mul_nonneg hc hd; omega
  cases less
  · simp [signedDelta]
  · simp only [signedDelta, setNegative, if_true, h1, decide_false, not_lt.2 hdt]
    constructor <;> ring

/-- the four roots as a function of the keys "0" … "3" -/
def rootOf (q : Nat × Nat × Nat × Nat) (k : String) : Int := ((squaresMap q).lookup k).getD 0

theorem squaresMap_lookup (q : Nat × Nat × Nat × Nat) : ∀ k ∈ iterKeys, (squaresMap q).lookup k = some (rootOf q k) := by
  intro k hk
  simp only [iterKeys, List.mem_cons, List.not_mem_nil, or_false] at hk
  rcases hk with rfl | rfl | rfl | rfl <;> rfl

theorem iter_lookup {V : Type} (f : String → V) (d : V) :
    (∀ k ∈ iterKeys, (iterKeys.map (fun k => (k, f k)) ++ [("DELTA", d)]).lookup k = some (f k)) ∧
    (iterKeys.map (fun k => (k, f k)) ++ [("DELTA", d)]).lookup "DELTA" = some d := by
  constructor
  · intro k hk
    simp only [iterKeys, List.mem_cons, List.not_mem_nil, or_false] at hk
    rcases hk with rfl | rfl | rfl | rfl <;> rfl
  · rfl

/-- commitments of an inequality proof, as units -/
def tUnit {n : Nat} (S Z : (ZMod n)ˣ) (q : Nat × Nat × Nat × Nat) (r : String → Int) (k : String) : (ZMod n)ˣ :=
  Z ^ rootOf q k * S ^ r k

theorem initNe_units (hk : KeyUnits pk n S Z C R) (mode : Overflow) (mT : Map Int) (vals : Map CredentialValue) (p : Predicate)
    (rnd : NeRand) {cv : CredentialValue} (hcv : vals.lookup p.attrName = some cv) (hi : InI32 cv.value) {d : Int}
    (hd : p.getDelta mode cv.value = .ok d) (hd0 : 0 ≤ d) {q : Nat × Nat × Nat × Nat} (hq : fourSquares d = .ok q) {mj : Int}
    (hmj : mT.lookup p.attrName = some mj) :
    initNeProof mode pk mT vals p rnd = .ok
      { cList := iterKeys.map (fun k => val (tUnit S Z q rnd.r k)) ++ [val (Z ^ d * S ^ rnd.rDelta)],
        tauList := iterKeys.map (fun k => val (Z ^ rnd.uT k * S ^ rnd.rT k)) ++
          [val (Z ^ mj * S ^ signedDelta p.isLess rnd.rTDelta),
           val ((iterKeys.map (fun k => tUnit S Z q rnd.r k ^ rnd.uT k)).prod * S ^ rnd.alphaT)],
        u := squaresMap q, uT := iterKeys.map (fun k => (k, rnd.uT k)),
        r := iterKeys.map (fun k => (k, rnd.r k)) ++ [("DELTA", rnd.rDelta)],
        rT := iterKeys.map (fun k => (k, rnd.rT k)) ++ [("DELTA", rnd.rTDelta)], alphaT := rnd.alphaT, predicate := p,
        t := iterKeys.map (fun k => (k, val (tUnit S Z q rnd.r k))) ++ [("DELTA", val (Z ^ d * S ^ rnd.rDelta))] } := by
  have hn := hk.hn
  have hn0 := neZero_of hn
  unfold initNeProof
  rw [hcv, Res.ofOption_some, Res.ok_bind, if_neg (not_not.2 hi), hd, Res.ok_bind, if_neg (by omega), hq, Res.ok_bind]
  simp only []
  rw [mapM_ok (fun k => do
      let cu ← Res.ofOption "Value by key not found in u1" ((squaresMap q).lookup k)
      let t ← pedersen pk.z cu pk.s (rnd.r k) pk.n
      pure (k, t)) (fun k => (k, val (tUnit S Z q rnd.r k))) iterKeys (by
    intro k hkm
    rw [squaresMap_lookup q k hkm, Res.ofOption_some, Res.ok_bind, hk.n_eq, pedersen_units hn hk.z hk.s]
    rfl), Res.ok_bind, hk.n_eq, pedersen_units hn hk.z hk.s, Res.ok_bind, hmj, Res.ofOption_some, Res.ok_bind]
  rw [calcTne_units hk _ _ _ _ _ _ rnd.uT rnd.rT rnd.rTDelta (tUnit S Z q rnd.r) (fun k hkm => map_lookup_key iterKeys rnd.uT hkm)
    (iter_lookup _ _).1 (iter_lookup _ _).2 (fun k hkm => ⟨_, (iter_lookup _ _).1 k hkm, rep_val _⟩), Res.ok_bind]
  rfl

theorem finalizeNe_units (c : Int) (i : NeInit) (eq : EqProof) (q : Nat × Nat × Nat × Nat) (rnd : NeRand)
    (hu : i.u = squaresMap q) (huT : i.uT = iterKeys.map (fun k => (k, rnd.uT k)))
    (hr : i.r = iterKeys.map (fun k => (k, rnd.r k)) ++ [("DELTA", rnd.rDelta)])
    (hrT : i.rT = iterKeys.map (fun k => (k, rnd.rT k)) ++ [("DELTA", rnd.rTDelta)]) {mj : Int}
    (hmj : eq.m.lookup i.predicate.attrName = some mj) :
    finalizeNeProof c i eq = .ok
      { u := iterKeys.map (fun k => (k, c * rootOf q k + rnd.uT k)),
        r := iterKeys.map (fun k => (k, c * rnd.r k + rnd.rT k)) ++ [("DELTA", c * rnd.rDelta + rnd.rTDelta)], mj := mj,
        alpha := (rnd.rDelta - (iterKeys.map (fun k => rootOf q k * rnd.r k)).sum) * c + i.alphaT, t := i.t,
        predicate := i.predicate } := by
  unfold finalizeNeProof
  rw [hr, hrT, (iter_lookup _ _).2, (iter_lookup _ _).2, Res.unwrap_some, Res.ok_bind, Res.unwrap_some, Res.ok_bind, hu, huT]
  rw [mapM_ok _ (fun k => (k, c * rootOf q k + rnd.uT k, c * rnd.r k + rnd.rT k, rootOf q k * rnd.r k)) iterKeys (by
    intro k hkm
    rw [map_lookup_key iterKeys rnd.uT hkm, squaresMap_lookup q k hkm, (iter_lookup _ _).1 k hkm, (iter_lookup _ _).1 k hkm]
    rfl), Res.ok_bind, hmj]
  simp only [Res.unwrap_some, Res.ok_bind, Res.pure_eq]
  congr 2
  simp only [iterKeys, List.map_cons, List.map_nil, List.foldl_cons, List.foldl_nil, List.sum_cons, List.sum_nil]
  ring

theorem tauFix_units (hn : 1 < n) (c : Int) {t tau : Int} {T U : (ZMod n)ˣ} (hT : Rep t T) (hU : Rep tau U) :
    tauFix n c t tau = .ok (val ((T ^ c)⁻¹ * U)) := by
  have hn0 := neZero_of hn
  unfold tauFix
  rw [hT.modExp hn, Res.ok_bind, (rep_val _).inverse hn, Res.ok_bind, (rep_val _).modMul hU]

/-- what the verifier recomputes from an inequality proof over units -/
theorem verifyNe_units (hk : KeyUnits pk n S Z C R) (mode : Overflow) (p : NeProof) (c : Int) (uf rf : String → Int) (rd : Int)
    (T : String → (ZMod n)ˣ) (TD : (ZMod n)ˣ) (d' : Int) (hu : ∀ k ∈ iterKeys, p.u.lookup k = some (uf k))
    (hr : ∀ k ∈ iterKeys, p.r.lookup k = some (rf k)) (hrd : p.r.lookup "DELTA" = some rd)
    (ht : ∀ k ∈ iterKeys, ∃ x, p.t.lookup k = some x ∧ Rep x (T k)) (htd : ∃ x, p.t.lookup "DELTA" = some x ∧ Rep x TD)
    (hd' : p.predicate.getDeltaPrime mode = .ok d') :
    verifyNePredicate mode pk p c = .ok (iterKeys.map (fun k => val ((T k ^ c)⁻¹ * (Z ^ uf k * S ^ rf k))) ++
      [val (((Z ^ d' * (if p.predicate.isLess then TD⁻¹ else TD)) ^ c)⁻¹ * (Z ^ p.mj * S ^ signedDelta p.predicate.isLess rd)),
       val ((TD ^ c)⁻¹ * ((iterKeys.map (fun k => T k ^ uf k)).prod * S ^ p.alpha))]) := by
  have hn := hk.hn
  have hn0 := neZero_of hn
  obtain ⟨x, hx, hX⟩ := htd
  unfold verifyNePredicate
  rw [calcTne_units hk _ _ _ _ _ _ uf rf rd T hu hr hrd ht, Res.ok_bind]
  have hfix : ∀ (l : List (String × Int)) (g : String → (ZMod n)ˣ), (∀ e ∈ l, e.1 ∈ iterKeys ∧ e.2 = val (g e.1)) →
      (l.mapM (fun x => do
        let ct ← Res.ofOption "Value by key not found in proof.t" (p.t.lookup x.1)
        tauFix n c ct x.2) : Res String (List Int)) = .ok (l.map (fun e => val ((T e.1 ^ c)⁻¹ * g e.1))) := by
    intro l g hl
    apply mapM_ok
    intro e he
    obtain ⟨h1, h2⟩ := hl e he
    obtain ⟨y, hy, hY⟩ := ht e.1 h1
    rw [hy, Res.ofOption_some, Res.ok_bind, h2, tauFix_units hn c hY (rep_val _)]
  rw [hk.n_eq, hfix _ (fun k => Z ^ uf k * S ^ rf k) (by
    intro e he
    simp only [iterKeys, List.map_cons, List.map_nil, List.cons_append, List.nil_append, List.zip_cons_cons, List.zip_nil_left,
      List.mem_cons, List.not_mem_nil, or_false] at he
    rcases he with rfl | rfl | rfl | rfl <;> exact ⟨by simp [iterKeys], rfl⟩), Res.ok_bind, hx, Res.ofOption_some, Res.ok_bind]
  have hdp : signedDeltaCommitment p.predicate.isLess x n = .ok (if p.predicate.isLess then val TD⁻¹ else x) := by
    cases p.predicate.isLess
    · rfl
    · exact hX.inverse hn
  have hrep : Rep (if p.predicate.isLess then val TD⁻¹ else x) (if p.predicate.isLess then TD⁻¹ else TD) := by
    cases p.predicate.isLess
    · exact hX
    · exact rep_val _
  rw [hdp, Res.ok_bind, hd', Res.ok_bind, hk.z.modExp hn, Res.ok_bind]
  simp only [iterKeys, List.map_cons, List.map_nil, List.cons_append, List.nil_append, List.zip_cons_cons, List.zip_nil_left,
    List.getElem?_cons_succ, List.getElem?_cons_zero, Res.unwrap_some, Res.ok_bind]
  rw [tauFix_units hn c ((rep_val _).mul hrep) (rep_val _), Res.ok_bind, tauFix_units hn c hX (rep_val _), Res.ok_bind]
  rfl

/-- the algebra of the inequality proof, written additively -/
theorem ne_algebra_add1 {M : Type} [AddCommGroup M] (Z S : M) (c u uT r rT : Int) :
    -(c • (u • Z + r • S)) + ((c * u + uT) • Z + (c * r + rT) • S) = uT • Z + rT • S := by module

theorem ne_algebra_add2 {M : Type} [AddCommGroup M] (Z S : M) (c d d' m mt rD rTD s : Int) (hm : m = d' + s * d) :
    -(c • (d' • Z + s • (d • Z + rD • S))) + ((c * m + mt) • Z + (s * (c * rD + rTD)) • S) = mt • Z + (s * rTD) • S := by
  rw [hm]; module

theorem ne_algebra_add3 {M : Type} [AddCommGroup M] (Z S : M) (c d rD al u0 u1 u2 u3 v0 v1 v2 v3 r0 r1 r2 r3 : Int)
    (hsq : d = u0 ^ 2 + u1 ^ 2 + u2 ^ 2 + u3 ^ 2) :
    -(c • (d • Z + rD • S)) + ((c * u0 + v0) • (u0 • Z + r0 • S) + ((c * u1 + v1) • (u1 • Z + r1 • S) +
        ((c * u2 + v2) • (u2 • Z + r2 • S) + (c * u3 + v3) • (u3 • Z + r3 • S))) +
        ((rD - (u0 * r0 + (u1 * r1 + (u2 * r2 + u3 * r3)))) * c + al) • S) =
      v0 • (u0 • Z + r0 • S) + (v1 • (u1 • Z + r1 • S) + (v2 • (u2 • Z + r2 • S) + v3 • (u3 • Z + r3 • S))) + al • S := by
  rw [hsq]; module

theorem ne_algebra {G : Type} [CommGroup G] (Z S : G) (c d d' m mt rD rTD al : Int) (u uT r rT : String → Int)
    (hsq : d = u "0" ^ 2 + u "1" ^ 2 + u "2" ^ 2 + u "3" ^ 2) (less : Bool)
    (hm : m = if less then d' - d else d' + d) :
    (∀ k, ((Z ^ u k * S ^ r k) ^ c)⁻¹ * (Z ^ (c * u k + uT k) * S ^ (c * r k + rT k)) = Z ^ uT k * S ^ rT k) ∧
    (((Z ^ d' * (if less then (Z ^ d * S ^ rD)⁻¹ else Z ^ d * S ^ rD)) ^ c)⁻¹ *
        (Z ^ (c * m + mt) * S ^ ((if less then -1 else 1) * (c * rD + rTD))) = Z ^ mt * S ^ ((if less then -1 else 1) * rTD)) ∧
    (((Z ^ d * S ^ rD) ^ c)⁻¹ * ((iterKeys.map (fun k => (Z ^ u k * S ^ r k) ^ (c * u k + uT k))).prod *
        S ^ ((rD - (iterKeys.map (fun k => u k * r k)).sum) * c + al)) =
      (iterKeys.map (fun k => (Z ^ u k * S ^ r k) ^ uT k)).prod * S ^ al) := by
  refine ⟨fun k => congrArg Additive.toMul (ne_algebra_add1 (M := Additive G) (.ofMul Z) (.ofMul S) c (u k) (uT k) (r k) (rT k)),
    ?_, ?_⟩
  · cases less
    · have := ne_algebra_add2 (M := Additive G) (.ofMul Z) (.ofMul S) c d d' m mt rD rTD 1 (by simpa using hm)
      rw [one_smul] at this
      exact congrArg Additive.toMul this
    · have := ne_algebra_add2 (M := Additive G) (.ofMul Z) (.ofMul S) c d d' m mt rD rTD (-1) (by rw [hm]; simp; ring)
      rw [neg_one_smul] at this
      exact congrArg Additive.toMul this
  · have := ne_algebra_add3 (M := Additive G) (.ofMul Z) (.ofMul S) c d rD al (u "0") (u "1") (u "2") (u "3") (uT "0") (uT "1")
      (uT "2") (uT "3") (r "0") (r "1") (r "2") (r "3") hsq
    simp only [iterKeys, List.map_cons, List.map_nil, List.prod_cons, List.prod_nil, List.sum_cons, List.sum_nil, mul_one, add_zero]
    exact congrArg Additive.toMul this

end

/-! ## C20: an honest presentation is accepted -/

theorem getDelta_mode {p : Predicate} {a d : Int} (h : p.getDelta .checked a = .ok d) (mode : Overflow) :
    p.getDelta mode a = .ok d := by
  cases mode
  · exact h
  · exact predicate_delta_wrapping p a d h

theorem getDeltaPrime_mode {p : Predicate} {d : Int} (h : p.getDeltaPrime .checked = .ok d) (mode : Overflow) :
    p.getDeltaPrime mode = .ok d := by
  cases mode
  · exact h
  · obtain ⟨nm, t, v⟩ := p
    have key : ∀ x y, i32 .checked x = .ok y → i32 .wrapping x = .ok y := by
      intro x y hxy
      obtain ⟨rfl, hr⟩ := i32_checked hxy
      rw [i32, if_pos hr]
    cases t <;> simp only [Predicate.getDeltaPrime] at h ⊢
    · exact h
    · exact h
    · exact key _ _ h
    · exact key _ _ h

/-- the bytes hashed for a list of numbers of a primary proof -/
theorem primary_complete {pk : PrimaryPubKey} {n : Nat} {S Z C : (ZMod n)ˣ} {R : String → (ZMod n)ˣ}
    (hk : KeyUnits pk n S Z C R) (mode : Overflow) (ord ordF ordV : SetOrder) (common : Map Int) (sig : PrimarySig)
    {A : (ZMod n)ˣ} (hA : Rep sig.a A) (vals : Map CredentialValue) (hcl : CLEquation S Z C R A sig.e sig.v sig.m2 vals)
    (hnd : (vals.map (·.1)).Nodup) (hcom : ∀ e ∈ vals, e.2.isCommitment = false) (schema nonSchema : Finset String)
    (hkeys : nonSchema ∪ schema = (vals.map (·.1)).toFinset) (hpk : ∀ k ∈ vals.map (·.1), pk.r.hasKey k = true)
    (req : SubProofRequest) (hrev : req.revealed ⊆ schema)
    (hpred : ∀ p ∈ req.predicates, p.attrName ∈ schema ∧ p.attrName ∉ req.revealed ∧ InI32 (attrValue vals p.attrName) ∧
      p.Holds (attrValue vals p.attrName) ∧ (∃ d, p.getDelta .checked (attrValue vals p.attrName) = .ok d) ∧
      ∃ d', p.getDeltaPrime .checked = .ok d')
    (m2t : Option Int) (rnd : EqRand) (nrnd : Predicate → NeRand) (hnr : ∀ p, 0 ≤ (nrnd p).rDelta ∧ 0 ≤ (nrnd p).rTDelta) :
    ∃ pi, initPrimaryProof mode ord common pk sig vals schema nonSchema req m2t rnd nrnd = .ok pi ∧
      ∀ c, 0 ≤ c → ∃ pp tau, finalizePrimaryProof ordF pi c schema nonSchema vals req = .ok pp ∧
        checkShape pp req = .ok () ∧ verifyPrimaryProof mode ordV pk c pp schema nonSchema req = .ok tau ∧
        tau.map toBytes = pi.asTauList ∧
        ∀ k ∈ unrevealedAttrs schema nonSchema req,
          pp.eq.m.lookup k = some (c * attrValue vals k + mTildeOf common rnd.mT k) := by
  have hn := hk.hn
  have hn0 := neZero_of hn
  have hU : unrevealedAttrs schema nonSchema req ∪ req.revealed = (vals.map (·.1)).toFinset := by
    unfold unrevealedAttrs
    rw [Finset.sdiff_union_of_subset (hrev.trans Finset.subset_union_right), hkeys]
  have hUk : ∀ k ∈ unrevealedAttrs schema nonSchema req ∪ req.revealed, k ∈ vals.map (·.1) := by
    intro k hkm
    rw [hU, List.mem_toFinset] at hkm
    exact hkm
  have hUr : ∀ k ∈ unrevealedAttrs schema nonSchema req, pk.r.hasKey k = true :=
    fun k hkm => hpk k (hUk k (Finset.mem_union_left _ hkm))
  set U := unrevealedAttrs schema nonSchema req with hUdef
  have hmT := (getMtilde_lookup (ord.enum U) common rnd.mT).1
  have hmT' : ∀ k ∈ U, (getMtilde (ord.enum U) common rnd.mT).lookup k = some (mTildeOf common rnd.mT k) :=
    fun k hkm => hmT k ((ord.mem _ _).2 hkm)
  -- one predicate
  have hpU : ∀ p ∈ req.predicates, p.attrName ∈ U := by
    intro p hp
    obtain ⟨h1, h2, -⟩ := hpred p hp
    rw [hUdef]
    unfold unrevealedAttrs
    exact Finset.mem_sdiff.2 ⟨Finset.mem_union_right _ h1, h2⟩
  have hdata : ∀ p : Predicate, ∃ x : Int × (Nat × Nat × Nat × Nat) × Int, p ∈ req.predicates →
      (∃ cv, vals.lookup p.attrName = some cv ∧ InI32 cv.value ∧ p.getDelta mode cv.value = .ok x.1) ∧ 0 ≤ x.1 ∧
      fourSquares x.1 = .ok x.2.1 ∧
      x.1 = rootOf x.2.1 "0" ^ 2 + rootOf x.2.1 "1" ^ 2 + rootOf x.2.1 "2" ^ 2 + rootOf x.2.1 "3" ^ 2 ∧
      p.getDeltaPrime mode = .ok x.2.2 ∧
      attrValue vals p.attrName = if p.isLess then x.2.2 - x.1 else x.2.2 + x.1 := by
    intro p
    by_cases hp : p ∈ req.predicates
    · obtain ⟨h1, h2, h3, h4, ⟨d, h5⟩, d', h6⟩ := hpred p hp
      obtain ⟨h7, h8⟩ := predicate_delta p _ _ h5
      have hd0 := h7.1 h4
      obtain ⟨a, b, c, e, h9, h10⟩ := (four_squares_spec d).2 hd0
      obtain ⟨cv, hcv⟩ := hasKey_iff.1 (hasKey_iff_mem.2 (hUk _ (Finset.mem_union_left _ (hpU p hp))))
      have hval : cv.value = attrValue vals p.attrName := by simp [attrValue, hcv]
      refine ⟨(d, (a, b, c, e), d'), fun _ => ⟨⟨cv, hcv, by rw [hval]; exact h3, by rw [hval]; exact getDelta_mode h5 mode⟩, hd0, h9, ?_,
        getDeltaPrime_mode h6 mode, h8 d' h6⟩⟩
      exact h10
    · exact ⟨(0, (0, 0, 0, 0), 0), fun h => absurd h hp⟩
  choose dat hdat using hdata
  set mT := getMtilde (ord.enum U) common rnd.mT with hmTdef
  let nei : Predicate → NeInit := fun p =>
      { cList := iterKeys.map (fun k => val (tUnit S Z (dat p).2.1 (nrnd p).r k)) ++ [val (Z ^ (dat p).1 * S ^ (nrnd p).rDelta)],
        tauList := iterKeys.map (fun k => val (Z ^ (nrnd p).uT k * S ^ (nrnd p).rT k)) ++
          [val (Z ^ mTildeOf common rnd.mT p.attrName * S ^ signedDelta p.isLess (nrnd p).rTDelta),
           val ((iterKeys.map (fun k => tUnit S Z (dat p).2.1 (nrnd p).r k ^ (nrnd p).uT k)).prod * S ^ (nrnd p).alphaT)],
        u := squaresMap (dat p).2.1, uT := iterKeys.map (fun k => (k, (nrnd p).uT k)),
        r := iterKeys.map (fun k => (k, (nrnd p).r k)) ++ [("DELTA", (nrnd p).rDelta)],
        rT := iterKeys.map (fun k => (k, (nrnd p).rT k)) ++ [("DELTA", (nrnd p).rTDelta)], alphaT := (nrnd p).alphaT, predicate := p,
        t := iterKeys.map (fun k => (k, val (tUnit S Z (dat p).2.1 (nrnd p).r k))) ++
          [("DELTA", val (Z ^ (dat p).1 * S ^ (nrnd p).rDelta))] }
  have hne : ∀ p ∈ req.predicates, initNeProof mode pk mT vals p (nrnd p) = .ok (nei p) := by
    intro p hp
    obtain ⟨⟨cv, h1, h2, h3⟩, h4, h5, -⟩ := hdat p hp
    exact initNe_units hk mode mT vals p (nrnd p) h1 h2 h3 h4 h5 (hmT' _ (hpU p hp))
  refine ⟨⟨⟨val (S ^ rnd.r * A), val ((S ^ rnd.r * A) ^ rnd.eT * hiddenProd R (mTildeOf common rnd.mT) (ord.enum U) *
    S ^ rnd.vT * C ^ (m2t.getD rnd.m2T)), rnd.eT, sig.e - LARGE_E_START_VALUE, rnd.vT, sig.v - sig.e * rnd.r,
    mT, m2t.getD rnd.m2T, sig.m2⟩, req.predicates.map nei⟩, ?_, ?_⟩
  · unfold initPrimaryProof
    rw [initEqProof_units hk ord common sig hA schema nonSchema req m2t rnd hUr, Res.ok_bind]
    simp only []
    rw [mapM_ok (fun p => initNeProof mode pk mT vals p (nrnd p)) nei _ hne, Res.ok_bind]
    rfl
  · intro c hc
    -- finalize
    have hfe := finalizeEq_units ordF
      { aPrime := val (S ^ rnd.r * A), t := val ((S ^ rnd.r * A) ^ rnd.eT * hiddenProd R (mTildeOf common rnd.mT) (ord.enum U) *
          S ^ rnd.vT * C ^ (m2t.getD rnd.m2T)),
        eT := rnd.eT, ePrime := sig.e - LARGE_E_START_VALUE, vT := rnd.vT, vPrime := sig.v - sig.e * rnd.r,
        mT := mT, m2T := m2t.getD rnd.m2T, m2 := sig.m2 } c schema nonSchema vals req (mTildeOf common rnd.mT) hmT' hUk
    simp only [] at hfe
    rw [← hUdef] at hfe
    set eqp : EqProof :=
      { revealed := (ordF.enum req.revealed).map (fun k => (k, attrValue vals k)), aPrime := val (S ^ rnd.r * A),
        e := c * (sig.e - LARGE_E_START_VALUE) + rnd.eT, v := c * (sig.v - sig.e * rnd.r) + rnd.vT,
        m := (ordF.enum U).map (fun k => (k, c * attrValue vals k + mTildeOf common rnd.mT k)),
        m2 := c * sig.m2 + m2t.getD rnd.m2T } with heqp
    have hlk : ∀ k ∈ U, eqp.m.lookup k = some (c * attrValue vals k + mTildeOf common rnd.mT k) := fun k hkm =>
      map_lookup_key (ordF.enum U) (fun k => c * attrValue vals k + mTildeOf common rnd.mT k) ((ordF.mem _ _).2 hkm)
    let nep : Predicate → NeProof := fun p =>
      { u := iterKeys.map (fun k => (k, c * rootOf (dat p).2.1 k + (nrnd p).uT k)),
        r := iterKeys.map (fun k => (k, c * (nrnd p).r k + (nrnd p).rT k)) ++ [("DELTA", c * (nrnd p).rDelta + (nrnd p).rTDelta)],
        mj := c * attrValue vals p.attrName + mTildeOf common rnd.mT p.attrName,
        alpha := ((nrnd p).rDelta - (iterKeys.map (fun k => rootOf (dat p).2.1 k * (nrnd p).r k)).sum) * c + (nrnd p).alphaT,
        t := (nei p).t, predicate := p }
    have hfn : ∀ p ∈ req.predicates, finalizeNeProof c (nei p) eqp = .ok (nep p) := by
      intro p hp
      exact finalizeNe_units c (nei p) eqp (dat p).2.1 (nrnd p) rfl rfl rfl rfl (hlk _ (hpU p hp))
    have hve := verifyEquality_units hk ordV eqp (rep_val (S ^ rnd.r * A)) c schema nonSchema req
      (fun k => c * attrValue vals k + mTildeOf common rnd.mT k) hUr hlk (by
        intro e he
        rw [heqp] at he
        simp only [List.mem_map] at he
        obtain ⟨k, hk1, rfl⟩ := he
        exact hpk k (hUk k (Finset.mem_union_right _ ((ordF.mem _ _).1 hk1))))
    rw [← hUdef] at hve
    have hprod : (eqp.revealed.map (fun e => R e.1 ^ e.2)).prod = hiddenProd R (attrValue vals) (ordF.enum req.revealed) := by
      rw [heqp, List.map_map]
      rfl
    have hsplit := attr_split R hnd hcom ord ordF U req.revealed (by
      rw [hUdef]; unfold unrevealedAttrs; exact Finset.sdiff_disjoint) hU
    have hcl' := hcl
    unfold CLEquation at hcl'
    rw [hsplit] at hcl'
    have hadd : hiddenProd R (fun k => c * attrValue vals k + mTildeOf common rnd.mT k) (ord.enum U) =
        hiddenProd R (attrValue vals) (ord.enum U) ^ c * hiddenProd R (mTildeOf common rnd.mT) (ord.enum U) := by
      rw [← hiddenProd_add]
      congr 1
      funext k
      ring
    rw [hprod, hiddenProd_perm R _ (ordV.perm ord U), hadd, heqp] at hve
    simp only [] at hve
    rw [eq_algebra A S C _ _ _ Z sig.e sig.v sig.m2 rnd.r c LARGE_E_START_VALUE rnd.eT rnd.vT _ hcl'] at hve
    have hvn : ∀ p ∈ req.predicates, verifyNePredicate mode pk (nep p) c = .ok (nei p).tauList := by
      intro p hp
      obtain ⟨-, h4, h5, h6, h7, h8⟩ := hdat p hp
      obtain ⟨g1, g2, g3⟩ := ne_algebra Z S c (dat p).1 (dat p).2.2 (attrValue vals p.attrName) (mTildeOf common rnd.mT p.attrName)
        (nrnd p).rDelta (nrnd p).rTDelta (nrnd p).alphaT (rootOf (dat p).2.1) (nrnd p).uT (nrnd p).r (nrnd p).rT h6 p.isLess h8
      obtain ⟨s1, s2⟩ := signedDelta_lin p.isLess c (nrnd p).rDelta (nrnd p).rTDelta hc (hnr p).1 (hnr p).2
      rw [verifyNe_units hk mode (nep p) c (fun k => c * rootOf (dat p).2.1 k + (nrnd p).uT k) (fun k => c * (nrnd p).r k + (nrnd p).rT k)
        (c * (nrnd p).rDelta + (nrnd p).rTDelta) (tUnit S Z (dat p).2.1 (nrnd p).r) (Z ^ (dat p).1 * S ^ (nrnd p).rDelta) (dat p).2.2
        (fun k hkm => map_lookup_key iterKeys (fun k => c * rootOf (dat p).2.1 k + (nrnd p).uT k) hkm) (iter_lookup _ _).1 (iter_lookup _ _).2
        (fun k hkm => ⟨_, (iter_lookup _ _).1 k hkm, rep_val _⟩) ⟨_, (iter_lookup _ _).2, rep_val _⟩ h7]
      simp only [nep, nei]
      rw [s1, s2, g2]
      unfold tUnit
      rw [g3]
      simp only [g1]
    have hcs : checkShape ⟨eqp, req.predicates.map nep⟩ req = .ok () := by
      unfold checkShape
      rw [if_neg, if_neg]
      · rw [not_not, List.map_map]
        have : (fun x : NeProof => x.predicate) ∘ nep = id := rfl
        rw [this, List.map_id]
      · rw [not_not, heqp]
        ext k
        simp only [List.map_map, List.mem_toFinset, List.mem_map, Function.comp, exists_eq_right, ordF.mem]
    refine ⟨⟨eqp, req.predicates.map nep⟩, val ((S ^ rnd.r * A) ^ rnd.eT * hiddenProd R (mTildeOf common rnd.mT) (ord.enum U) *
          S ^ rnd.vT * C ^ (m2t.getD rnd.m2T)) :: (req.predicates.map (fun p => (nei p).tauList)).flatten, ?_, hcs, ?_, ?_, hlk⟩
    · unfold finalizePrimaryProof
      rw [hfe, Res.ok_bind, List.mapM_map, mapM_ok ((fun x => finalizeNeProof c x eqp) ∘ nei) nep _ hfn, Res.ok_bind]
      rfl
    · unfold verifyPrimaryProof
      rw [hve, Res.ok_bind, List.mapM_map, mapM_ok ((fun x => verifyNePredicate mode pk x c) ∘ nep) (fun p => (nei p).tauList) _ hvn, Res.ok_bind]
      rfl
    · unfold PrimaryInit.asTauList
      simp only [List.map_cons, List.map_flatten, List.map_map]
      rfl

section
variable {F G1 G2 GT : Type} [Field F] [AddCommGroup G1] [Module F G1] [AddCommGroup G2] [Module F G2]
  [AddCommGroup GT] [Module F GT]

/-- one credential shown in a presentation: the issuer's public key, the credential, the attributes, what is asked for, the
revocation data, and the randomness the prover draws for it -/
structure Item (F G1 G2 GT : Type) where
  pk : CredPubKey G1 G2
  sig : CredSig F G1 G2
  vals : Map CredentialValue
  schema : Finset String
  nonSchema : Finset String
  req : SubProofRequest
  reg : Option G2
  witness : Option G2
  revKeyPub : Option GT
  x : NonRevRand F
  rnd : EqRand
  nrnd : Predicate → NeRand

/-- What a presentable credential is: the key is made of invertible numbers, the signature satisfies the CL equation for the
attribute values, the key covers all attributes, the request is about schema attributes, asks for no attribute both as a value and
in a predicate, its predicates are true (and stay inside `i32`), and the non-revocation part, if shown, is authentic. -/
structure Honest (e : G1 →ₗ[F] G2 →ₗ[F] GT) (it : Item F G1 G2 GT) : Prop where
  signed : ∃ (n : Nat) (S Z C : (ZMod n)ˣ) (R : String → (ZMod n)ˣ) (A : (ZMod n)ˣ), KeyUnits it.pk.pKey n S Z C R ∧
    Rep it.sig.p.a A ∧ CLEquation S Z C R A it.sig.p.e it.sig.p.v it.sig.p.m2 it.vals
  distinct : (it.vals.map (·.1)).Nodup
  noCommitment : ∀ a ∈ it.vals, a.2.isCommitment = false
  attrs : it.nonSchema ∪ it.schema = (it.vals.map (·.1)).toFinset
  covered : ∀ k ∈ it.vals.map (·.1), it.pk.pKey.r.hasKey k = true
  revealed : it.req.revealed ⊆ it.schema
  predicates : ∀ p ∈ it.req.predicates, p.attrName ∈ it.schema ∧ p.attrName ∉ it.req.revealed ∧
    InI32 (attrValue it.vals p.attrName) ∧ p.Holds (attrValue it.vals p.attrName) ∧
    (∃ d, p.getDelta .checked (attrValue it.vals p.attrName) = .ok d) ∧ ∃ d', p.getDeltaPrime .checked = .ok d'
  rand : ∀ p, 0 ≤ (it.nrnd p).rDelta ∧ 0 ≤ (it.nrnd p).rTDelta
  nonRevoked : ∀ rc acc rk w, it.sig.r = some rc → it.reg = some acc → it.pk.rKey = some rk → it.witness = some w →
    ∃ z, it.revKeyPub = some z ∧ Rev.Authentic e rk z acc rc.sigma rc.c rc.vr rc.m2 rc.gI rc.sigmaI rc.uI w

/-- the prover's calls: common attributes, then the credentials, then `finalize` -/
def present (e : G1 →ₗ[F] G2 →ₗ[F] GT) (cv : Conv F G1 G2 GT) (mode : Overflow) (sha : Bytes → Bytes) (ord ordF : SetOrder)
    (commons : List (String × Int)) (items : List (Item F G1 G2 GT)) (nonce : Int) : Res String (Proof F G1 G2) := do
  let b0 : Builder F G1 G2 GT := commons.foldl (fun b c => b.addCommonAttribute c.1 c.2) Builder.new
  let b ← items.foldlM (fun b it =>
    b.addSubProofRequest e cv mode ord it.req it.schema it.nonSchema it.sig it.vals it.pk it.reg it.witness it.x it.rnd it.nrnd) b0
  b.finalize cv sha ordF nonce

/-- the verifier's calls before `verify` -/
def expectItems (names : List String) (items : List (Item F G1 G2 GT)) : Res String (PVerifier G1 G2 GT) :=
  items.foldlM (fun v it => v.addSubProofRequest it.req it.schema it.nonSchema it.pk it.revKeyPub it.reg)
    (names.foldl (fun v k => v.addCommonAttribute k) PVerifier.new)

/-- the verifier's record of one item -/
def Item.cred (it : Item F G1 G2 GT) : VCred G1 G2 GT := ⟨it.pk, it.req, it.schema, it.nonSchema, it.revKeyPub, it.reg⟩

theorem checkCommon_ok (m : Map Int) (tgt : String → Int) : ∀ (com : Map (Option Int)),
    (∀ a ∈ com, m.lookup a.1 = some (tgt a.1) ∧ (a.2 = none ∨ a.2 = some (tgt a.1))) →
    checkCommon m com = (com.map (fun a => (a.1, some (tgt a.1))), .ok ())
  | [], _ => rfl
  | (k, st) :: rest, h => by
    have ih := checkCommon_ok m tgt rest (fun a ha => h a (by simp [ha]))
    obtain ⟨h1, h2⟩ := h (k, st) (by simp)
    simp only [] at h1 h2
    unfold checkCommon
    rw [h1]
    rcases h2 with rfl | rfl
    · simp only [ih]; rfl
    · simp only [ih]
      rw [if_neg (by simp)]
      rfl

/-- one credential: adding it to the builder succeeds, and for every challenge the finished sub proof passes the verifier's checks
and makes the verifier hash exactly the bytes the prover hashed -/
theorem item_complete (e : G1 →ₗ[F] G2 →ₗ[F] GT) (cv : Conv F G1 G2 GT) (mode : Overflow) (ord ordF ordV : SetOrder)
    (b : Builder F G1 G2 GT) (it : Item F G1 G2 GT) (h : Honest e it) :
    ∃ ini cl tl, b.addSubProofRequest e cv mode ord it.req it.schema it.nonSchema it.sig it.vals it.pk it.reg it.witness it.x it.rnd
        it.nrnd = .ok ⟨b.common, b.inits ++ [ini], b.cList ++ cl, b.tauList ++ tl⟩ ∧
      ∀ c, 0 ≤ c → ∃ sp tau, finalizeSubProof cv ordF c ini = .ok sp ∧ checkShape sp.primary it.req = .ok () ∧
        verifyPrimaryProof mode ordV it.pk.pKey c sp.primary it.schema it.nonSchema it.req = .ok tau ∧
        verifyNonRevoc e cv c sp it.cred ++ tau.map toBytes = tl ∧
        ∀ k ∈ unrevealedAttrs it.schema it.nonSchema it.req,
          sp.primary.eq.m.lookup k = some (c * attrValue it.vals k + mTildeOf b.common it.rnd.mT k) := by
  obtain ⟨n, S, Z, C, R, A, hk, hA, hcl⟩ := h.signed
  obtain ⟨pi, hpi, hfin⟩ := primary_complete hk mode ord ordF ordV b.common it.sig.p hA it.vals hcl h.distinct h.noCommitment
    it.schema it.nonSchema h.attrs h.covered it.req h.revealed h.predicates
    ((initNonRevoc e it.sig it.reg it.pk.rKey it.witness it.x).map (fun i => cv.ofF i.tauParams.m2)) it.rnd it.nrnd h.rand
  have hchk : checkBuilderParams it.vals it.req it.schema it.nonSchema = .ok () := by
    unfold checkBuilderParams
    simp only []
    have hs : it.schema ⊆ (it.vals.map (·.1)).toFinset := by rw [← h.attrs]; exact Finset.subset_union_right
    rw [if_neg (not_not.2 h.attrs), if_neg, if_neg, if_neg]
    · rw [not_not]
      ext k
      simp only [Finset.mem_inter, List.mem_toFinset, List.mem_map, Finset.notMem_empty, iff_false, not_and]
      rintro ⟨p, hp, rfl⟩
      exact (h.predicates p hp).2.1
    · rw [not_not, Finset.sdiff_eq_empty_iff_subset]
      intro k hkm
      rw [List.mem_toFinset, List.mem_map] at hkm
      obtain ⟨p, hp, rfl⟩ := hkm
      exact hs (h.predicates p hp).1
    · rw [not_not, Finset.sdiff_eq_empty_iff_subset]
      exact h.revealed.trans hs
  set nr := initNonRevoc e it.sig it.reg it.pk.rKey it.witness it.x with hnr
  refine ⟨⟨pi, nr, it.vals, it.req, it.schema, it.nonSchema⟩, (nr.map (fun i => cListBytes cv i.cList)).getD [] ++ pi.asCList,
    (nr.map (fun i => tauListBytes cv i.tauList)).getD [] ++ pi.asTauList, ?_, ?_⟩
  · unfold Builder.addSubProofRequest
    rw [hchk, Res.ok_bind]
    simp only []
    rw [← hnr, hpi, Res.ok_bind, ← List.append_assoc, ← List.append_assoc]
    rfl
  · intro c hc
    obtain ⟨pp, tau, h1, h2, h3, h4, h5⟩ := hfin c hc
    have hnrp : ∃ p, finalizeNonRevocOpt cv c nr = .ok p ∧
        verifyNonRevoc e cv c ⟨pp, p⟩ it.cred = (nr.map (fun i => tauListBytes cv i.tauList)).getD [] := by
      rw [hnr]
      unfold initNonRevoc
      cases hr : it.sig.r with
      | none => exact ⟨none, rfl, rfl⟩
      | some rc =>
        cases hreg : it.reg with
        | none => exact ⟨none, rfl, rfl⟩
        | some acc =>
          cases hrk : it.pk.rKey with
          | none => exact ⟨none, rfl, rfl⟩
          | some rk =>
            cases hw : it.witness with
            | none => exact ⟨none, rfl, rfl⟩
            | some w =>
              obtain ⟨z, hz, hauth⟩ := h.nonRevoked rc acc rk w hr hreg hrk hw
              obtain ⟨p, hp1, hp2⟩ := Rev.nonrevoc_proof_complete e rk z acc rc w hauth it.x.rho it.x.r it.x.r' it.x.r'' it.x.r'''
                it.x.o it.x.o' it.x.tau (cv.toF c)
              refine ⟨some p, ?_, ?_⟩
              · unfold finalizeNonRevocOpt
                simp only []
                rw [hp1]
                rfl
              · unfold verifyNonRevoc Item.cred
                simp only [hreg, hrk, hz, hp2]
                rfl
    obtain ⟨p, hp1, hp2⟩ := hnrp
    refine ⟨⟨pp, p⟩, tau, ?_, h2, h3, ?_, h5⟩
    · unfold finalizeSubProof
      simp only []
      rw [hp1, Res.ok_bind, h1, Res.ok_bind]
      rfl
    · rw [hp2, h4]

/-- a list of credentials: the builder's state, and the verifier's loop for every challenge -/
theorem items_complete (e : G1 →ₗ[F] G2 →ₗ[F] GT) (cv : Conv F G1 G2 GT) (mode : Overflow) (ord ordF ordV : SetOrder)
    (cval : String → Int) : ∀ (items : List (Item F G1 G2 GT)) (b : Builder F G1 G2 GT),
    (∀ it ∈ items, Honest e it ∧ ∀ k ∈ b.common.map (·.1), k ∈ unrevealedAttrs it.schema it.nonSchema it.req ∧
      attrValue it.vals k = cval k) →
    ∃ inis cl tl, items.foldlM (fun b it => b.addSubProofRequest e cv mode ord it.req it.schema it.nonSchema it.sig it.vals it.pk it.reg
        it.witness it.x it.rnd it.nrnd) b = .ok ⟨b.common, b.inits ++ inis, b.cList ++ cl, b.tauList ++ tl⟩ ∧
      ∀ c, 0 ≤ c → ∃ sps, inis.mapM (finalizeSubProof cv ordF c) = .ok sps ∧ sps.length = items.length ∧
        (∃ us, (sps.zip (items.map Item.cred)).mapM (fun x => checkShape x.1.primary x.2.req) = .ok us) ∧
        (∀ sp ∈ sps, ∀ k mt, b.common.lookup k = some mt → sp.primary.eq.m.lookup k = some (c * cval k + mt)) ∧
        ∀ com : Map (Option Int), (∀ a ∈ com, ∃ mt, b.common.lookup a.1 = some mt ∧ (a.2 = none ∨ a.2 = some (c * cval a.1 + mt))) →
          ∃ com', verifyLoop e cv mode ordV c (sps.zip (items.map Item.cred)) com = (com', .ok tl)
  | [], b, _ => by
    refine ⟨[], [], [], ?_, ?_⟩
    · simp
    · intro c _
      exact ⟨[], rfl, rfl, ⟨[], rfl⟩, by simp, fun com _ => ⟨com, rfl⟩⟩
  | it :: items, b, h => by
    obtain ⟨h0, hcom0⟩ := h it (by simp)
    obtain ⟨ini, cl, tl, hadd, hfin⟩ := item_complete e cv mode ord ordF ordV b it h0
    obtain ⟨inis, cl', tl', hadd', hfin'⟩ := items_complete e cv mode ord ordF ordV cval items
      ⟨b.common, b.inits ++ [ini], b.cList ++ cl, b.tauList ++ tl⟩ (fun x hx => h x (by simp [hx]))
    refine ⟨ini :: inis, cl ++ cl', tl ++ tl', ?_, ?_⟩
    · rw [List.foldlM_cons, hadd, Res.ok_bind, hadd']
      simp only [List.append_assoc, List.singleton_append]
    · intro c hc
      obtain ⟨sp, tau, g1, g2, g3, g4, g5⟩ := hfin c hc
      obtain ⟨sps, k1, k2, ⟨us, k3⟩, k5, k4⟩ := hfin' c hc
      refine ⟨sp :: sps, ?_, by simp [k2], ⟨() :: us, ?_⟩, ?_, ?_⟩
      · rw [List.mapM_cons, g1, Res.ok_bind, k1]
        rfl
      · rw [List.map_cons, List.zip_cons_cons, List.mapM_cons]
        have : checkShape sp.primary it.cred.req = .ok () := g2
        rw [this, Res.ok_bind, k3]
        rfl
      · intro sp' hsp' k mt hkm
        rcases List.mem_cons.1 hsp' with rfl | hsp'
        · obtain ⟨h3, h4⟩ := hcom0 k (hasKey_iff_mem.1 (hasKey_iff.2 ⟨mt, hkm⟩))
          rw [g5 k h3, h4, mTildeOf, hkm]
          rfl
        · exact k5 sp' hsp' k mt hkm
      · intro com hcom
        have hcm := checkCommon_ok sp.primary.eq.m (fun k => c * cval k + (b.common.lookup k).getD 0) com (by
          intro a ha
          obtain ⟨mt, h1, h2⟩ := hcom a ha
          have hmem : a.1 ∈ b.common.map (·.1) := hasKey_iff_mem.1 (hasKey_iff.2 ⟨mt, h1⟩)
          obtain ⟨h3, h4⟩ := hcom0 a.1 hmem
          refine ⟨?_, ?_⟩
          · rw [g5 a.1 h3, h4, mTildeOf, h1]; rfl
          · rw [h1]; exact h2)
        obtain ⟨com', hv⟩ := k4 (com.map (fun a => (a.1, some (c * cval a.1 + (b.common.lookup a.1).getD 0)))) (by
          intro a ha
          rw [List.mem_map] at ha
          obtain ⟨a', ha', rfl⟩ := ha
          obtain ⟨mt, h1, -⟩ := hcom a' ha'
          exact ⟨mt, h1, .inr (by simp only [h1]; rfl)⟩)
        refine ⟨com', ?_⟩
        rw [List.map_cons, List.zip_cons_cons]
        unfold verifyLoop
        simp only []
        rw [hcm]
        simp only []
        have hvp : verifyPrimaryProof mode ordV it.cred.pk.pKey c sp.primary it.cred.schema it.cred.nonSchema it.cred.req = .ok tau := g3
        rw [hvp]
        simp only []
        rw [hv, g4]

theorem builder_commons (commons : List (String × Int)) : ∀ (b : Builder F G1 G2 GT),
    let b' := commons.foldl (fun b c => b.addCommonAttribute c.1 c.2) b
    b'.inits = b.inits ∧ b'.cList = b.cList ∧ b'.tauList = b.tauList ∧
      ∀ k, b'.common.hasKey k = true ↔ k ∈ commons.map (·.1) ∨ b.common.hasKey k = true := by
  induction commons with
  | nil => intro b; simp
  | cons a l ih =>
    intro b
    obtain ⟨h1, h2, h3, h4⟩ := ih (b.addCommonAttribute a.1 a.2)
    refine ⟨h1, h2, h3, fun k => ?_⟩
    rw [List.foldl_cons, h4 k]
    have : (b.addCommonAttribute a.1 a.2).common.hasKey k = true ↔ k = a.1 ∨ b.common.hasKey k = true := by
      show (b.common.insert a.1 a.2).hasKey k = true ↔ _
      rw [hasKey_iff, hasKey_iff]
      by_cases hk : k = a.1
      · subst hk
        rw [lookup_insert_self]
        simp
      · rw [lookup_insert_ne _ _ hk]
        simp [hk]
    rw [this, List.map_cons, List.mem_cons]
    tauto

theorem verifier_commons (names : List String) : ∀ (v : PVerifier G1 G2 GT),
    (∀ a ∈ v.common, a.2 = none) →
    let v' := names.foldl (fun v k => v.addCommonAttribute k) v
    v'.creds = v.creds ∧ ∀ a ∈ v'.common, a.2 = none ∧ (a.1 ∈ names ∨ a.1 ∈ v.common.map (·.1)) := by
  induction names with
  | nil => intro v hv; exact ⟨rfl, fun a ha => ⟨hv a ha, .inr (List.mem_map.2 ⟨a, ha, rfl⟩)⟩⟩
  | cons k l ih =>
    intro v hv
    have hv' : ∀ a ∈ (v.addCommonAttribute k).common, a.2 = none := by
      intro a ha
      change a ∈ (k, none) :: v.common.filter _ at ha
      rcases List.mem_cons.1 ha with rfl | ha
      · rfl
      · exact hv a (List.mem_filter.1 ha).1
    obtain ⟨h1, h2⟩ := ih (v.addCommonAttribute k) hv'
    refine ⟨h1, fun a ha => ⟨(h2 a ha).1, ?_⟩⟩
    rcases (h2 a ha).2 with h | h
    · exact .inl (by simp [h])
    · rcases keys_insert h with h | h
      · exact .inl (by simp [h])
      · exact .inr h

theorem expectItems_ok (names : List String) (items : List (Item F G1 G2 GT))
    (h : ∀ it ∈ items, it.req.revealed ⊆ it.schema ∧ ∀ p ∈ it.req.predicates, p.attrName ∈ it.schema) :
    expectItems names items = .ok ⟨items.map Item.cred, (names.foldl (fun v k => v.addCommonAttribute k)
      (PVerifier.new : PVerifier G1 G2 GT)).common⟩ := by
  unfold expectItems
  have h1 := (verifier_commons names (PVerifier.new : PVerifier G1 G2 GT) (by intro a ha; simp [PVerifier.new] at ha)).1
  set v0 := names.foldl (fun v k => v.addCommonAttribute k) (PVerifier.new : PVerifier G1 G2 GT) with hv0
  have : ∀ (l : List (Item F G1 G2 GT)) (v : PVerifier G1 G2 GT), (∀ it ∈ l, it ∈ items) →
      l.foldlM (fun v it => v.addSubProofRequest it.req it.schema it.nonSchema it.pk it.revKeyPub it.reg) v =
        (.ok ⟨v.creds ++ l.map Item.cred, v.common⟩ : Res String (PVerifier G1 G2 GT)) := by
    intro l
    induction l with
    | nil => intro v _; simp
    | cons it l ih =>
      intro v hl
      have hchk : checkVerifierParams it.req it.schema = .ok () := by
        obtain ⟨g1, g2⟩ := h it (hl it (by simp))
        unfold checkVerifierParams
        rw [if_neg (by rw [not_not, Finset.sdiff_eq_empty_iff_subset]; exact g1), if_neg]
        rw [not_not, Finset.sdiff_eq_empty_iff_subset]
        intro k hkm
        rw [List.mem_toFinset, List.mem_map] at hkm
        obtain ⟨p, hp, rfl⟩ := hkm
        exact g2 p hp
      have hadd : v.addSubProofRequest it.req it.schema it.nonSchema it.pk it.revKeyPub it.reg =
          .ok ⟨v.creds ++ [it.cred], v.common⟩ := by
        unfold PVerifier.addSubProofRequest
        rw [hchk]
        rfl
      rw [List.foldlM_cons, hadd, Res.ok_bind, ih _ (fun x hx => hl x (by simp [hx]))]
      simp
  rw [this items v0 (fun _ h => h), h1]
  rfl

/-- `honest_presentation_accepted` with the responses of the common attributes -/
theorem honest_presentation_responses (e : G1 →ₗ[F] G2 →ₗ[F] GT) (cv : Conv F G1 G2 GT) (mode : Overflow) (sha : Bytes → Bytes)
    (ord ordF ordV : SetOrder) (commons : List (String × Int)) (names : List String) (hnames : ∀ k ∈ names, k ∈ commons.map (·.1))
    (items : List (Item F G1 G2 GT)) (cval : String → Int)
    (h : ∀ it ∈ items, Honest e it ∧ ∀ k ∈ commons.map (·.1), k ∈ unrevealedAttrs it.schema it.nonSchema it.req ∧
      attrValue it.vals k = cval k) (nonce : Int) :
    ∃ proof v, present e cv mode sha ord ordF commons items nonce = .ok proof ∧ expectItems names items = .ok v ∧
      (v.verify e cv mode sha ordV proof nonce).2 = .ok true ∧ proof.proofs.length = items.length ∧
      v.common.map (·.1) = (names.foldl (fun v k => v.addCommonAttribute k) (PVerifier.new : PVerifier G1 G2 GT)).common.map (·.1) ∧
      ∀ sp ∈ proof.proofs, ∀ k mt, (commons.foldl (fun b c => b.addCommonAttribute c.1 c.2) (Builder.new : Builder F G1 G2 GT)).common.lookup k =
        some mt → sp.primary.eq.m.lookup k = some (proof.cHash * cval k + mt) := by
  obtain ⟨b1, b2, b3, b4⟩ := builder_commons commons (Builder.new : Builder F G1 G2 GT)
  set b0 : Builder F G1 G2 GT := commons.foldl (fun b c => b.addCommonAttribute c.1 c.2) Builder.new with hb0
  have hkey : ∀ k, b0.common.hasKey k = true ↔ k ∈ commons.map (·.1) := by
    intro k
    rw [b4 k]
    simp [Builder.new, Map.hasKey]
  obtain ⟨inis, cl, tl, hadd, hfin⟩ := items_complete e cv mode ord ordF ordV cval items b0 (by
    intro it hit
    refine ⟨(h it hit).1, fun k hk => (h it hit).2 k ?_⟩
    rw [← hkey, hasKey_iff_mem]
    exact hk)
  rw [b1, b2, b3] at hadd
  have hv := expectItems_ok names items (fun it hit => ⟨(h it hit).1.revealed, fun p hp => ((h it hit).1.predicates p hp).1⟩)
  set v0 := names.foldl (fun v k => v.addCommonAttribute k) (PVerifier.new : PVerifier G1 G2 GT) with hv0
  have hvc := (verifier_commons names (PVerifier.new : PVerifier G1 G2 GT) (by intro a ha; simp [PVerifier.new] at ha)).2
  set c := getHashAsInt sha (tl ++ cl ++ [toBytes nonce]) with hc
  obtain ⟨sps, g1, g2, ⟨us, g3⟩, g5, g4⟩ := hfin c (getHashAsInt_nonneg _ _)
  obtain ⟨com', hloop⟩ := g4 v0.common (by
    intro a ha
    obtain ⟨h1, h2⟩ := hvc a ha
    have hm : a.1 ∈ names := by
      rcases h2 with h2 | h2
      · exact h2
      · simp [PVerifier.new] at h2
    obtain ⟨mt, hmt⟩ := hasKey_iff.1 ((hkey a.1).2 (hnames _ hm))
    exact ⟨mt, hmt, .inl h1⟩)
  refine ⟨⟨sps, c, cl⟩, _, ?_, hv, ?_, g2, rfl, g5⟩
  · unfold present
    simp only []
    rw [← hb0, hadd, Res.ok_bind]
    unfold Builder.finalize
    simp only [Builder.new, List.nil_append]
    rw [← hc, g1]
    rfl
  · unfold PVerifier.verify
    have hshape : checkVerifyParams (items.map Item.cred) (⟨sps, c, cl⟩ : Proof F G1 G2) = .ok () := by
      unfold checkVerifyParams
      simp only []
      rw [if_neg (by rw [List.length_map, g2]; simp), g3]
      rfl
    simp only []
    rw [hshape]
    simp only []
    rw [hloop]
    simp only []
    rw [← hc]
    simp

/-- **C20** For every number of presentable credentials, every choice of common attributes with equal values, all randomness, every
nonce, hash function, iteration order and overflow mode: the prover builds a proof, and a verifier set up with the same requests
and common attributes accepts it. -/
theorem honest_presentation_accepted (e : G1 →ₗ[F] G2 →ₗ[F] GT) (cv : Conv F G1 G2 GT) (mode : Overflow) (sha : Bytes → Bytes)
    (ord ordF ordV : SetOrder) (commons : List (String × Int)) (names : List String) (hnames : ∀ k ∈ names, k ∈ commons.map (·.1))
    (items : List (Item F G1 G2 GT)) (cval : String → Int)
    (h : ∀ it ∈ items, Honest e it ∧ ∀ k ∈ commons.map (·.1), k ∈ unrevealedAttrs it.schema it.nonSchema it.req ∧
      attrValue it.vals k = cval k) (nonce : Int) :
    ∃ proof v, present e cv mode sha ord ordF commons items nonce = .ok proof ∧ expectItems names items = .ok v ∧
      (v.verify e cv mode sha ordV proof nonce).2 = .ok true := by
  obtain ⟨proof, v, h1, h2, h3, -⟩ := honest_presentation_responses e cv mode sha ord ordF ordV commons names hnames items cval h nonce
  exact ⟨proof, v, h1, h2, h3⟩

end

/-! ## The hypotheses of `honest_presentation_accepted` are met -/

namespace Toy77

/-- a unit modulo 77 -/
def u (x : Nat) (h : x.Coprime 77 := by decide) : (ZMod 77)ˣ := ZMod.unitOfCoprime x h

/-- a small valid public key -/
def pk : PrimaryPubKey := ⟨77, 4, 16, [("master_secret", 9), ("name", 15), ("age", 25)], 9⟩

def R (k : String) : (ZMod 77)ˣ := if k = "master_secret" then u 9 else if k = "name" then u 15 else u 25

theorem key : KeyUnits pk 77 (u 4) (u 9) (u 16) R where
  hn := by norm_num
  n_eq := rfl
  s := ⟨by decide, by decide⟩
  z := ⟨by decide, by decide⟩
  c := ⟨by decide, by decide⟩
  r := by
    intro k x h
    have hm : (k, x) ∈ pk.r := mem_of_lookup h
    simp only [pk, List.mem_cons, Prod.mk.injEq, List.not_mem_nil, or_false] at hm
    rcases hm with ⟨rfl, rfl⟩ | ⟨rfl, rfl⟩ | ⟨rfl, rfl⟩ <;> exact ⟨by decide, by decide⟩

def vals : Map CredentialValue := [("master_secret", .hidden 6), ("name", .known 3), ("age", .known 28)]

/-- a credential satisfying the CL equation modulo 77 -/
def sig : PrimarySig := ⟨3, 16, 7, 5⟩

theorem signed : CLEquation (u 4) (u 9) (u 16) R (u 16) sig.e sig.v sig.m2 vals := by
  unfold CLEquation attrProd signedAttrs
  have : vals.filter (fun e => e.2.isKnown || e.2.isHidden) = vals := by decide
  rw [this]
  ext
  simp only [sig, vals, List.map_cons, List.map_nil, List.prod_cons, List.prod_nil, CredentialValue.value, mul_one]
  have e1 : ∀ (x : (ZMod 77)ˣ) (k : Nat), ((x ^ (k : Int) : (ZMod 77)ˣ) : ZMod 77) = (x : ZMod 77) ^ k := by
    intro x k; rw [zpow_natCast, Units.val_pow_eq_pow_val]
  have h7 := e1 (u 16) 7
  have h5 := e1 (u 4) 5
  have h3 := e1 (u 16) 3
  have k6 := e1 (R "master_secret") 6
  have k3 := e1 (R "name") 3
  have k28 := e1 (R "age") 28
  push_cast at h7 h5 h3 k6 k3 k28 ⊢
  rw [h7, h5, h3, k6, k3, k28]
  decide +kernel

/-- an iteration order -/
noncomputable def ord : SetOrder where
  enum s := s.toList
  nodup s := s.nodup_toList
  mem s k := by simp

/-- one item: reveal `name`, prove `age ≥ 18` and `age < 65`, keep the master secret hidden -/
def item (F G1 G2 GT : Type) [Zero F] : Item F G1 G2 GT where
  pk := ⟨pk, none⟩
  sig := ⟨sig, none⟩
  vals := vals
  schema := {"name", "age"}
  nonSchema := {"master_secret"}
  req := ⟨{"name"}, [⟨"age", .GE, 18⟩, ⟨"age", .LT, 65⟩]⟩
  reg := none
  witness := none
  revKeyPub := none
  x := ⟨0, 0, 0, 0, 0, 0, 0, ⟨0, 0, 0, 0, 0, 0, 0, 0, 0, 0, 0, 0, 0, 0⟩⟩
  rnd := ⟨21, 22, 23, 24, fun k => 25 + k.length⟩
  nrnd := fun _ => ⟨fun _ => 31, 32, fun _ => 33, fun _ => 34, 35, 36⟩

theorem honest {F G1 G2 GT : Type} [Field F] [AddCommGroup G1] [Module F G1] [AddCommGroup G2] [Module F G2]
    [AddCommGroup GT] [Module F GT] (e : G1 →ₗ[F] G2 →ₗ[F] GT) : Honest e (item F G1 G2 GT) where
  signed := ⟨77, u 4, u 9, u 16, R, u 16, key, (⟨by decide, by decide⟩ : Rep (16 : Int) (u 16)), signed⟩
  distinct := by show (vals.map (·.1)).Nodup; decide
  noCommitment := by show ∀ a ∈ vals, a.2.isCommitment = false; decide
  attrs := by show ({"master_secret"} ∪ {"name", "age"} : Finset String) = (vals.map (·.1)).toFinset; decide
  covered := by show ∀ k ∈ vals.map (·.1), pk.r.hasKey k = true; decide
  revealed := by show ({"name"} : Finset String) ⊆ {"name", "age"}; decide
  predicates := by
    intro p hp
    change p ∈ ([⟨"age", .GE, 18⟩, ⟨"age", .LT, 65⟩] : List Predicate) at hp
    have hv : attrValue vals "age" = 28 := by decide
    simp only [List.mem_cons, List.not_mem_nil, or_false] at hp
    rcases hp with rfl | rfl
    · refine ⟨(by decide : "age" ∈ ({"name", "age"} : Finset String)), (by decide : "age" ∉ ({"name"} : Finset String)), ?_, ?_, ⟨10, ?_⟩, ⟨18, rfl⟩⟩
      · show InI32 (attrValue vals "age"); rw [hv]; decide
      · show attrValue vals "age" ≥ 18; rw [hv]; decide
      · show Predicate.getDelta .checked ⟨"age", .GE, 18⟩ (attrValue vals "age") = _; rw [hv]; decide
    · refine ⟨(by decide : "age" ∈ ({"name", "age"} : Finset String)), (by decide : "age" ∉ ({"name"} : Finset String)), ?_, ?_, ⟨36, ?_⟩, ⟨64, by decide⟩⟩
      · show InI32 (attrValue vals "age"); rw [hv]; decide
      · show attrValue vals "age" < 65; rw [hv]; decide
      · show Predicate.getDelta .checked ⟨"age", .LT, 65⟩ (attrValue vals "age") = _; rw [hv]; decide
  rand := fun _ => ⟨by show (0 : Int) ≤ 32; decide, by show (0 : Int) ≤ 35; decide⟩
  nonRevoked := by intro rc acc rk w h; cases h

end Toy77

open Rev in
/-- `honest_presentation_accepted` applies: the same credential shown twice with the master secret as common attribute, and once
more with an authentic non-revocation part -/
example (cv : Conv (ZMod 101) (ZMod 101 × ZMod 101) (ZMod 101) (ZMod 101 × ZMod 101)) (sha : Bytes → Bytes) (nonce : Int) :=
  honest_presentation_accepted pair2 cv .checked sha Toy77.ord Toy77.ord Toy77.ord [("master_secret", 41)] ["master_secret"] (by simp)
    [Toy77.item _ _ _ _, Toy77.item _ _ _ _,
      { Toy77.item (ZMod 101) (ZMod 101 × ZMod 101) (ZMod 101) (ZMod 101 × ZMod 101) with sig := ⟨Toy77.sig, some toySig⟩, pk := ⟨Toy77.pk, some toyPub⟩, reg := some 2, revKeyPub := some (4, 0), witness := some 0 }]
    (fun _ => 6)
    (by
      have h := Toy77.honest pair2
      have hc : ∀ k ∈ ([("master_secret", 41)] : List (String × Int)).map (·.1),
          k ∈ unrevealedAttrs {"name", "age"} {"master_secret"} ⟨{"name"}, [⟨"age", .GE, 18⟩, ⟨"age", .LT, 65⟩]⟩ ∧
          attrValue Toy77.vals k = 6 := by
        intro k hk
        simp only [List.map_cons, List.map_nil, List.mem_singleton] at hk
        subst hk
        exact ⟨by decide, by decide⟩
      intro it hit
      simp only [List.mem_cons, List.not_mem_nil, or_false] at hit
      rcases hit with rfl | rfl | rfl
      · exact ⟨h, hc⟩
      · exact ⟨h, hc⟩
      · refine ⟨⟨h.signed, h.distinct, h.noCommitment, h.attrs, h.covered, h.revealed, h.predicates, h.rand, ?_⟩, hc⟩
        intro rc acc rk w h1 h2 h3 h4
        cases h1; cases h2; cases h3; cases h4
        exact ⟨_, rfl, toy_authentic⟩)
    nonce

end Verif.CL
