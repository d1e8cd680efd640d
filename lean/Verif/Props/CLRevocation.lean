import Verif.CL.Revocation
import Verif.Toy
import Mathlib.Tactic.Linarith
import Mathlib.Tactic.Abel
import Mathlib.Tactic.Module
import Mathlib.Algebra.BigOperators.Fin
import Mathlib.Algebra.Order.Group.Int
import Mathlib.Algebra.Module.LinearMap.End
/-!
# Properties of the revocation registry (C25–C30, C50)

Specification vocabulary (independent of the code):
* `accOf max γ g' V`  — the accumulator value that represents the set `V` of issued indices;
* `witOf max γ g' V i` — the witness of index `i` for the set `V`;
* `Op.Valid`, `Op.effect` — which issuer calls are legal on a set of issued indices, and what they do to it.
-/
namespace Verif.CL.Rev

open Verif Finset
set_option linter.unusedSectionVars false

section spec
variable {F G2 : Type} [Field F] [AddCommGroup G2] [Module F G2]

/-- accumulator of the set `V`: `Σ_{i ∈ V} g' γ^(max+1-i)` -/
def accOf (max : Nat) (γ : F) (g' : G2) (V : Finset Nat) : G2 := ∑ i ∈ V, (γ ^ (max + 1 - i)) • g'

/-- witness of index `i` for the set `V`: `Σ_{j ∈ V, j ≠ i} g' γ^(max+1-j+i)` -/
def witOf (max : Nat) (γ : F) (g' : G2) (V : Finset Nat) (i : Nat) : G2 :=
  ∑ j ∈ V.erase i, (γ ^ (max + 1 - j + i)) • g'

end spec

/-- the set of indices issued right after the registry was created -/
def initialSet (max : Nat) (byDefault : Bool) : Finset Nat := if byDefault then Icc 1 max else ∅

/-- a legal use of the issuer API when exactly the indices `V` are issued: a fresh index is signed / recovered only
while it is not issued, an index is revoked only while it is issued -/
def Op.Valid (max : Nat) (byDefault : Bool) (V : Finset Nat) : Op → Prop
  | .sign i => i ∈ Icc 1 max ∧ (byDefault = false → i ∉ V)
  | .revoke i => i ∈ V
  | .recover i => i ∈ Icc 1 max ∧ i ∉ V
  | .update I R => I ⊆ Icc 1 max ∧ Disjoint I V ∧ R ⊆ V

/-- the issued indices after the call -/
def Op.effect (byDefault : Bool) (V : Finset Nat) : Op → Finset Nat
  | .sign i => if byDefault then V else insert i V
  | .revoke i => V.erase i
  | .recover i => insert i V
  | .update I R => (V ∪ I) \ R

/-- every call of the history is legal when it happens -/
def ValidHistory (max : Nat) (byDefault : Bool) : Finset Nat → List Op → Prop
  | _, [] => True
  | V, op :: ops => op.Valid max byDefault V ∧ ValidHistory max byDefault (op.effect byDefault V) ops

/-- the issued indices after the history -/
def effectAll (byDefault : Bool) (V : Finset Nat) (ops : List Op) : Finset Nat := ops.foldl (Op.effect byDefault) V

section
variable {F G1 G2 GT : Type} [Field F] [AddCommGroup G1] [Module F G1] [AddCommGroup G2] [Module F G2]
  [AddCommGroup GT] [Module F GT]

/-! ### arithmetic of `u32` indices -/

theorem u32_nat {m : Overflow} {n : Nat} (x : Int) (hx : x = n) (h1 : n < 4294967296) : u32 m x = .ok n := by
  subst hx
  have : (0:Int) ≤ (n:Int) ∧ (n:Int) < 2^32 := by constructor <;> omega
  simp only [u32]; rw [if_pos this]; simp

theorem getIndex_ok {m : Overflow} {max i : Nat} (hmax : 2 * max + 1 < 2 ^ 32) (hi : i ≤ max + 1) :
    getIndex m max i = .ok (max + 1 - i) := by
  have hmax' : 2 * max + 1 < 4294967296 := hmax
  clear hmax
  unfold getIndex
  rw [u32_nat (n := max + 1) _ (by omega) (by omega), Res.ok_bind]
  rw [u32_nat (n := max + 1 - i) _ (by omega) (by omega)]

theorem witnessIndex_ok {m : Overflow} {max j i : Nat} (hmax : 2 * max + 1 < 2 ^ 32) (hj : j ∈ Icc 1 max)
    (hi : i ≤ max) : witnessIndex m max j i = .ok (max + 1 - j + i) := by
  rw [mem_Icc] at hj
  have hmax' : 2 * max + 1 < 4294967296 := hmax
  clear hmax
  obtain ⟨h1, h2⟩ := hj
  unfold witnessIndex
  rw [u32_nat (n := max + 1) _ (by omega) (by omega), Res.ok_bind]
  rw [u32_nat (n := max + 1 - j) _ (by omega) (by omega), Res.ok_bind]
  rw [u32_nat (n := max + 1 - j + i) _ (by omega) (by omega)]

/-! ### C30 the tails -/

theorem collectFrom_spec (fuel : Nat) (t : TailsGen F G2) (acc : List G2) (hf : t.count < fuel) :
    collectFrom fuel t acc =
      (acc ++ (List.range' t.currentIndex t.count).map (fun i => (t.gamma ^ i) • t.gDash),
        { t with currentIndex := t.currentIndex + t.count }) := by
  induction fuel generalizing t acc with
  | zero => omega
  | succ fuel ih =>
    unfold collectFrom TailsGen.tryNext
    by_cases h : t.currentIndex ≥ t.size
    · have : t.count = 0 := by unfold TailsGen.count; omega
      simp [h, this]
    · simp only [h, if_false]
      rw [ih]
      · have hc : t.count = ({ t with currentIndex := t.currentIndex + 1 } : TailsGen F G2).count + 1 := by
          unfold TailsGen.count; simp only; omega
        rw [hc, List.range'_succ]
        simp [newTail]
        omega
      · unfold TailsGen.count at *; simp only; omega

/-- **C30** For a registry of size `max` the generator announces `2*max+1` tails, yields exactly
`g' γ^0, …, g' γ^(2 max)` in this order, and is then exhausted: further calls return `None`, again and again. -/
theorem tails_generator_spec (m : Overflow) (max : Nat) (γ : F) (g' : G2) (hmax : 2 * max + 1 < 2 ^ 32) :
    ∃ gen, TailsGen.new m max γ g' = .ok gen ∧ gen.count = 2 * max + 1 ∧
      collectTails gen = (List.range (2 * max + 1)).map (fun i => (γ ^ i) • g') ∧
      ((collectFrom (gen.count + 1) gen []).2).tryNext =
        (none, (collectFrom (gen.count + 1) gen []).2) := by
  refine ⟨{ size := 2 * max + 1, currentIndex := 0, gDash := g', gamma := γ }, ?_, rfl, ?_, ?_⟩
  · have hmax' : 2 * max + 1 < 4294967296 := hmax
    clear hmax
    unfold TailsGen.new
    rw [u32_nat (n := 2 * max) _ (by omega) (by omega), Res.ok_bind]
    rw [u32_nat (n := 2 * max + 1) _ (by omega) (by omega), Res.ok_bind]
    rfl
  · unfold collectTails
    rw [collectFrom_spec _ _ _ (by omega)]
    simp [TailsGen.count, List.range_eq_range']
  · rw [collectFrom_spec _ _ _ (by omega)]
    simp [TailsGen.tryNext, TailsGen.count]

/-- **C30** each single call of `try_next` yields the tail of the current position and advances by one, and `count`
is the number of tails still to come. -/
theorem tails_try_next_spec (t : TailsGen F G2) :
    (t.currentIndex < t.size → t.tryNext = (some ((t.gamma ^ t.currentIndex) • t.gDash), { t with currentIndex := t.currentIndex + 1 }) ∧
      t.tryNext.2.count + 1 = t.count) ∧
    (t.size ≤ t.currentIndex → t.tryNext = (none, t) ∧ t.count = 0) := by
  constructor
  · intro h
    have : ¬ t.currentIndex ≥ t.size := by omega
    simp only [TailsGen.tryNext, this, if_false, TailsGen.count, newTail, true_and]
    omega
  · intro h
    simp only [TailsGen.tryNext, h, ge_iff_le, if_true, TailsGen.count, true_and]
    omega

/-- **C30** the accessor returns the `i`-th generated tail for every `i ≤ 2 max`, and panics beyond. -/
theorem tails_access_spec (m : Overflow) (max : Nat) (γ : F) (g' : G2) (hmax : 2 * max + 1 < 2 ^ 32) (gen : TailsGen F G2)
    (hgen : TailsGen.new m max γ g' = .ok gen) (i : Nat) :
    accessTail (collectTails gen) i = if i ≤ 2 * max then .ok ((γ ^ i) • g') else .panic := by
  obtain ⟨gen', h1, -, h3, -⟩ := tails_generator_spec m max γ g' hmax
  rw [h1] at hgen
  cases hgen
  unfold accessTail
  rw [h3]
  split
  · rw [List.getElem?_eq_getElem (by simp; omega)]; simp
  · rw [List.getElem?_eq_none (by simp; omega)]; rfl

/-- **C30** (boundary) a registry too large for `u32` is refused by panicking in debug builds; release builds wrap around
and produce fewer tails than needed. -/
theorem tails_generator_overflow (max : Nat) (γ : F) (g' : G2) (h1 : 2147483648 ≤ max) (h2 : max < 4294967296) :
    TailsGen.new .checked max γ g' = .panic ∧
    ∃ gen, TailsGen.new .wrapping max γ g' = .ok gen ∧ gen.count = 2 * max + 1 - 4294967296 := by
  have h : ¬ (0 ≤ 2 * (max : Int) ∧ 2 * (max : Int) < 2 ^ 32) := by omega
  constructor
  · unfold TailsGen.new u32
    rw [if_neg h]; rfl
  · refine ⟨{ size := 2 * max + 1 - 4294967296, currentIndex := 0, gDash := g', gamma := γ }, ?_, by simp [TailsGen.count]⟩
    have h3 : u32 .wrapping (2 * (max : Int)) = .ok (2 * max - 4294967296) := by
      have h4 : (2 * (max : Int) % 2 ^ 32).toNat = 2 * max - 4294967296 := by omega
      unfold u32; rw [if_neg h]; simp only [h4]
    unfold TailsGen.new
    rw [h3, Res.ok_bind, u32_nat (n := 2 * max + 1 - 4294967296) _ (by omega) (by omega)]
    rfl

/-! ### creation of the registry -/

theorem initialAccum_spec {m : Overflow} {max : Nat} (hmax : 2 * max + 1 < 2 ^ 32) (γ : F) (g' : G2) (k : Nat) (hk : k ≤ max)
    (acc : G2) :
    initialAccum m max g' γ k acc = .ok (acc + accOf max γ g' (Icc (max - k + 1) max)) := by
  induction k generalizing acc with
  | zero =>
    have : Icc (max - 0 + 1) max = ∅ := by ext x; simp
    rw [initialAccum, this]; simp [accOf]
  | succ k ih =>
    unfold initialAccum
    rw [getIndex_ok hmax (by omega)]
    simp only [Res.ok_bind]
    rw [ih (by omega)]
    have : Icc (max - (k + 1) + 1) max = insert (max - k) (Icc (max - k + 1) max) := by
      ext x; simp; omega
    rw [this]
    unfold accOf
    rw [sum_insert (by simp)]
    simp only [newTail]
    rw [add_assoc]

/-- creating a registry succeeds; its public key is `e(g,g')^(γ^(max+1))`, its accumulator represents all indices
`1..max` (issuance by default) or none, and its generator is the one of `tails_generator_spec` -/
theorem registry_created (m : Overflow) (e : G1 →ₗ[F] G2 →ₗ[F] GT) (pk : PubKey G1 G2) (max : Nat) (byDefault : Bool) (γ : F)
    (hmax : 2 * max + 1 < 2 ^ 32) :
    ∃ gen, TailsGen.new m max γ pk.gDash = .ok gen ∧
      newRevocationRegistryDef m e pk max byDefault γ =
        .ok ((γ ^ (max + 1)) • e pk.g pk.gDash, accOf max γ pk.gDash (initialSet max byDefault), gen) := by
  obtain ⟨gen, h1, -, -, -⟩ := tails_generator_spec m max γ pk.gDash hmax
  refine ⟨gen, h1, ?_⟩
  have hz : newRevocationRegistryKeys m e pk max γ = .ok ((γ ^ (max + 1)) • e pk.g pk.gDash) := by
    unfold newRevocationRegistryKeys
    have hmax' : 2 * max + 1 < 4294967296 := hmax
    clear hmax
    rw [u32_nat (n := max + 1) _ (by omega) (by omega)]
    rfl
  have hr : newRevocationRegistry m pk γ max byDefault = .ok (accOf max γ pk.gDash (initialSet max byDefault)) := by
    unfold newRevocationRegistry initialSet
    cases byDefault
    · simp [accOf]
    · simp only [if_true]
      rw [initialAccum_spec hmax _ _ _ le_rfl]
      simp
  unfold newRevocationRegistryDef
  rw [hz, hr, h1]
  rfl

/-! ### loops over tails -/

/-- what an honest tails list looks like -/
def HonestTails (max : Nat) (γ : F) (g' : G2) (tails : List G2) : Prop :=
  ∀ i, i ≤ 2 * max → accessTail tails i = .ok ((γ ^ i) • g')

theorem honestTails_of_setup {m : Overflow} {max : Nat} {γ : F} {g' : G2} (hmax : 2 * max + 1 < 2 ^ 32) {gen : TailsGen F G2}
    (hgen : TailsGen.new m max γ g' = .ok gen) : HonestTails max γ g' (collectTails gen) := by
  intro i hi
  rw [tails_access_spec m max γ g' hmax gen hgen, if_pos hi]

theorem addTails_spec {m : Overflow} {max : Nat} {γ : F} {g' : G2} (hmax : 2 * max + 1 < 2 ^ 32) {tails : List G2}
    (ht : HonestTails max γ g' tails) (l : List Nat) (hl : ∀ i ∈ l, i ∈ Icc 1 max) (acc : G2) :
    addTails m max tails l acc = .ok (acc + (l.map (fun i => (γ ^ (max + 1 - i)) • g')).sum) := by
  induction l generalizing acc with
  | nil => simp [addTails]
  | cons i l ih =>
    have hi := hl i (by simp)
    rw [mem_Icc] at hi
    unfold addTails
    rw [getIndex_ok hmax (by omega)]
    simp only [Res.ok_bind]
    rw [ht _ (by omega)]
    simp only [Res.ok_bind]
    rw [ih (fun j hj => hl j (by simp [hj]))]
    simp [add_assoc]

theorem subTails_spec {m : Overflow} {max : Nat} {γ : F} {g' : G2} (hmax : 2 * max + 1 < 2 ^ 32) {tails : List G2}
    (ht : HonestTails max γ g' tails) (l : List Nat) (hl : ∀ i ∈ l, i ∈ Icc 1 max) (acc : G2) :
    subTails m max tails l acc = .ok (acc - (l.map (fun i => (γ ^ (max + 1 - i)) • g')).sum) := by
  induction l generalizing acc with
  | nil => simp [subTails]
  | cons i l ih =>
    have hi := hl i (by simp)
    rw [mem_Icc] at hi
    unfold subTails
    rw [getIndex_ok hmax (by omega)]
    simp only [Res.ok_bind]
    rw [ht _ (by omega)]
    simp only [Res.ok_bind]
    rw [ih (fun j hj => hl j (by simp [hj]))]
    simp [sub_sub]

theorem sort_map_sum {M : Type} [AddCommMonoid M] (s : Finset Nat) (f : Nat → M) :
    ((s.sort (· ≤ ·)).map f).sum = ∑ i ∈ s, f i := by
  rw [← List.sum_toFinset f (s.sort_nodup (· ≤ ·)), s.sort_toFinset]

theorem witnessSum_spec {m : Overflow} {max i : Nat} {γ : F} {g' : G2} (hmax : 2 * max + 1 < 2 ^ 32) (hi : i ≤ max)
    {tails : List G2} (ht : HonestTails max γ g' tails) (l : List Nat) (hl : ∀ j ∈ l, j ∈ Icc 1 max) (acc : G2) :
    witnessSum m max i tails l acc = .ok (acc + (l.map (fun j => (γ ^ (max + 1 - j + i)) • g')).sum) := by
  induction l generalizing acc with
  | nil => simp [witnessSum]
  | cons j l ih =>
    have hj := hl j (by simp)
    unfold witnessSum
    rw [witnessIndex_ok hmax hj hi]
    rw [mem_Icc] at hj
    simp only [Res.ok_bind]
    rw [ht _ (by omega)]
    simp only [Res.ok_bind]
    rw [ih (fun k hk => hl k (by simp [hk]))]
    simp [add_assoc]

/-- the order in which a hash set is iterated does not matter for successful runs -/
theorem witnessSum_perm {m : Overflow} {max i : Nat} {tails : List G2} {l l' : List Nat} (hp : l.Perm l') (acc w : G2)
    (h : witnessSum m max i tails l acc = .ok w) : witnessSum m max i tails l' acc = .ok w := by
  induction hp generalizing acc with
  | nil => exact h
  | cons x _ ih =>
    unfold witnessSum at h ⊢
    rw [Res.bind_eq_ok] at h
    obtain ⟨a, ha, h⟩ := h
    rw [Res.bind_eq_ok] at h
    obtain ⟨t, ht, h⟩ := h
    rw [ha, Res.ok_bind, ht, Res.ok_bind]
    exact ih _ h
  | swap x y l =>
    simp only [witnessSum, Res.bind_eq_ok] at h ⊢
    obtain ⟨a, ha, t, ht, b, hb, s, hs, h⟩ := h
    refine ⟨b, hb, s, hs, a, ha, t, ht, ?_⟩
    rwa [add_right_comm]
  | trans _ _ ih1 ih2 => exact ih2 _ (ih1 _ h)

/-! ### C25 -/

theorem mem_valid_range {max : Nat} {byDefault : Bool} {V : Finset Nat} (hV : V ⊆ Icc 1 max) {op : Op}
    (hop : op.Valid max byDefault V) : op.effect byDefault V ⊆ Icc 1 max := by
  cases op with
  | sign i =>
    simp only [Op.effect]; split
    · exact hV
    · exact insert_subset hop.1 hV
  | revoke i => exact (erase_subset _ _).trans hV
  | recover i => exact insert_subset hop.1 hV
  | update I R => exact sdiff_subset.trans (union_subset hV hop.1)

theorem accOf_erase {max : Nat} {γ : F} {g' : G2} {V : Finset Nat} {i : Nat} (h : i ∈ V) :
    accOf max γ g' V - (γ ^ (max + 1 - i)) • g' = accOf max γ g' (V.erase i) := by
  unfold accOf; rw [← add_sum_erase V _ h]; abel

theorem accOf_insert {max : Nat} {γ : F} {g' : G2} {V : Finset Nat} {i : Nat} (h : i ∉ V) :
    accOf max γ g' V + (γ ^ (max + 1 - i)) • g' = accOf max γ g' (insert i V) := by
  unfold accOf; rw [sum_insert h]; abel

/-- the delta published by one call, in terms of sets -/
def DeltaFor (V V' : Finset Nat) (d : Delta G2) : Prop := d.issued = V' \ V ∧ d.revoked = V \ V'

theorem sum_union_sdiff {M : Type} [AddCommGroup M] (f : Nat → M) {V I R : Finset Nat} (h1 : Disjoint I V) (h2 : R ⊆ V) :
    ∑ i ∈ (V ∪ I) \ R, f i = (∑ i ∈ V, f i + ∑ i ∈ I, f i) - ∑ i ∈ R, f i := by
  have : R ⊆ V ∪ I := h2.trans subset_union_left
  rw [← sum_union h1.symm, ← sum_sdiff this]; abel

theorem op_run_spec {m : Overflow} {max : Nat} {γ : F} {g' : G2} (hmax : 2 * max + 1 < 2 ^ 32)
    {tails : List G2} (ht : HonestTails max γ g' tails) {byDefault : Bool} {V : Finset Nat} (hV : V ⊆ Icc 1 max) {op : Op}
    (hop : op.Valid max byDefault V) :
    ∃ d, op.run m max byDefault tails (accOf max γ g' V) = .ok (accOf max γ g' (op.effect byDefault V), d) ∧
      (∀ x ∈ d, x.prevAccum = some (accOf max γ g' V) ∧ x.accum = accOf max γ g' (op.effect byDefault V) ∧
        DeltaFor V (op.effect byDefault V) x) ∧
      (d = none → op.effect byDefault V = V) := by
  cases op with
  | sign i =>
    obtain ⟨hi, hb⟩ := hop
    rw [mem_Icc] at hi
    simp only [Op.run, registerIssued, Op.effect]
    rw [getIndex_ok hmax (by omega)]
    simp only [Res.ok_bind]
    cases byDefault
    · have hiV := hb rfl
      simp only [Bool.false_eq_true, if_false]
      rw [ht _ (by omega)]
      simp only [Res.ok_bind, Res.pure_eq]
      rw [accOf_insert hiV]
      refine ⟨_, rfl, ?_, by simp⟩
      simp only [Option.mem_def, Option.some.injEq, forall_eq', true_and]
      constructor
      · ext x; simp only [mem_singleton, mem_sdiff, mem_insert]; constructor
        · rintro rfl; exact ⟨Or.inl rfl, hiV⟩
        · tauto
      · ext x; simp; tauto
    · exact ⟨none, rfl, by simp, by simp⟩
  | revoke i =>
    have hi := hV hop
    rw [mem_Icc] at hi
    simp only [Op.run, revokeCredential, Op.effect]
    rw [getIndex_ok hmax (by omega)]
    simp only [Res.ok_bind]
    rw [ht _ (by omega)]
    simp only [Res.ok_bind, Res.pure_eq]
    rw [accOf_erase hop]
    refine ⟨_, rfl, ?_, by simp⟩
    simp only [Option.mem_def, Option.some.injEq, forall_eq', true_and]
    constructor
    · ext x; simp
    · ext x; simp only [mem_singleton, mem_sdiff, mem_erase]; constructor
      · rintro rfl; exact ⟨hop, by tauto⟩
      · tauto
  | recover i =>
    obtain ⟨hi, hiV⟩ := hop
    rw [mem_Icc] at hi
    simp only [Op.run, recoveryCredential, Op.effect]
    rw [getIndex_ok hmax (by omega)]
    simp only [Res.ok_bind]
    rw [ht _ (by omega)]
    simp only [Res.ok_bind, Res.pure_eq]
    rw [accOf_insert hiV]
    refine ⟨_, rfl, ?_, by simp⟩
    simp only [Option.mem_def, Option.some.injEq, forall_eq', true_and]
    constructor
    · ext x; simp only [mem_singleton, mem_sdiff, mem_insert]; constructor
      · rintro rfl; exact ⟨Or.inl rfl, hiV⟩
      · tauto
    · ext x; simp; tauto
  | update I R =>
    obtain ⟨h1, h2, h3⟩ := hop
    simp only [Op.run, updateRevocationRegistry, Op.effect]
    rw [addTails_spec hmax ht _ (fun i hi => h1 (by simpa using hi))]
    simp only [Res.ok_bind]
    rw [subTails_spec hmax ht _ (fun i hi => hV (h3 (by simpa using hi)))]
    simp only [Res.ok_bind, Res.pure_eq, sort_map_sum]
    have : accOf max γ g' V + ∑ i ∈ I, γ ^ (max + 1 - i) • g' - ∑ i ∈ R, γ ^ (max + 1 - i) • g' =
        accOf max γ g' ((V ∪ I) \ R) := by
      unfold accOf; rw [sum_union_sdiff _ h2 h3]
    rw [this]
    refine ⟨_, rfl, ?_, by simp⟩
    simp only [Option.mem_def, Option.some.injEq, forall_eq', true_and]
    rw [disjoint_left] at h2
    constructor
    · ext x; simp only [mem_sdiff, mem_union]
      have := @h2 x; have := @h3 x; tauto
    · ext x; simp only [mem_sdiff, mem_union]
      have := @h2 x; have := @h3 x; tauto

/-- deltas `ds` lead from the accumulator of `V` to the accumulator of `V'`, one after the other -/
def DeltaChain (max : Nat) (γ : F) (g' : G2) : Finset Nat → List (Delta G2) → Finset Nat → Prop
  | V, [], V' => V = V'
  | V, d :: ds, V' => ∃ V1, V1 ⊆ Icc 1 max ∧ d.prevAccum = some (accOf max γ g' V) ∧ d.accum = accOf max γ g' V1 ∧
      DeltaFor V V1 d ∧ DeltaChain max γ g' V1 ds V'

theorem runOps_spec {m : Overflow} {max : Nat} {γ : F} {g' : G2} (hmax : 2 * max + 1 < 2 ^ 32)
    {tails : List G2} (ht : HonestTails max γ g' tails) {byDefault : Bool} (ops : List Op) {V : Finset Nat}
    (hV : V ⊆ Icc 1 max) (hops : ValidHistory max byDefault V ops) :
    ∃ ds, runOps m max byDefault tails ops (accOf max γ g' V) = .ok (accOf max γ g' (effectAll byDefault V ops), ds) ∧
      DeltaChain max γ g' V ds (effectAll byDefault V ops) ∧ effectAll byDefault V ops ⊆ Icc 1 max := by
  induction ops generalizing V with
  | nil => exact ⟨[], rfl, rfl, hV⟩
  | cons op ops ih =>
    obtain ⟨hop, hops⟩ := hops
    obtain ⟨d, h1, h2, h3⟩ := op_run_spec (m := m) hmax ht hV hop
    have hV1 := mem_valid_range hV hop
    obtain ⟨ds, h4, h5, h6⟩ := ih hV1 hops
    refine ⟨d.toList ++ ds, ?_, ?_, h6⟩
    · unfold runOps
      rw [h1]
      simp only [Res.ok_bind]
      rw [h4]
      rfl
    · cases d with
      | none => rw [h3 rfl] at h5; simpa [effectAll, h3 rfl] using h5
      | some d =>
        obtain ⟨a, b, c⟩ := h2 d rfl
        exact ⟨_, hV1, a, b, c, h5⟩

theorem initialSet_subset (max : Nat) (byDefault : Bool) : initialSet max byDefault ⊆ Icc 1 max := by
  unfold initialSet; split <;> simp

/-- **C25** Create a registry of any size and run any legal sequence of issuer calls (sign, revoke, recover, batch
update).  No call fails, and the accumulator ends as the sum of `g' γ^(max+1-i)` over exactly the indices issued
according to the history. -/
theorem accumulator_matches_issued_set (m : Overflow) (e : G1 →ₗ[F] G2 →ₗ[F] GT) (pk : PubKey G1 G2) (max : Nat)
    (byDefault : Bool) (γ : F) (hmax : 2 * max + 1 < 2 ^ 32) (z : GT) (reg0 : G2) (gen : TailsGen F G2)
    (hsetup : newRevocationRegistryDef m e pk max byDefault γ = .ok (z, reg0, gen))
    (ops : List Op) (hops : ValidHistory max byDefault (initialSet max byDefault) ops) :
    ∃ ds, runOps m max byDefault (collectTails gen) ops reg0 =
      .ok (∑ i ∈ effectAll byDefault (initialSet max byDefault) ops, (γ ^ (max + 1 - i)) • pk.gDash, ds) := by
  obtain ⟨gen', hg, h⟩ := registry_created m e pk max byDefault γ hmax
  rw [h] at hsetup
  cases hsetup
  obtain ⟨ds, h1, -, -⟩ := runOps_spec (m := m) hmax (honestTails_of_setup hmax hg) ops (initialSet_subset max byDefault) hops
  exact ⟨ds, h1⟩

/-! ### C29 merging deltas -/

/-- what a delta does to the set of issued indices -/
def Delta.apply (d : Delta G2) (V : Finset Nat) : Finset Nat := (V ∪ d.issued) \ d.revoked

/-- a delta makes sense for a set: it issues only non-issued and revokes only issued indices -/
def Delta.ValidFor (d : Delta G2) (V : Finset Nat) : Prop := Disjoint d.issued V ∧ d.revoked ⊆ V

theorem validFor_iff_deltaFor (d : Delta G2) (V : Finset Nat) : d.ValidFor V ↔ DeltaFor V (d.apply V) d := by
  unfold Delta.ValidFor DeltaFor Delta.apply
  constructor
  · rintro ⟨h1, h2⟩
    rw [disjoint_left] at h1
    constructor <;>
    · ext x; simp only [mem_sdiff, mem_union]
      have := @h1 x; have := @h2 x; tauto
  · rintro ⟨h1, h2⟩
    constructor
    · rw [h1, disjoint_left]; intro x hx; exact (mem_sdiff.1 hx).2
    · rw [h2]; exact sdiff_subset

theorem deltaFor_apply {d : Delta G2} {V V' : Finset Nat} (h : DeltaFor V V' d) : d.apply V = V' := by
  unfold Delta.apply; rw [h.1, h.2]
  ext x; simp only [mem_sdiff, mem_union]; tauto

variable [DecidableEq G2]

/-- **C29** Deltas are mergeable exactly when the second starts at the accumulator the first ends with.  The merged
delta starts where the first starts, ends where the second ends, makes sense for the original set, and applying it is
applying the two one after the other. -/
theorem merge_composes (d1 d2 : Delta G2) (V : Finset Nat) (h1 : d1.ValidFor V) (h2 : d2.ValidFor (d1.apply V))
    (hc : d2.prevAccum = some d1.accum) :
    ∃ d, d1.merge d2 = .ok d ∧ d.prevAccum = d1.prevAccum ∧ d.accum = d2.accum ∧ d.ValidFor V ∧
      d.apply V = d2.apply (d1.apply V) := by
  rw [validFor_iff_deltaFor] at h1 h2
  refine ⟨⟨d1.prevAccum, d2.accum, (d1.issued ∪ (d2.issued \ d1.revoked)) \ d2.revoked,
    (d1.revoked ∪ (d2.revoked \ (d1.issued ∪ (d2.issued \ d1.revoked)))) \ d2.issued⟩, by simp [Delta.merge, hc], rfl, rfl, ?_⟩
  have : DeltaFor V (d2.apply (d1.apply V)) (⟨d1.prevAccum, d2.accum,
      (d1.issued ∪ (d2.issued \ d1.revoked)) \ d2.revoked,
      (d1.revoked ∪ (d2.revoked \ (d1.issued ∪ (d2.issued \ d1.revoked)))) \ d2.issued⟩ : Delta G2) := by
    generalize d1.apply V = V1 at *
    generalize d2.apply V1 = V2 at *
    obtain ⟨a1, a2⟩ := h1
    obtain ⟨b1, b2⟩ := h2
    constructor
    · simp only [a1, a2, b1, b2]; ext x; simp only [mem_sdiff, mem_union]; tauto
    · simp only [a1, a2, b1, b2]; ext x; simp only [mem_sdiff, mem_union]; tauto
  constructor
  · rw [validFor_iff_deltaFor, deltaFor_apply this]; exact this
  · exact deltaFor_apply this

/-- **C29** deltas that are not consecutive (or have no starting accumulator) are rejected, and only those -/
theorem merge_rejected_iff (d1 d2 : Delta G2) :
    d2.prevAccum ≠ some d1.accum ↔ d1.merge d2 = .err "Deltas can not be merged." := by
  unfold Delta.merge
  cases h : d2.prevAccum with
  | none => simp
  | some p =>
    by_cases hp : d1.accum = p
    · simp [hp]
    · simp [hp]; exact fun h => hp h.symm

/-- **C29** (limit of the claim) for a delta that revokes an index that is not issued, merging is not composition -/
theorem merge_invalid_not_composition (a : G2) :
    ∃ (d1 d2 d : Delta G2) (V : Finset Nat), d1.merge d2 = .ok d ∧ d.apply V ≠ d2.apply (d1.apply V) := by
  refine ⟨⟨none, a, ∅, {1}⟩, ⟨some a, a, {1}, ∅⟩, _, ∅, by simp [Delta.merge]; rfl, ?_⟩
  simp [Delta.apply]

theorem mergeAll_chain {max : Nat} {γ : F} {g' : G2} (ds : List (Delta G2)) (d : Delta G2) (V V1 V2 : Finset Nat)
    (hd : DeltaFor V V1 d) (ha : d.accum = accOf max γ g' V1) (hc : DeltaChain max γ g' V1 ds V2) :
    ∃ D, mergeAll d ds = .ok D ∧ DeltaFor V V2 D ∧ D.accum = accOf max γ g' V2 ∧ D.prevAccum = d.prevAccum := by
  induction ds generalizing d V1 with
  | nil => cases hc; exact ⟨d, rfl, hd, ha, rfl⟩
  | cons d' ds ih =>
    obtain ⟨V', -, hp, ha', hd', hc⟩ := hc
    have e1 := deltaFor_apply hd
    have e2 := deltaFor_apply hd'
    obtain ⟨D, m1, m2, m3, m4, m5⟩ := merge_composes d d' V ((validFor_iff_deltaFor _ _).2 (by rwa [e1]))
      ((validFor_iff_deltaFor _ _).2 (by rwa [e1, e2])) (by rw [hp, ha])
    rw [e1, e2] at m5
    obtain ⟨E, n1, n2, n3, n4⟩ := ih D V' (by have := (validFor_iff_deltaFor _ _).1 m4; rwa [m5] at this) (by rw [m3, ha']) hc
    exact ⟨E, by unfold mergeAll; rw [m1]; exact n1, n2, n3, by rw [n4, m2]⟩

/-- **C29** Merging all deltas published by any legal history onto the initial (empty) delta of the registry succeeds, and
the result lists exactly the indices issued / revoked since creation and carries the current accumulator. -/
theorem merged_history (m : Overflow) (e : G1 →ₗ[F] G2 →ₗ[F] GT) (pk : PubKey G1 G2) (max : Nat)
    (byDefault : Bool) (γ : F) (hmax : 2 * max + 1 < 2 ^ 32) (z : GT) (reg0 : G2) (gen : TailsGen F G2)
    (hsetup : newRevocationRegistryDef m e pk max byDefault γ = .ok (z, reg0, gen))
    (ops : List Op) (hops : ValidHistory max byDefault (initialSet max byDefault) ops) (reg : G2) (ds : List (Delta G2))
    (hrun : runOps m max byDefault (collectTails gen) ops reg0 = .ok (reg, ds)) :
    ∃ D, mergeAll (Delta.fromParts none reg0 ∅ ∅) ds = .ok D ∧ D.accum = reg ∧
      D.issued = effectAll byDefault (initialSet max byDefault) ops \ initialSet max byDefault ∧
      D.revoked = initialSet max byDefault \ effectAll byDefault (initialSet max byDefault) ops := by
  obtain ⟨gen', hg, h⟩ := registry_created m e pk max byDefault γ hmax
  rw [h] at hsetup
  cases hsetup
  obtain ⟨ds', h1, h2, -⟩ := runOps_spec (m := m) hmax (honestTails_of_setup hmax hg) ops (initialSet_subset max byDefault) hops
  rw [h1] at hrun
  cases hrun
  obtain ⟨D, n1, n2, n3, -⟩ := mergeAll_chain ds (Delta.fromParts none (accOf max γ pk.gDash (initialSet max byDefault)) ∅ ∅)
    (initialSet max byDefault) (initialSet max byDefault) _ (by constructor <;> simp [Delta.fromParts]) rfl h2
  exact ⟨D, n1, n3, n2.1, n2.2⟩

/-! ### C27 witnesses -/

theorem witnessNew_spec {m : Overflow} {max : Nat} {γ : F} {g' : G2} (hmax : 2 * max + 1 < 2 ^ 32)
    {tails : List G2} (ht : HonestTails max γ g' tails) (byDefault : Bool) (V : Finset Nat) (hV : V ⊆ Icc 1 max)
    (D : Delta G2) (hD : DeltaFor (initialSet max byDefault) V D) (i : Nat) (hi : i ≤ max) :
    witnessNew m i max byDefault D tails = .ok (witOf max γ g' V i) := by
  have : (if byDefault then (Icc 1 max).filter (fun i => i ∉ D.revoked) else D.issued) = V := by
    cases byDefault
    · simp [hD.1, initialSet]
    · simp only [if_true, hD.2, initialSet]
      ext x
      have := @hV x
      simp only [mem_filter, mem_sdiff]; tauto
  unfold witnessNew
  simp only [this]
  rw [witnessSum_spec hmax hi ht _ (fun j hj => hV (mem_of_mem_erase (by simpa using hj)))]
  rw [sort_map_sum, zero_add]
  rfl

theorem witOf_delta {max : Nat} {γ : F} {g' : G2} {V V' : Finset Nat} {i : Nat} :
    witOf max γ g' V i + ((∑ j ∈ (V' \ V).filter (· ≠ i), (γ ^ (max + 1 - j + i)) • g') -
      ∑ j ∈ (V \ V').filter (· ≠ i), (γ ^ (max + 1 - j + i)) • g') = witOf max γ g' V' i := by
  unfold witOf
  have h : V'.erase i = ((V.erase i) ∪ ((V' \ V).filter (· ≠ i))) \ ((V \ V').filter (· ≠ i)) := by
    ext x; simp only [mem_erase, mem_sdiff, mem_union, mem_filter]; tauto
  rw [h, sum_union_sdiff]
  · abel
  · rw [disjoint_left]; intro x; simp only [mem_erase, mem_sdiff, mem_filter]; tauto
  · intro x; simp only [mem_erase, mem_sdiff, mem_filter]; tauto

theorem witnessUpdate_spec {m : Overflow} {max : Nat} {γ : F} {g' : G2} (hmax : 2 * max + 1 < 2 ^ 32)
    {tails : List G2} (ht : HonestTails max γ g' tails) (V V' : Finset Nat) (hV : V ⊆ Icc 1 max) (hV' : V' ⊆ Icc 1 max)
    (D : Delta G2) (hD : DeltaFor V V' D) (i : Nat) (hi : i ≤ max) :
    witnessUpdate m (witOf max γ g' V i) i max D tails = .ok (witOf max γ g' V' i) := by
  unfold witnessUpdate
  rw [hD.1, hD.2]
  rw [witnessSum_spec hmax hi ht _ (fun j hj => hV (mem_sdiff.1 (mem_filter.1 ((mem_sort _).1 hj)).1).1)]
  simp only [Res.ok_bind]
  rw [witnessSum_spec hmax hi ht _ (fun j hj => hV' (mem_sdiff.1 (mem_filter.1 ((mem_sort _).1 hj)).1).1)]
  simp only [Res.ok_bind, sort_map_sum, zero_add, Res.pure_eq]
  rw [witOf_delta]

theorem updateAll_spec {m : Overflow} {max : Nat} {γ : F} {g' : G2} (hmax : 2 * max + 1 < 2 ^ 32)
    {tails : List G2} (ht : HonestTails max γ g' tails) (i : Nat) (hi : i ≤ max) (ds : List (Delta G2)) (V V' : Finset Nat)
    (hV : V ⊆ Icc 1 max) (hc : DeltaChain max γ g' V ds V') :
    updateAll m i max tails (witOf max γ g' V i) ds = .ok (witOf max γ g' V' i) := by
  induction ds generalizing V with
  | nil => cases hc; rfl
  | cons d ds ih =>
    obtain ⟨V1, hV1, -, -, hd, hc⟩ := hc
    unfold updateAll
    rw [witnessUpdate_spec hmax ht V V1 hV hV1 d hd i hi]
    exact ih V1 hV1 hc

/-- **C27** A holder of index `i` computes a witness from the deltas merged up to some point (history `ops1`).  After any
further legal history `ops2`, three ways of bringing the witness up to date agree: applying the new deltas one by one,
applying one delta merged from them, and recomputing the witness from scratch; and no step fails. -/
theorem witness_update_eq_recompute (m : Overflow) (e : G1 →ₗ[F] G2 →ₗ[F] GT) (pk : PubKey G1 G2) (max : Nat)
    (byDefault : Bool) (γ : F) (hmax : 2 * max + 1 < 2 ^ 32) (z : GT) (reg0 : G2) (gen : TailsGen F G2)
    (hsetup : newRevocationRegistryDef m e pk max byDefault γ = .ok (z, reg0, gen))
    (ops1 ops2 : List Op) (hops1 : ValidHistory max byDefault (initialSet max byDefault) ops1)
    (hops2 : ValidHistory max byDefault (effectAll byDefault (initialSet max byDefault) ops1) ops2)
    (i : Nat) (hi : i ≤ max) (reg1 reg2 : G2) (ds1 ds2 : List (Delta G2))
    (hrun1 : runOps m max byDefault (collectTails gen) ops1 reg0 = .ok (reg1, ds1))
    (hrun2 : runOps m max byDefault (collectTails gen) ops2 reg1 = .ok (reg2, ds2)) :
    ∃ D1 D2 w1 w2, mergeAll (Delta.fromParts none reg0 ∅ ∅) ds1 = .ok D1 ∧ mergeAll D1 ds2 = .ok D2 ∧
      witnessNew m i max byDefault D1 (collectTails gen) = .ok w1 ∧
      witnessNew m i max byDefault D2 (collectTails gen) = .ok w2 ∧
      updateAll m i max (collectTails gen) w1 ds2 = .ok w2 ∧
      (∀ d ds D, ds2 = d :: ds → mergeAll d ds = .ok D → witnessUpdate m w1 i max D (collectTails gen) = .ok w2) ∧
      w2 = witOf max γ pk.gDash (effectAll byDefault (initialSet max byDefault) (ops1 ++ ops2)) i := by
  obtain ⟨gen', hg, h⟩ := registry_created m e pk max byDefault γ hmax
  rw [h] at hsetup
  cases hsetup
  have ht := honestTails_of_setup hmax hg
  have hV0 := initialSet_subset max byDefault
  set V0 := initialSet max byDefault with hV0d
  obtain ⟨ds1', r1, c1, s1⟩ := runOps_spec (m := m) hmax ht ops1 hV0 hops1
  rw [r1] at hrun1
  cases hrun1
  obtain ⟨ds2', r2, c2, s2⟩ := runOps_spec (m := m) hmax ht ops2 s1 hops2
  rw [r2] at hrun2
  cases hrun2
  set V1 := effectAll byDefault V0 ops1
  have hV2 : effectAll byDefault V0 (ops1 ++ ops2) = effectAll byDefault V1 ops2 := by simp [effectAll, V1]
  rw [hV2]
  set V2 := effectAll byDefault V1 ops2
  obtain ⟨D1, a1, a2, a3, -⟩ := mergeAll_chain ds1 (Delta.fromParts none (accOf max γ pk.gDash V0) ∅ ∅) V0 V0 V1
    (by constructor <;> simp [Delta.fromParts]) rfl c1
  obtain ⟨D2, b1, b2, b3, -⟩ := mergeAll_chain ds2 D1 V0 V1 V2 a2 a3 c2
  refine ⟨D1, D2, _, _, a1, b1, witnessNew_spec hmax ht byDefault V1 s1 D1 a2 i hi, witnessNew_spec hmax ht byDefault V2 s2 D2 b2 i hi,
    updateAll_spec hmax ht i hi ds2 V1 V2 s1 c2, ?_, rfl⟩
  rintro d ds D rfl hm
  obtain ⟨V', q1, q2, q3, q4, q5⟩ := c2
  obtain ⟨D', n1, n2, -, -⟩ := mergeAll_chain ds d V1 V' V2 q4 q3 q5
  rw [n1] at hm
  cases hm
  exact witnessUpdate_spec hmax ht V1 V2 s1 s2 _ n2 i hi

/-! ### C28 the accumulator equation -/

variable [DecidableEq GT]

theorem acc_pairing (e : G1 →ₗ[F] G2 →ₗ[F] GT) (g : G1) (g' : G2) (max : Nat) (γ : F) (V : Finset Nat) (hV : V ⊆ Icc 1 max)
    (i : Nat) :
    e ((γ ^ i) • g) (accOf max γ g' V) + -(e g (witOf max γ g' V i)) =
      if i ∈ V then (γ ^ (max + 1)) • e g g' else 0 := by
  have h1 : e ((γ ^ i) • g) (accOf max γ g' V) = ∑ j ∈ V, (γ ^ (max + 1 - j + i)) • e g g' := by
    simp only [accOf, map_sum, map_smul, LinearMap.smul_apply, smul_smul]
    exact sum_congr rfl (fun j _ => by rw [← pow_add])
  have h2 : e g (witOf max γ g' V i) = ∑ j ∈ V.erase i, (γ ^ (max + 1 - j + i)) • e g g' := by
    simp only [witOf, map_sum, map_smul]
  rw [h1, h2]
  split
  · next hi =>
    rw [← add_sum_erase V _ hi]
    have := hV hi
    rw [mem_Icc] at this
    rw [show max + 1 - i + i = max + 1 by omega]
    abel
  · next hi => rw [erase_eq_of_notMem hi]; abel

/-- **C28** End to end: keys, registry, any legal history; the issuer signs index `i`; the holder builds the witness from
the published deltas and processes the credential.  All three pairing checks succeed iff `i` is issued (for an index that
is not issued — never issued, or revoked — the accumulator check fails). -/
theorem nonrevocation_credential_accepted_iff (m : Overflow) (e : G1 →ₗ[F] G2 →ₗ[F] GT)
    (g h h0 h1 h2 htilde : G1) (u hCap gDash : G2) (x sk : F) (pub : PubKey G1 G2) (priv : PrivKey F)
    (hkeys : newRevocationKeys g h h0 h1 h2 htilde u hCap gDash x sk = (pub, priv))
    (max : Nat) (byDefault : Bool) (γ : F) (hmax : 2 * max + 1 < 2 ^ 32) (z : GT) (reg0 : G2) (gen : TailsGen F G2)
    (hsetup : newRevocationRegistryDef m e pub max byDefault γ = .ok (z, reg0, gen))
    -- the issuer signs index `i` at some point …
    (i : Nat) (hi : i ∈ Icc 1 max) (m2 vrPrime vr c : F) (hc : x + c ≠ 0) (hsk : sk + γ ^ i ≠ 0)
    (regS regS' : G2) (sig : NonRevSig F G1 G2) (dS : Option (Delta G2))
    (hsig : newNonRevocationCredential m i m2 (blindedRevocationSecret pub vrPrime) pub priv max byDefault regS γ
      (collectTails gen) vr c = .ok (sig, regS', dS))
    -- … and the registry has the history `ops`
    (ops : List Op) (hops : ValidHistory max byDefault (initialSet max byDefault) ops) (reg : G2) (ds : List (Delta G2))
    (hrun : runOps m max byDefault (collectTails gen) ops reg0 = .ok (reg, ds)) (D : Delta G2)
    (hD : mergeAll (Delta.fromParts none reg0 ∅ ∅) ds = .ok D)
    (w : G2) (hw : witnessNew m i max byDefault D (collectTails gen) = .ok w)
    (hnd : e g gDash ≠ 0) (hγ : γ ≠ 0) :
    (processNonRevocationCredential e sig vrPrime pub z reg w).2 = .ok () ↔
      i ∈ effectAll byDefault (initialSet max byDefault) ops := by
  have hpub : pub = (newRevocationKeys g h h0 h1 h2 htilde u hCap gDash x sk).1 := by rw [hkeys]
  have hpriv : priv = (newRevocationKeys g h h0 h1 h2 htilde u hCap gDash x sk).2 := by rw [hkeys]
  obtain ⟨gen', hg, hcr⟩ := registry_created m e pub max byDefault γ hmax
  rw [hcr] at hsetup
  cases hsetup
  have ht := honestTails_of_setup hmax hg
  obtain ⟨ds', r1, c1, s1⟩ := runOps_spec (m := m) hmax ht ops (initialSet_subset max byDefault) hops
  rw [r1] at hrun
  cases hrun
  set V := effectAll byDefault (initialSet max byDefault) ops
  obtain ⟨D', a1, a2, a3, -⟩ := mergeAll_chain ds (Delta.fromParts none (accOf max γ pub.gDash (initialSet max byDefault)) ∅ ∅)
    (initialSet max byDefault) (initialSet max byDefault) V (by constructor <;> simp [Delta.fromParts]) rfl c1
  rw [a1] at hD
  cases hD
  have hi' : i ≤ max := (mem_Icc.1 hi).2
  rw [witnessNew_spec hmax ht byDefault V s1 _ a2 i hi'] at hw
  cases hw
  unfold newNonRevocationCredential at hsig
  simp only [Res.bind_eq_ok, Res.pure_eq, Prod.exists, Res.ok.injEq, Prod.mk.injEq] at hsig
  obtain ⟨_, _, -, hs, -, -⟩ := hsig
  subst hs
  simp only [processNonRevocationCredential, testWitnessSignature]
  rw [acc_pairing e pub.g pub.gDash max γ V s1 i]
  have hsig2 : e (pub.pk + (γ ^ i) • pub.g) ((priv.sk + γ ^ i)⁻¹ • pub.gDash) = e pub.g pub.gDash := by
    subst hpub hpriv
    simp only [newRevocationKeys, ← add_smul, map_smul, LinearMap.smul_apply, smul_smul]
    rw [inv_mul_cancel₀ hsk, one_smul]
  have hsig3 : e ((priv.x + c)⁻¹ • (pub.h0 + m2 • pub.h1 + blindedRevocationSecret pub vrPrime + γ ^ i • pub.g + vr • pub.h2))
      (pub.y + c • pub.hCap) = e (pub.h0 + m2 • pub.h1 + (vrPrime + vr) • pub.h2 + γ ^ i • pub.g) pub.hCap := by
    subst hpub hpriv
    simp only [newRevocationKeys, blindedRevocationSecret, ← add_smul, map_smul, LinearMap.smul_apply, smul_smul]
    rw [mul_inv_cancel₀ hc, one_smul]
    have hv : h0 + m2 • h1 + vrPrime • h2 + γ ^ i • g + vr • h2 = h0 + m2 • h1 + (vrPrime + vr) • h2 + γ ^ i • g := by
      rw [add_smul]; abel
    rw [hv]
  have hz : (γ ^ (max + 1)) • e pub.g pub.gDash ≠ 0 := by
    subst hpub
    exact smul_ne_zero (pow_ne_zero _ hγ) hnd
  by_cases hiV : i ∈ V
  · simp only [hiV, hsig2, hsig3, if_true, ne_eq, not_true_eq_false, if_false]
  · simp only [hiV, if_false, ne_eq, hz.symm, not_false_eq_true, if_true, iff_false]; simp

/-! ### C26 misuse -/

/-- **C26** (negation) Revoking is *not* guarded: for every registry state, revoking an index that is not issued succeeds,
changes the accumulator by a non-zero tail, and the result is not the accumulator of the unchanged set. -/
theorem revoke_not_issued_accepted (m : Overflow) (max : Nat) (γ : F) (g' : G2) (hγ : γ ≠ 0) (hg' : g' ≠ 0)
    (hmax : 2 * max + 1 < 2 ^ 32) (gen : TailsGen F G2) (hgen : TailsGen.new m max γ g' = .ok gen)
    (V : Finset Nat) (i : Nat) (hi : i ∈ Icc 1 max) (_hiV : i ∉ V) :
    ∃ reg d, revokeCredential m (accOf max γ g' V) max i (collectTails gen) = .ok (reg, d) ∧
      reg = accOf max γ g' V - (γ ^ (max + 1 - i)) • g' ∧ reg ≠ accOf max γ g' V := by
  have ht := honestTails_of_setup hmax hgen
  rw [mem_Icc] at hi
  unfold revokeCredential
  rw [getIndex_ok hmax (by omega)]
  simp only [Res.ok_bind]
  rw [ht _ (by omega)]
  refine ⟨_, _, rfl, rfl, ?_⟩
  simp [sub_eq_self, hg', hγ]

/-- **C26** (negation) Issuing / recovering an index that is already issued is not guarded either: the tail is added a
second time. -/
theorem recover_issued_accepted (m : Overflow) (max : Nat) (γ : F) (g' : G2) (hγ : γ ≠ 0) (hg' : g' ≠ 0)
    (hmax : 2 * max + 1 < 2 ^ 32) (gen : TailsGen F G2) (hgen : TailsGen.new m max γ g' = .ok gen)
    (V : Finset Nat) (i : Nat) (hi : i ∈ Icc 1 max) (_hiV : i ∈ V) :
    (∃ reg d, recoveryCredential m (accOf max γ g' V) max i (collectTails gen) = .ok (reg, d) ∧
      reg = accOf max γ g' V + (γ ^ (max + 1 - i)) • g' ∧ reg ≠ accOf max γ g' V) ∧
    (∃ reg d, registerIssued m (accOf max γ g' V) max i false (collectTails gen) = .ok (reg, some d) ∧
      reg = accOf max γ g' V + (γ ^ (max + 1 - i)) • g' ∧ reg ≠ accOf max γ g' V) := by
  have ht := honestTails_of_setup hmax hgen
  rw [mem_Icc] at hi
  unfold recoveryCredential registerIssued
  rw [getIndex_ok hmax (by omega)]
  simp only [Res.ok_bind]
  simp only [Bool.false_eq_true, if_false]
  rw [ht _ (by omega)]
  exact ⟨⟨_, _, rfl, rfl, by simp [hg', hγ]⟩, ⟨_, _, rfl, rfl, by simp [hg', hγ]⟩⟩

/-- **C26** (negation, effect on other holders) After an index has been revoked twice, an *issued* holder whose witness is
computed by the library's own formula is rejected by the accumulator check. -/
theorem double_revoke_locks_out_holders (m : Overflow) (e : G1 →ₗ[F] G2 →ₗ[F] GT) (pub : PubKey G1 G2) (max : Nat) (γ : F)
    (hγ : γ ≠ 0) (hnd : e pub.g pub.gDash ≠ 0) (hmax : 2 * max + 1 < 2 ^ 32) (byDefault : Bool) (z : GT) (reg0 : G2)
    (gen : TailsGen F G2) (hsetup : newRevocationRegistryDef m e pub max byDefault γ = .ok (z, reg0, gen))
    (V : Finset Nat) (hV : V ⊆ Icc 1 max) (i : Nat) (hi : i ∈ V) (k : Nat) (hk : k ∈ Icc 1 max) (hkV : k ∉ V)
    (reg : G2) (d : Delta G2)
    (hrev : revokeCredential m (accOf max γ pub.gDash V) max k (collectTails gen) = .ok (reg, d))
    (sig : NonRevSig F G1 G2) (hsig : sig.wgI = (γ ^ i) • pub.g) :
    testWitnessSignature e sig pub z reg (witOf max γ pub.gDash V i) = .err "Issuer is sending incorrect data" := by
  obtain ⟨gen', hg, hcr⟩ := registry_created m e pub max byDefault γ hmax
  rw [hcr] at hsetup
  cases hsetup
  have hg' : pub.gDash ≠ 0 := by rintro h; rw [h] at hnd; simp at hnd
  obtain ⟨reg', d', h1, h2, -⟩ := revoke_not_issued_accepted m max γ pub.gDash hγ hg' hmax gen hg V k hk hkV
  rw [h1] at hrev
  cases hrev
  unfold testWitnessSignature
  have := acc_pairing e pub.g pub.gDash max γ V hV i
  rw [if_pos hi] at this
  rw [if_pos]
  rw [hsig, h2, map_sub, ← this]
  intro hh
  have h3 : e ((γ ^ i) • pub.g) ((γ ^ (max + 1 - k)) • pub.gDash) = 0 := by
    have h4 := congrArg (fun t => e ((γ ^ i) • pub.g) (accOf max γ pub.gDash V) + -(e pub.g (witOf max γ pub.gDash V i)) - t) hh
    simp only [sub_self] at h4
    rw [← h4]; abel
  rw [map_smul, map_smul, LinearMap.smul_apply] at h3
  exact smul_ne_zero (pow_ne_zero _ hγ) (smul_ne_zero (pow_ne_zero _ hγ) hnd) h3

/-! ### C50 revoked holders -/

/-- the witness a holder of index `i` can compute from public data alone: `Σ_{j∈V} tail[max+1-j+i] - tail[max+1]`, using
the library's own tails accessor -/
def forgedWitness (max i : Nat) (V : Finset Nat) (tails : List G2) : Res String G2 := do
  let s ← witnessSum .checked max i tails (V.sort (· ≤ ·)) 0
  let t ← accessTail tails (max + 1)
  pure (s - t)

/-- **C50** (negation) The published tails contain the element `g' γ^(max+1)`.  For every registry, every accumulated set
`V` and every index `i ∈ 1..max` outside `V` (revoked or never issued), the witness computed from `V` and the published
tails alone passes the accumulator check; so do the other two checks, for whatever credential the issuer once signed. -/
theorem revoked_holder_forges_witness (m : Overflow) (e : G1 →ₗ[F] G2 →ₗ[F] GT) (pub : PubKey G1 G2) (max : Nat) (γ : F)
    (hmax : 2 * max + 1 < 2 ^ 32) (byDefault : Bool) (z : GT) (reg0 : G2)
    (gen : TailsGen F G2) (hsetup : newRevocationRegistryDef m e pub max byDefault γ = .ok (z, reg0, gen))
    (V V' : Finset Nat) (hV : V ⊆ Icc 1 max) (i : Nat) (hi : i ∈ Icc 1 max) (hiV : i ∉ V) (_hiV' : i ∈ V')
    (sig : NonRevSig F G1 G2) (hsig : sig.wgI = (γ ^ i) • pub.g)
    -- the credential was accepted while `i` was in the accumulator …
    (hok : testWitnessSignature e sig pub z (accOf max γ pub.gDash V') (witOf max γ pub.gDash V' i) = .ok ()) :
    -- … and is accepted again, with the forged witness, for the accumulator it is not in
    ∃ w, forgedWitness max i V (collectTails gen) = .ok w ∧
      testWitnessSignature e sig pub z (accOf max γ pub.gDash V) w = .ok () := by
  obtain ⟨gen', hg, hcr⟩ := registry_created m e pub max byDefault γ hmax
  rw [hcr] at hsetup
  cases hsetup
  have ht := honestTails_of_setup hmax hg
  rw [mem_Icc] at hi
  have hw : forgedWitness max i V (collectTails gen) =
      .ok (witOf max γ pub.gDash V i - (γ ^ (max + 1)) • pub.gDash) := by
    unfold forgedWitness
    rw [witnessSum_spec hmax hi.2 ht _ (fun j hj => hV (by simpa using hj))]
    simp only [Res.ok_bind]
    rw [ht _ (by omega)]
    simp only [Res.ok_bind, Res.pure_eq, sort_map_sum, zero_add, witOf, erase_eq_of_notMem hiV]
  refine ⟨_, hw, ?_⟩
  unfold testWitnessSignature at hok ⊢
  split at hok
  · cases hok
  split at hok
  · cases hok
  split at hok
  · cases hok
  next h1 h2 h3 =>
    rw [if_neg, if_neg h2, if_neg h3]
    have := acc_pairing e pub.g pub.gDash max γ V hV i
    rw [if_neg hiV] at this
    rw [hsig, map_sub, neg_sub, not_not, sub_eq_add_neg, add_left_comm, this, add_zero, map_smul]

/-- **C50** (what does hold) Apart from that element there is no other way: a witness passes the accumulator check for an
index outside `V` exactly if it pairs with `g` like the honest formula minus `g' γ^(max+1)`; with a pairing that is
non-degenerate in `g` it is that very element. -/
theorem revoked_holder_witness_unique_partial (e : G1 →ₗ[F] G2 →ₗ[F] GT) (pub : PubKey G1 G2) (max : Nat) (γ : F)
    (V : Finset Nat) (hV : V ⊆ Icc 1 max) (i : Nat) (hiV : i ∉ V) (hinj : ∀ a, e pub.g a = 0 → a = 0) (w : G2) :
    e ((γ ^ i) • pub.g) (accOf max γ pub.gDash V) + -(e pub.g w) = (γ ^ (max + 1)) • e pub.g pub.gDash ↔
      w = witOf max γ pub.gDash V i - (γ ^ (max + 1)) • pub.gDash := by
  have h := acc_pairing e pub.g pub.gDash max γ V hV i
  rw [if_neg hiV] at h
  have h1 : e ((γ ^ i) • pub.g) (accOf max γ pub.gDash V) = e pub.g (witOf max γ pub.gDash V i) := by
    rw [← sub_eq_zero, sub_eq_add_neg]; exact h
  rw [h1]
  constructor
  · intro h2
    rw [← sub_eq_zero]
    apply hinj
    rw [map_sub, map_sub, map_smul, ← h2]; abel
  · rintro rfl
    rw [map_sub, map_smul]; abel

end
end Verif.CL.Rev

/-! ### Non-vacuity: a registry of three credentials over the field with 101 elements -/
namespace Verif.CL.Rev.Example
open Verif Verif.Toy Verif.CL.Rev Finset

/-- keys with x = 5, sk = 6 -/
def keys := newRevocationKeys (F := ZMod 101) (1 : ZMod 101) 2 3 4 5 6 (7 : ZMod 101) 8 9 5 6

/-- a legal history, issuance by default: revoke 1, then in one batch recover 1 and revoke 2 and 3, then revoke 1 again -/
def history : List Op := [.revoke 1, .update {1} {2, 3}, .revoke 1, .recover 3]

theorem history_valid : ValidHistory 3 true (initialSet 3 true) history := by
  simp only [ValidHistory, history, Op.Valid, Op.effect]; decide

theorem history_effect : effectAll true (initialSet 3 true) history = {3} := by decide

/-- the same with issuance on demand -/
theorem history_valid_on_demand :
    ValidHistory 3 false (initialSet 3 false) [.sign 2, .sign 3, .revoke 2, .update {1} {3}] := by
  simp only [ValidHistory, Op.Valid, Op.effect]; decide

/-- the registry's secret -/
def γ0 : ZMod 101 := 10

/-- the initial accumulator -/
def acc0 : ZMod 101 := accOf 3 γ0 keys.1.gDash (initialSet 3 true)

/-- C25, C29: the history runs, the merged delta is `issued = ∅, revoked = {1,2}` -/
example : ∃ gen ds D, newRevocationRegistryDef .checked toyE keys.1 3 true γ0 = .ok ((γ0 ^ 4) • toyE 1 9, acc0, gen) ∧
    runOps .checked 3 true (collectTails gen) history acc0 = .ok (γ0 ^ 1 * 9, ds) ∧
    mergeAll (Delta.fromParts none acc0 ∅ ∅) ds = .ok D ∧ D.issued = ∅ ∧ D.revoked = {1, 2} := by
  obtain ⟨gen, hg, h⟩ := registry_created .checked toyE keys.1 3 true γ0 (by norm_num)
  obtain ⟨ds, hds⟩ := accumulator_matches_issued_set .checked toyE keys.1 3 true γ0 (by norm_num) _ _ _ h
    history history_valid
  obtain ⟨D, h1, h2, h3, h4⟩ := merged_history .checked toyE keys.1 3 true γ0 (by norm_num) _ _ _ h
    history history_valid _ _ hds
  rw [history_effect, sum_singleton] at hds
  refine ⟨gen, ds, D, h, hds, h1, ?_, ?_⟩
  · rw [h3, history_effect]; decide
  · rw [h4, history_effect]; decide

/-- C27, C28: all hypotheses are met, with a holder (index 3) that is issued -/
example : ∃ gen sig ds D, newRevocationRegistryDef .checked toyE keys.1 3 true γ0 = .ok ((γ0 ^ 4) • toyE 1 9, acc0, gen) ∧
    newNonRevocationCredential .checked 3 11 (blindedRevocationSecret keys.1 (12 : ZMod 101)) keys.1 keys.2 3 true
      acc0 γ0 (collectTails gen) 13 14 = .ok (sig, acc0, none) ∧
    runOps .checked 3 true (collectTails gen) history acc0 = .ok (γ0 ^ 1 * 9, ds) ∧
    mergeAll (Delta.fromParts none acc0 ∅ ∅) ds = .ok D ∧
    (∃ w, witnessNew .checked 3 3 true D (collectTails gen) = .ok w) ∧
    (5 : ZMod 101) + 14 ≠ 0 ∧ (6 : ZMod 101) + γ0 ^ 3 ≠ 0 ∧ toyE 1 9 ≠ 0 := by
  obtain ⟨gen, hg, h⟩ := registry_created .checked toyE keys.1 3 true γ0 (by norm_num)
  obtain ⟨ds, hds⟩ := accumulator_matches_issued_set .checked toyE keys.1 3 true γ0 (by norm_num) _ _ _ h
    history history_valid
  obtain ⟨D, D2, w1, w2, h1, h2, h3, -⟩ := witness_update_eq_recompute .checked toyE keys.1 3 true γ0 (by norm_num) _ _ _ h
    history [] history_valid trivial 3 le_rfl _ _ _ _ hds rfl
  rw [history_effect, sum_singleton] at hds
  refine ⟨gen, _, ds, D, h, rfl, hds, h1, ⟨w1, h3⟩, by decide, by decide, by rw [toyE_apply]; decide⟩

/-- C50: index 2 is outside `{3}`, and its credential passed all checks while `{1,2,3}` was accumulated -/
example : ∃ sig : NonRevSig (ZMod 101) (ZMod 101) (ZMod 101), sig.wgI = (γ0 ^ 2) • keys.1.g ∧
    testWitnessSignature toyE sig keys.1 ((γ0 ^ 4) • toyE 1 9) (accOf 3 γ0 keys.1.gDash {1, 2, 3})
      (witOf 3 γ0 keys.1.gDash {1, 2, 3} 2) = .ok () := by
  refine ⟨⟨(5 + 14 : ZMod 101)⁻¹ * (3 + 11 * 4 + 13 * 5 + γ0 ^ 2), 14, 13, (6 + γ0 ^ 2 : ZMod 101)⁻¹ * 9, γ0 ^ 2 * 7,
    (γ0 ^ 2) • keys.1.g, (γ0 ^ 2) • keys.1.g, 2, 11⟩, rfl, ?_⟩
  have h := acc_pairing toyE keys.1.g keys.1.gDash 3 γ0 {1, 2, 3} (by decide) 2
  rw [if_pos (by decide)] at h
  unfold testWitnessSignature
  rw [if_neg, if_neg, if_neg]
  · simp only [toyE_apply, keys, newRevocationKeys, smul_eq_mul, not_not]; decide +kernel
  · simp only [toyE_apply, keys, newRevocationKeys, smul_eq_mul, not_not]; decide +kernel
  · exact not_not.2 h

end Verif.CL.Rev.Example
