import Verif.Props.BPGadgetBase
import Mathlib.Algebra.CharP.Basic
import Mathlib.Tactic.LinearCombination
set_option linter.unusedSectionVars false
set_option linter.unusedSimpArgs false
set_option linter.unusedVariables false
/-!
# Gadgets: bounds (C116)
-/
namespace Verif.BP
variable {F V : Type} [Field F] [AddCommGroup V] [Module F V] [DecidableEq F] [DecidableEq V]

/-- `rep` gives the canonical representative, in a field of characteristic `p` -/
structure Canon (p : Nat) (rep : F → Nat) : Prop where
  lt : ∀ x, rep x < p
  cast : ∀ x, ((rep x : Nat) : F) = x

theorem Canon.eq_mod {p : Nat} [CharP F p] {rep : F → Nat} (c : Canon p rep) (a : Nat) : rep (a : F) = a % p := by
  have h := (CharP.natCast_eq_natCast F p).1 (c.cast (a : F))
  have h2 : rep (a : F) % p = a % p := h
  rw [Nat.mod_eq_of_lt (c.lt _)] at h2
  exact h2

/-! ## Bits -/

theorem bit_imposes {A : Asg F} (v : Quantity F) : Imposes V A (bitGadget v) fun _ => A.val v.var = 0 ∨ A.val v.var = 1 := by
  refine Imposes.bind (Imposes.allocMult _) fun x hx => ?_
  refine Imposes.bind (Imposes.constrain _) fun _ h1 => ?_
  refine Imposes.bind (Imposes.constrain _) fun _ h2 => ?_
  refine (Imposes.constrain _).mono fun _ h3 => ?_
  simp only [lc_add, lc_ofVar, lc_cons, lc_nil, lc_sub, lc_ofScalar] at h1 h2 h3
  have e1 : A.val x.2.1 = A.val v.var := by linear_combination h1
  have e2 : A.val x.1 = 1 - A.val v.var := by linear_combination h3 - h1
  rw [h2, e1, e2] at hx
  rcases mul_eq_zero.1 hx.symm with h | h
  · right; linear_combination -h
  · left; exact h

theorem bit_builds {g h : V} {s : PState F V} (hg : s.Good) (x : Var) (b : F) (hb : b = 0 ∨ b = 1) (hx : s.Has (LC.ofVar x) b) :
    Builds g h s (bitGadget ⟨x, some b⟩) fun _ _ => True := by
  refine Builds.bind (Builds.allocMult hg (l := 1 - b) (r := b)) fun y s1 g1 l1 h1 => ?_
  refine Builds.bind (Builds.constrain g1 ?_) fun _ s2 g2 l2 _ => ?_
  · exact (h1.2.1.add ((hx.mono l1).single (-1))).congr (by ring)
  refine Builds.bind (Builds.constrain g2 ?_) fun _ s3 g3 l3 _ => ?_
  · exact (h1.2.2.mono l2).congr (by rcases hb with rfl | rfl <;> ring)
  refine Builds.constrain g3 ?_
  exact ((h1.1.mono (l2.trans l3)).add ((h1.2.1.mono (l2.trans l3)).sub (PState.Has.scalar _ 1))).congr (by ring)

theorem bit_rel {T T' R : Type} {re : T → T' → Prop} (x : Var) (a b : Option F) :
    (bitGadget ⟨x, a⟩ : Prog F T R _).Rel re (fun a b => a = b) (bitGadget ⟨x, b⟩ : Prog F T' R _) := by
  refine Rel.seq (Rel.allocMult _ _) fun y _ e => ?_
  subst e
  refine Rel.seq (Rel.constrain _) fun _ _ _ => ?_
  refine Rel.seq (Rel.constrain _) fun _ _ _ => ?_
  exact Rel.constrain _

/-! ## Numbers of `n` bits -/

theorem positiveLoop_imposes {A : Asg F} (rep : F → Nat) (q : Option F) (k : Nat) : ∀ (i : Nat) (e : F) (cv : LC F),
    Imposes V A (positiveLoop rep q k i e cv) fun cv' => ∃ m : Nat, m < 2 ^ k ∧ A.lc cv' = A.lc cv + e * m := by
  induction k with
  | zero => intro i e cv; exact Imposes.pure ⟨0, by simp, by simp⟩
  | succ k ih =>
    intro i e cv
    refine Imposes.bind (Imposes.allocMult _) fun x hx => ?_
    refine Imposes.bind (Imposes.constrain _) fun _ h1 => ?_
    refine Imposes.bind (Imposes.constrain _) fun _ h2 => ?_
    refine (ih (i + 1) (e + e) _).mono fun cv' hm => ?_
    obtain ⟨m, hm, hv⟩ := hm
    simp only [lc_add, lc_ofVar, lc_cons, lc_nil, lc_sub, lc_ofScalar, lc_append] at h1 h2 hv
    have e2 : A.val x.1 = 1 - A.val x.2.1 := by linear_combination h2
    rw [h1, e2] at hx
    have hb : A.val x.2.1 = ((0 : Nat) : F) ∨ A.val x.2.1 = ((1 : Nat) : F) := by
      rcases mul_eq_zero.1 hx.symm with h | h
      · right; push_cast; linear_combination -h
      · left; push_cast; exact h
    rcases hb with hb | hb <;> rw [hb] at hv
    · exact ⟨2 * m, by rw [pow_succ]; omega, by rw [hv]; push_cast; ring⟩
    · exact ⟨2 * m + 1, by rw [pow_succ]; omega, by rw [hv]; push_cast; ring⟩

theorem positiveNo_imposes {A : Asg F} (rep : F → Nat) (v : Quantity F) (n : Nat) :
    Imposes V A (positiveNoGadget rep v n) fun _ => ∃ m : Nat, m < 2 ^ n ∧ A.val v.var = m := by
  refine Imposes.bind (positiveLoop_imposes rep _ n 0 1 _) fun cv hm => ?_
  refine (Imposes.constrain _).mono fun _ h1 => ?_
  obtain ⟨m, hm, hv⟩ := hm
  simp only [lc_cons, lc_nil] at hv
  exact ⟨m, hm, by linear_combination hv - h1⟩

theorem positiveLoop_builds {g h : V} (rep : F → Nat) (x : F) (k : Nat) : ∀ (i : Nat) (e : F) (cv : LC F) (c : F) (s : PState F V), s.Good → s.Has cv c →
    Builds g h s (positiveLoop rep (some x) k i e cv) fun cv' s' => s'.Has cv' (c + e * ((rep x >>> i % 2 ^ k : Nat) : F)) := by
  induction k with
  | zero => intro i e cv c s hg hc; exact Builds.pure hg (hc.congr (by simp [Nat.mod_one]))
  | succ k ih =>
    intro i e cv c s hg hc
    obtain ⟨d, hd, hopt⟩ : ∃ d : Nat, d = rep x >>> i % 2 ∧ (if (rep x >>> i) % 2 = 1 then ((0 : F), (1 : F)) else (1, 0)) = (1 - (d : F), (d : F)) := by
      refine ⟨_, rfl, ?_⟩
      rcases Nat.mod_two_eq_zero_or_one (rep x >>> i) with h | h <;> rw [h] <;> simp
    have hd01 : d = 0 ∨ d = 1 := by omega
    simp only [positiveLoop, Option.map_some, hopt]
    refine Builds.bind (Builds.allocMult hg) fun y s1 g1 l1 h1 => ?_
    refine Builds.bind (Builds.constrain g1 ?_) fun _ s2 g2 l2 _ => ?_
    · exact h1.2.2.congr (by rcases hd01 with rfl | rfl <;> simp)
    refine Builds.bind (Builds.constrain g2 ?_) fun _ s3 g3 l3 _ => ?_
    · exact ((h1.1.mono l2).add ((h1.2.1.mono l2).sub (PState.Has.scalar _ 1))).congr (by ring)
    refine (ih (i + 1) (e + e) _ _ s3 g3 ((hc.mono (l1.trans (l2.trans l3))).add ((h1.2.1.mono (l2.trans l3)).single e))).mono fun cv' s' _ _ hh => ?_
    refine hh.congr ?_
    have key : rep x >>> i % 2 ^ (k + 1) = d + 2 * (rep x >>> (i + 1) % 2 ^ k) := by
      rw [hd, Nat.shiftRight_succ, pow_succ, mul_comm (2 ^ k) 2, Nat.mod_mul]
    rw [key]; push_cast; ring

theorem positiveNo_builds {g h : V} (rep : F → Nat) (hrep : ∀ x, ((rep x : Nat) : F) = x) (v : Var) (x : F) (n : Nat) {s : PState F V} (hg : s.Good)
    (hv : s.Has (LC.ofVar v) x) (hx : rep x < 2 ^ n) : Builds g h s (positiveNoGadget rep ⟨v, some x⟩ n) fun _ _ => True := by
  refine Builds.bind (positiveLoop_builds rep x n 0 1 _ _ s hg (hv.single (-1))) fun cv s1 g1 l1 h1 => ?_
  refine Builds.constrain g1 (h1.congr ?_)
  rw [Nat.shiftRight_zero, Nat.mod_eq_of_lt hx, hrep]; ring

theorem positiveLoop_rel {T T' R : Type} {re : T → T' → Prop} (rep : F → Nat) (a b : Option F) (k : Nat) : ∀ (i : Nat) (e : F) (cv : LC F),
    (positiveLoop rep a k i e cv : Prog F T R _).Rel re (fun a b => a = b) (positiveLoop rep b k i e cv : Prog F T' R _) := by
  induction k with
  | zero => intro i e cv; exact Rel.pure rfl
  | succ k ih =>
    intro i e cv
    refine Rel.seq (Rel.allocMult _ _) fun y _ he => ?_
    subst he
    refine Rel.seq (Rel.constrain _) fun _ _ _ => ?_
    refine Rel.seq (Rel.constrain _) fun _ _ _ => ?_
    exact ih _ _ _

theorem positiveNo_rel {T T' R : Type} {re : T → T' → Prop} (rep : F → Nat) (v : Var) (a b : Option F) (n : Nat) :
    (positiveNoGadget rep ⟨v, a⟩ n : Prog F T R _).Rel re (fun a b => a = b) (positiveNoGadget rep ⟨v, b⟩ n : Prog F T' R _) := by
  refine Rel.seq (positiveLoop_rel rep _ _ n 0 1 _) fun cv _ e => ?_
  subst e
  exact Rel.constrain _

/-! ## Bounds (C116) -/

theorem boundCheck_imposes {A : Asg F} (rep : F → Nat) (v a b : Quantity F) (max min n : Nat) :
    Imposes V A (boundCheckGadget rep v a b max min n) fun _ => min ≤ max ∧ ∃ ma mb : Nat, ma < 2 ^ n ∧ mb < 2 ^ n ∧ A.val v.var = min + ma ∧
      A.val v.var + mb = max ∧ ((ma + mb : Nat) : F) = ((max - min : Nat) : F) := by
  refine Imposes.bind (Imposes.constrain _) fun _ h1 => ?_
  refine Imposes.bind (Imposes.constrain _) fun _ h2 => ?_
  refine Imposes.bind (Imposes.subU64 _ _) fun d h3 => ?_
  refine Imposes.bind (Imposes.constrainScalar _ _) fun _ h4 => ?_
  refine Imposes.bind (positiveNo_imposes rep _ n) fun _ h5 => ?_
  refine (positiveNo_imposes rep _ n).mono fun _ h6 => ?_
  obtain ⟨hle, rfl⟩ := h3
  obtain ⟨ma, hma, ea⟩ := h5
  obtain ⟨mb, hmb, eb⟩ := h6
  simp only [lc_sub, lc_add, lc_ofVar, lc_ofScalar] at h1 h2 h4
  refine ⟨hle, ma, mb, hma, hmb, by linear_combination h1 + ea, by linear_combination -h2 - eb, ?_⟩
  push_cast
  rw [← ea, ← eb]
  exact h4

theorem boundCheck_builds {g h : V} (rep : F → Nat) (hrep : ∀ x, ((rep x : Nat) : F) = x) (v a b : Var) (x : F) (max min n : Nat) {s : PState F V}
    (hg : s.Good) (hmm : min ≤ max) (hv : s.Has (LC.ofVar v) x) (ha : s.Has (LC.ofVar a) (x - min)) (hb : s.Has (LC.ofVar b) (max - x))
    (h1 : rep (x - min) < 2 ^ n) (h2 : rep (max - x) < 2 ^ n) (va : Option F) :
    Builds g h s (boundCheckGadget rep ⟨v, va⟩ ⟨a, some (x - min)⟩ ⟨b, some (max - x)⟩ max min n) fun _ _ => True := by
  refine Builds.bind (Builds.constrain hg ?_) fun _ s1 g1 l1 _ => ?_
  · exact ((hv.sub (PState.Has.scalar _ _)).sub ha).congr (by ring)
  refine Builds.bind (Builds.constrain g1 ?_) fun _ s2 g2 l2 _ => ?_
  · exact (((PState.Has.scalar _ _).sub (hv.mono l1)).sub (hb.mono l1)).congr (by ring)
  refine Builds.bind (Builds.subU64 g2 hmm) fun d s3 g3 l3 hd => ?_
  subst hd
  have l := (l1.trans l2).trans l3
  refine Builds.bind (Builds.constrainScalar g3 ?_) fun _ s4 g4 l4 _ => ?_
  · exact ((ha.mono l).add (hb.mono l)).congr (by rw [Nat.cast_sub hmm]; ring)
  refine Builds.bind (positiveNo_builds rep hrep a (x - min) n g4 (ha.mono (l.trans l4)) h1) fun _ s5 g5 l5 _ => ?_
  exact positiveNo_builds rep hrep b (max - x) n g5 (hb.mono ((l.trans l4).trans l5)) h2

theorem boundCheck_rel {T T' R : Type} {re : T → T' → Prop} (rep : F → Nat) (v a b : Var) (v1 v2 a1 a2 b1 b2 : Option F) (max min n : Nat) :
    (boundCheckGadget rep ⟨v, v1⟩ ⟨a, a1⟩ ⟨b, b1⟩ max min n : Prog F T R _).Rel re (fun a b => a = b)
      (boundCheckGadget rep ⟨v, v2⟩ ⟨a, a2⟩ ⟨b, b2⟩ max min n : Prog F T' R _) := by
  refine Rel.seq (Rel.constrain _) fun _ _ _ => ?_
  refine Rel.seq (Rel.constrain _) fun _ _ _ => ?_
  refine Rel.seq (Rel.subU64 _ _) fun d _ e => ?_
  subst e
  refine Rel.seq (Rel.constrain _) fun _ _ _ => ?_
  refine Rel.seq (positiveNo_rel rep _ _ _ n) fun _ _ _ => ?_
  exact positiveNo_rel rep _ _ _ n

/-- **C116, soundness of bound checks.** Values that satisfy the constraints of `verify_bounded_num(lower, upper, n, commitments)`: the value committed in
the first commitment is a number between `lower` and `upper`.  The field has more than `2^(n+1)` and more than `upper` elements. -/
theorem bounded_sound (p : Nat) [CharP F p] (rep : F → Nat) (lower upper n : Nat) (Cs : List V) (t0 t : VState F V)
    (run : (verifyBounded rep lower upper n Cs).runV VState.top t0 = .ok ((), t)) (hp : 2 ^ (n + 1) ≤ p) (hu : upper < p) (A : Asg F)
    (sat : Sat t.numVars t.cons A) :
    t.V[t0.V.length]? = Cs[0]? ∧ 3 ≤ Cs.length ∧ ∃ k : Nat, lower ≤ k ∧ k ≤ upper ∧ A.v t0.V.length = k := by
  have key : ImposesAt A t0 (verifyBounded rep lower upper n Cs) fun _ t => t.V[t0.V.length]? = Cs[0]? ∧ 3 ≤ Cs.length ∧
      ∃ k : Nat, lower ≤ k ∧ k ≤ upper ∧ A.v t0.V.length = k := by
    refine ImposesAt.bind (ImposesAt.commitFirst fun C Cs1 t1 e1 hV1 => ?_)
    refine ImposesAt.bind (ImposesAt.commitFirst fun C2 Cs2 t2 e2 hV2 => ?_)
    refine ImposesAt.bind (ImposesAt.commitFirst fun C3 Cs3 t3 e3 hV3 => ?_)
    refine (boundCheck_imposes rep _ _ _ upper lower n).at t3 fun _ t4 hV4 hq => ?_
    refine ⟨by rw [hV4, hV3, hV2, hV1, e1]; simp, by simp only at e2 e3; rw [e1, e2, e3]; simp, ?_⟩
    obtain ⟨hle, ma, mb, h1, h2, hv, -, hs⟩ := hq
    have hlt : ma + mb < p := by rw [pow_succ] at hp; omega
    have := (CharP.natCast_eq_natCast F p).1 hs
    rw [Nat.ModEq, Nat.mod_eq_of_lt hlt, Nat.mod_eq_of_lt (by omega)] at this
    exact ⟨lower + ma, by omega, by omega, by push_cast; exact hv⟩
  exact key () t run sat

/-- what `prove_bounded_num` does once the numbers that it commits to are known -/
def proveBoundedWith (rep : F → Nat) (g h : V) (x a b : F) (lower upper n : Nat) (bl ra rb : F) : Prog F (Top F (F × F)) Var (List V) := do
  let cv ← commitP g h x bl
  let ca ← commitP g h a ra
  let cb ← commitP g h b rb
  boundCheckGadget rep ⟨cv.2, some x⟩ ⟨ca.2, some a⟩ ⟨cb.2, some b⟩ upper lower n
  pure [cv.1, ca.1, cb.1]

theorem boundedWith_complete (rep : F → Nat) (hrep : ∀ x, ((rep x : Nat) : F) = x) (O : Transcript F V → F) (tr : Transcript F V) (g h : V) (x : F)
    (lower upper n : Nat) (bl ra rb : F) (hlu : lower ≤ upper) (h3 : rep (x - lower) < 2 ^ n) (h4 : rep (upper - x) < 2 ^ n) :
    HonestAccepted O g h tr (proveBoundedWith rep g h x (x - lower) (upper - x) lower upper n bl ra rb) (verifyBounded rep lower upper n)
      [x • g + bl • h, (x - lower) • g + ra • h, (upper - x) • g + rb • h] := by
  refine honest_of_builds ?_ ?_ O tr
  · refine Rel.commitSeq fun _ => Rel.commitSeq fun _ => Rel.commitSeq fun _ => ?_
    exact Rel.ret (boundCheck_rel rep _ _ _ _ _ _ _ _ _ upper lower n) rfl
  · intro s hg
    refine Builds.bind (Builds.commitP hg) fun cv s4 g4 l4 hv => ?_
    refine Builds.bind (Builds.commitP g4) fun ca s5 g5 l5 ha => ?_
    refine Builds.bind (Builds.commitP g5) fun cb s6 g6 l6 hb' => ?_
    refine Builds.bind (post := fun _ _ => True) ?_ fun _ s7 g7 l7 _ => Builds.pure g7 trivial
    exact boundCheck_builds rep hrep _ _ _ x upper lower n g6 hlu (hv.2.mono (l5.trans l6)) (ha.2.mono l6) hb'.2 h3 h4 _

/-- **C116, completeness of bound checks.** An honest prover of a number between `lower` and `upper` (and less than `2^n` away from both) is accepted. -/
theorem bounded_complete (p : Nat) [CharP F p] (rep : F → Nat) (hrep : Canon p rep) (O : Transcript F V → F) (tr : Transcript F V) (g h : V)
    (val lower upper n : Nat) (blinding rng : Option F) (ra rb : F) (hb : blinding.isSome ∨ rng.isSome) (h1 : lower ≤ val) (h2 : val ≤ upper)
    (h3 : val - lower < 2 ^ n) (h4 : upper - val < 2 ^ n) :
    HonestAccepted O g h tr (proveBounded rep g h val blinding rng lower upper n ra rb) (verifyBounded rep lower upper n)
      [(val : F) • g + theBlinding 0 blinding rng • h, ((val - lower : Nat) : F) • g + ra • h, ((upper - val : Nat) : F) • g + rb • h] := by
  have e : proveBounded rep g h val blinding rng lower upper n ra rb =
      proveBoundedWith rep g h (val : F) ((val : F) - lower) (upper - (val : F)) lower upper n (theBlinding 0 blinding rng) ra rb := by
    simp only [proveBounded, blindingOr_eq hb (0 : F), pure_seq, BP.subU64, if_pos h1, if_pos h2, proveBoundedWith, ← Nat.cast_sub h1, ← Nat.cast_sub h2]
    rfl
  rw [e, Nat.cast_sub h1, Nat.cast_sub h2]
  refine boundedWith_complete rep hrep.cast O tr g h _ _ _ _ _ _ _ (h1.trans h2) ?_ ?_
  · rw [← Nat.cast_sub h1, hrep.eq_mod]; exact lt_of_le_of_lt (Nat.mod_le _ _) h3
  · rw [← Nat.cast_sub h2, hrep.eq_mod]; exact lt_of_le_of_lt (Nat.mod_le _ _) h4

/-- **C116, too many bits.** If `2^n` is not smaller than the field, every field element is accepted as "between `lower` and `upper`". -/
theorem bounded_wide (p : Nat) (rep : F → Nat) (hrep : Canon p rep) (O : Transcript F V → F) (tr : Transcript F V) (g h : V) (x : F)
    (lower upper n : Nat) (bl ra rb : F) (hlu : lower ≤ upper) (hn : p ≤ 2 ^ n) :
    HonestAccepted O g h tr (proveBoundedWith rep g h x (x - lower) (upper - x) lower upper n bl ra rb) (verifyBounded rep lower upper n)
      [x • g + bl • h, (x - lower) • g + ra • h, (upper - x) • g + rb • h] :=
  boundedWith_complete rep hrep.cast O tr g h x lower upper n bl ra rb hlu (lt_of_lt_of_le (hrep.lt _) hn) (lt_of_lt_of_le (hrep.lt _) hn)

/-- **C116, numbers outside the bounds** and bounds in the wrong order make the prover and the verifier panic; so do too few commitments. -/
theorem bounded_panics (rep : F → Nat) (g h : V) (val lower upper n : Nat) (bl : F) (rng : Option F) (ra rb : F) (s : PState F V) (t : VState F V)
    (Cs : List V) :
    (val < lower ∨ upper < val → (proveBounded rep g h val (some bl) rng lower upper n ra rb).runP (PState.top g h) s = .panic) ∧
    (upper < lower ∨ Cs.length < 3 → (verifyBounded rep lower upper n Cs).runV VState.top t = .panic) := by
  constructor
  · intro hh
    simp only [proveBounded, blindingOr, BP.subU64]
    by_cases h1 : lower ≤ val
    · rw [if_pos h1, if_neg (by omega)]; rfl
    · rw [if_neg h1]; rfl
  · intro hh
    match Cs, hh with
    | [], _ => rfl
    | [a], _ => rfl
    | [a, b], _ => rfl
    | a :: b :: c :: Cs, hh =>
      have : ¬lower ≤ upper := by simp only [List.length_cons] at hh; omega
      simp only [verifyBounded, boundCheckGadget, BP.subU64, if_neg this]
      rfl

end Verif.BP
