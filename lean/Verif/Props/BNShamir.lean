import Verif.BN.Shamir
import Verif.Props.BN
import Verif.Sharing.Lemmas
import Verif.Toy
/-!
# Properties of libursa's Shamir sharing over BigNumber (C13, C14)
-/
set_option linter.unusedSectionVars false
namespace Verif.BN
open Finset

section
variable {p : Nat} [Fact p.Prime]

/-- the element has the field's modulus and represents the class `z` -/
def Rep (p : Nat) (e : Element) (z : ZMod p) : Prop := e.modulus = p ∧ (e.value : ZMod p) = z

/-- the same, with the canonical representative -/
def Can (p : Nat) (e : Element) (z : ZMod p) : Prop := e.modulus = p ∧ e.value = (z.val : Int)

theorem Can.rep {e : Element} {z : ZMod p} (h : Can p e z) : Rep p e z :=
  ⟨h.1, by rw [h.2]; simp⟩

theorem p_pos : (0 : Int) < (p : Int) := by exact_mod_cast (Fact.out : p.Prime).pos

theorem modulus_can (a : Int) : modulus a p = .ok (((a : ZMod p).val : Nat) : Int) := by
  rw [modulus_eq_emod _ _ p_pos, ZMod.val_intCast]

theorem Rep.add {a b : Element} {x y : ZMod p} (ha : Rep p a x) (hb : Rep p b y) :
    ∃ c, a.add b = .ok c ∧ Can p c (x + y) := by
  refine ⟨⟨p, ((x + y).val : Int)⟩, ?_, rfl, rfl⟩
  unfold Element.add Element.validate
  rw [ha.1, hb.1, if_neg (by simp)]
  simp only [Res.ok_bind, modulus_can, Res.pure_eq]
  rw [Int.cast_add, ha.2, hb.2]

theorem Rep.mul {a b : Element} {x y : ZMod p} (ha : Rep p a x) (hb : Rep p b y) :
    ∃ c, a.mul b = .ok c ∧ Can p c (x * y) := by
  refine ⟨⟨p, ((x * y).val : Int)⟩, ?_, rfl, rfl⟩
  unfold Element.mul Element.validate modMul
  rw [ha.1, hb.1, if_neg (by simp)]
  simp only [Res.ok_bind, modulus_can, Res.pure_eq]
  rw [Int.cast_mul, ha.2, hb.2]

theorem Rep.sub {a b : Element} {x y : ZMod p} (ha : Rep p a x) (hb : Rep p b y) :
    ∃ c, a.sub b = .ok c ∧ Can p c (x - y) := by
  refine ⟨⟨p, ((x - y).val : Int)⟩, ?_, rfl, rfl⟩
  unfold Element.sub Element.validate modSub
  rw [ha.1, hb.1, if_neg (by simp)]
  simp only [Res.ok_bind, modulus_can, Res.pure_eq]
  rw [Int.cast_sub, ha.2, hb.2]

theorem Rep.neg {a : Element} {x : ZMod p} (ha : Rep p a x) :
    ∃ c, a.neg = .ok c ∧ Can p c (-x) := by
  refine ⟨⟨p, ((-x).val : Int)⟩, ?_, rfl, rfl⟩
  unfold Element.neg modSub
  rw [ha.1]
  simp only [Res.ok_bind, modulus_can, Res.pure_eq]
  rw [Int.cast_sub, ha.2]; simp

theorem gcd_can {b : Element} {y : ZMod p} (hb : Can p b y) (hy : y ≠ 0) : Int.gcd b.value p = 1 := by
  rw [hb.2, Int.gcd_natCast_natCast]
  have : IsUnit y := isUnit_iff_ne_zero.2 hy
  obtain ⟨u, rfl⟩ := this
  exact ZMod.val_coe_unit_coprime u

theorem Rep.div {a b : Element} {x y : ZMod p} (ha : Rep p a x) (hb : Can p b y) (hy : y ≠ 0) :
    ∃ c, a.div b = .ok c ∧ Can p c (x / y) := by
  have h0 : 0 ≤ b.value := by rw [hb.2]; omega
  have hp1 : 1 < |(p : Int)| := by
    rw [abs_of_pos p_pos]; exact_mod_cast (Fact.out : p.Prime).one_lt
  obtain ⟨r, hr, h1, h2, h3⟩ := (mod_div_spec a.value b.value p h0 hp1).1 (gcd_can hb hy)
  refine ⟨⟨p, r⟩, ?_, rfl, ?_⟩
  · unfold Element.div Element.validate
    rw [ha.1, hb.1, if_neg (by simp)]
    simp [hr]
  · have h4 : (r : ZMod p) * (b.value : ZMod p) = (a.value : ZMod p) := by
      have := (ZMod.intCast_eq_intCast_iff _ _ p).2 h3
      simpa using this
    rw [hb.rep.2, ha.2] at h4
    have h5 : x / y = (r : ZMod p) := by rw [← h4]; field_simp
    rw [h5, ZMod.val_intCast]
    rw [abs_of_pos p_pos] at h2
    exact (Int.emod_eq_of_lt h1 h2).symm

/-- division by zero is reported -/
theorem div_zero {a b : Element} (ha : a.modulus = p) (hb : Can p b 0) : a.div b = .err "Not invertible" := by
  have hp1 : 1 < |(p : Int)| := by
    rw [abs_of_pos p_pos]; exact_mod_cast (Fact.out : p.Prime).one_lt
  have hv : b.value = 0 := by rw [hb.2]; simp
  unfold Element.div Element.validate
  rw [ha, hb.1, if_neg (by simp), Res.ok_bind]
  rw [(mod_div_spec a.value b.value p (by omega) hp1).2 ?_]
  · rfl
  · rw [hv]; simp; exact (Fact.out : p.Prime).one_lt.ne'

theorem foldlM_rel {A B ι : Type} (R : A → B → Prop) (f : A → ι → Res String A) (g : B → ι → B) (l : List ι)
    (h : ∀ a b i, i ∈ l → R a b → ∃ a', f a i = .ok a' ∧ R a' (g b i)) :
    ∀ a b, R a b → ∃ a', l.foldlM f a = .ok a' ∧ R a' (l.foldl g b) := by
  induction l with
  | nil => intro a b hab; exact ⟨a, rfl, hab⟩
  | cons i l ih =>
    intro a b hab
    obtain ⟨a', h1, h2⟩ := h a b i (by simp) hab
    obtain ⟨a'', h3, h4⟩ := ih (fun a b j hj => h a b j (by simp [hj])) a' _ h2
    exact ⟨a'', by rw [List.foldlM_cons, h1, Res.ok_bind, h3], h4⟩

/-- `evaluate` computes the value of the polynomial in the field. -/
theorem evaluate_can (cs : List Element) (zs : List (ZMod p)) (x : Element) (z : ZMod p) (hx : Rep p x z)
    (h : List.Forall₂ (Rep p) cs zs) (hne : cs ≠ []) :
    ∃ y, evaluate cs x = .ok y ∧ Rep p y (Sharing.evaluate zs z) ∧ (2 ≤ cs.length → Can p y (Sharing.evaluate zs z)) := by
  unfold evaluate Sharing.evaluate
  have hr := List.forall₂_reverse_iff.2 h
  have hlen : cs.reverse.length = cs.length := by simp
  generalize cs.reverse = r at *
  generalize zs.reverse = s at *
  cases hr with
  | nil => simp at hlen; exact absurd (List.length_eq_zero_iff.1 hlen.symm) hne
  | @cons a b l₁ l₂ hab hl =>
    simp only
    have key : ∀ (l₁ : List Element) (l₂ : List (ZMod p)), List.Forall₂ (Rep p) l₁ l₂ → ∀ a b, Rep p a b →
        ∃ y, l₁.foldlM (fun out c => do let m ← out.mul x; m.add c) a = .ok y ∧
          Rep p y (l₂.foldl (fun out a => out * z + a) b) ∧
          (1 ≤ l₁.length → Can p y (l₂.foldl (fun out a => out * z + a) b)) := by
      intro l₁ l₂ hl
      induction hl with
      | nil => intro a b hab; exact ⟨a, rfl, hab, by simp⟩
      | @cons c d l₁ l₂ hcd hl ih =>
        intro a b hab
        obtain ⟨m, hm, hmc⟩ := hab.mul hx
        obtain ⟨e, he, hec⟩ := hmc.rep.add hcd
        obtain ⟨y, h1, h2, h3⟩ := ih e _ hec.rep
        refine ⟨y, ?_, h2, ?_⟩
        · rw [List.foldlM_cons]; simp only [hm, Res.ok_bind, he]; exact h1
        · intro _
          cases l₁ with
          | nil =>
            cases hl
            have : y = e := by
              have : (Res.ok e : Res String Element) = .ok y := h1
              exact (Res.ok.inj this).symm
            rw [this]; exact hec
          | cons _ _ => exact h3 (by simp)
    obtain ⟨y, h1, h2, h3⟩ := key l₁ l₂ hl a b hab
    exact ⟨y, h1, h2, fun h => h3 (by rw [← hlen] at h; simpa using h)⟩

theorem getD_rel {xs : List Element} {zs : List (ZMod p)} {P : Element → ZMod p → Prop} (h : List.Forall₂ P xs zs)
    (j : Nat) (hj : j < xs.length) (d : Element) : P (xs.getD j d) (zs.getD j 0) := by
  have hl := h.length_eq
  rw [List.getD_eq_getElem _ _ hj, List.getD_eq_getElem _ _ (hl ▸ hj)]
  exact (List.forall₂_iff_get.1 h).2 j hj (hl ▸ hj)

/-- the inner loop computes the Lagrange basis in the field, for distinct nodes -/
theorem basisAt_can (xs : List Element) (zs : List (ZMod p)) (h : List.Forall₂ (Can p) xs zs) (hnd : zs.Nodup)
    (v : Int) (i : Nat) (hi : i < xs.length) :
    ∃ b, basisAt xs ⟨p, v⟩ i = .ok b ∧ Can p b (Sharing.basisAt zs i) := by
  unfold basisAt Sharing.basisAt
  rw [← h.length_eq]
  refine foldlM_rel (Can p) _ _ _ ?_ _ _ ⟨rfl, ?_⟩
  · intro a b j hj hab
    rw [List.mem_range] at hj
    by_cases hij : i = j
    · rw [if_pos hij, if_pos hij]; exact ⟨a, rfl, hab⟩
    · rw [if_neg hij, if_neg hij]
      obtain ⟨num, hn, hnc⟩ := (getD_rel h j hj ⟨p, v⟩).rep.neg
      obtain ⟨den, hd, hdc⟩ := (getD_rel h i hi ⟨p, v⟩).rep.sub (getD_rel h j hj ⟨p, v⟩).rep
      have hne : zs.getD i 0 ≠ zs.getD j 0 := by
        rw [h.length_eq] at hi hj
        rw [List.getD_eq_getElem _ _ hi, List.getD_eq_getElem _ _ hj]
        intro heq
        exact hij ((List.Nodup.getElem_inj_iff hnd).1 heq)
      obtain ⟨q, hq, hqc⟩ := hnc.rep.div hdc (sub_ne_zero.2 hne)
      obtain ⟨m, hm, hmc⟩ := hab.rep.mul hqc.rep
      refine ⟨m, by simp only [hn, hd, hq, Res.ok_bind, hm], ?_⟩
      have h1 := sub_ne_zero.2 hne
      have h2 := sub_ne_zero.2 hne.symm
      have : b * (zs.getD j 0 / (zs.getD j 0 - zs.getD i 0)) = b * (-zs.getD j 0 / (zs.getD i 0 - zs.getD j 0)) := by
        rw [← neg_sub (zs.getD i 0), div_neg, neg_div]
      rw [this]; exact hmc
  · have : Fact (1 < p) := ⟨(Fact.out : p.Prime).one_lt⟩
    rw [ZMod.val_one]; rfl

theorem interpolate_can (xs ys : List Element) (zs ws : List (ZMod p)) (hx : List.Forall₂ (Can p) xs zs)
    (hy : List.Forall₂ (Rep p) ys ws) (hl : xs.length = ys.length) (hnd : zs.Nodup) (hne : xs ≠ []) :
    ∃ r, interpolate xs ys = .ok r ∧ Can p r (Sharing.interpolate zs ws) := by
  unfold interpolate
  cases xs with
  | nil => exact absurd rfl hne
  | cons x0 xs' =>
    simp only
    have hx0 : x0.modulus = p := by cases hx with | cons h _ => exact h.1
    rw [hx0]
    unfold Sharing.interpolate
    rw [← hx.length_eq]
    refine foldlM_rel (Can p) _ _ _ ?_ _ _ ⟨rfl, by simp⟩
    intro a b i hi hab
    rw [List.mem_range] at hi
    obtain ⟨bs, hb, hbc⟩ := basisAt_can _ _ hx hnd 0 i hi
    obtain ⟨g, hg, hgc⟩ := (getD_rel hy i (hl ▸ hi) ⟨p, 0⟩).mul hbc.rep
    obtain ⟨r, hr, hrc⟩ := hab.rep.add hgc.rep
    refine ⟨r, by simp only [hb, hg, Res.ok_bind, hr], ?_⟩
    rw [smul_eq_mul, mul_comm]; exact hrc


theorem elem_fromBytes (i : Nat) (hi : i < 256) :
    Element.fromBytes (p : Int) [UInt8.ofNat i] = .ok ⟨p, (((i : ZMod p)).val : Int)⟩ := by
  unfold Element.fromBytes Element.new
  rw [modulus_can]
  have : fromBytes [UInt8.ofNat i] = (i : Int) := by
    simp only [fromBytes, ofBe, List.foldl_cons, List.foldl_nil, UInt8.toNat_ofNat']
    rw [Nat.mod_eq_of_lt (by simpa using hi)]; simp
  rw [this]; simp

/-- Specification: the share with identifier `i` of the polynomial with coefficients `zs` -/
def specShare (zs : List (ZMod p)) (i : Nat) : Share := ⟨i, ((Sharing.evaluate zs (i : ZMod p)).val : Int)⟩

theorem mapM_ok {A B : Type} (f : A → Res String B) (g : A → B) (l : List A) (h : ∀ a ∈ l, f a = .ok (g a)) :
    l.mapM f = .ok (l.map g) := by
  induction l with
  | nil => rfl
  | cons a l ih =>
    rw [List.mapM_cons, h a (by simp), Res.ok_bind, ih fun b hb => h b (by simp [hb])]; rfl

/-- what `split_secret` returns on acceptable arguments -/
theorem split_eq (rng : Nat → Int) (secret : Bytes) (t n : Nat) (h1 : t ≤ n) (h2 : 2 ≤ t) (hn : n < 256)
    (h3 : secret ≠ []) (h4 : fromBytes secret < p) :
    splitSecret rng secret t n p = .ok ((List.range n).map fun i =>
      specShare ((fromBytes secret : ZMod p) :: (List.range (t - 1)).map fun i => (rng i : ZMod p)) (i + 1)) := by
  have hp2 : ¬ ((p : Int) < 2) := by
    have := (Fact.out : p.Prime).two_le; omega
  unfold splitSecret
  rw [if_neg (by omega), if_neg (by omega), if_neg (by simpa using h3), if_neg hp2]
  have hval : (⟨(p : Int), fromBytes secret⟩ : Element).isValid = true := by
    simp [Element.isValid, h4]; simp [fromBytes]
  simp only [hval]
  rw [if_neg (by simp)]
  refine mapM_ok _ _ _ fun i hi => ?_
  rw [List.mem_range] at hi
  unfold mkShare
  simp only [elem_fromBytes (p := p) (i + 1) (by omega), Res.ok_bind]
  obtain ⟨y, hy, _, hc⟩ := evaluate_can (p := p) (polyNew rng ⟨p, fromBytes secret⟩ (t - 1))
    ((fromBytes secret : ZMod p) :: (List.range (t - 1)).map fun i => (rng i : ZMod p))
    ⟨p, ((((i + 1 : Nat) : ZMod p)).val : Int)⟩ ((i + 1 : Nat) : ZMod p) ⟨rfl, by simp⟩
    (by
      unfold polyNew
      refine List.Forall₂.cons ⟨rfl, rfl⟩ ?_
      rw [List.forall₂_map_left_iff, List.forall₂_map_right_iff]
      exact List.forall₂_same.2 fun _ _ => ⟨rfl, rfl⟩)
    (by simp [polyNew])
  rw [hy, Res.ok_bind, Res.pure_eq, specShare, (hc (by simp [polyNew]; omega)).2]

theorem split_ok_imp (rng : Nat → Int) (secret : Bytes) (t n : Nat) (shares : List Share)
    (hsplit : splitSecret rng secret t n p = .ok shares) :
    t ≤ n ∧ 2 ≤ t ∧ secret ≠ [] ∧ fromBytes secret < p := by
  unfold splitSecret at hsplit
  split at hsplit; · simp at hsplit
  split at hsplit; · simp at hsplit
  split at hsplit; · simp at hsplit
  split at hsplit; · simp at hsplit
  simp only at hsplit
  split at hsplit; · simp at hsplit
  rename_i h1 h2 h3 _ h5
  have h5' : (0 ≤ fromBytes secret) ∧ fromBytes secret < p := by simpa [Element.isValid] using h5
  exact ⟨by omega, by omega, by simpa using h3, h5'.2⟩

theorem collect_good (shares : List Share) (hv : ∀ s ∈ shares, s.value ≠ 0)
    (hid : ∀ s ∈ shares, s.identifier ≠ 0 ∧ s.identifier < 256) :
    ∀ dups xs ys, (∀ s ∈ shares, s.identifier ∉ dups) → (shares.map Share.identifier).Nodup →
    collectShares (p : Int) shares dups xs ys =
      .ok (xs ++ shares.map (fun s => ⟨p, ((s.identifier : ZMod p).val : Int)⟩), ys ++ shares.map (fun s => ⟨p, s.value⟩)) := by
  induction shares with
  | nil => intro dups xs ys _ _; simp [collectShares]
  | cons s l ih =>
    intro dups xs ys hd hnd
    rw [collectShares, if_neg (hv s (by simp)), if_neg (hid s (by simp)).1, if_neg (hd s (by simp)),
      elem_fromBytes _ (hid s (by simp)).2, Res.ok_bind,
      ih (fun u hu => hv u (by simp [hu])) (fun u hu => hid u (by simp [hu]))]
    · simp
    · intro u hu
      rw [List.map_cons, List.nodup_cons] at hnd
      simp only [List.mem_cons, not_or]
      exact ⟨fun h => hnd.1 (by rw [← h]; exact List.mem_map_of_mem hu), hd u (by simp [hu])⟩
    · exact (List.nodup_cons.1 (by simpa using hnd)).2

/-- a zero value is the first error when identifiers are fine -/
theorem collect_zero (shares : List Share) (hv : ∃ s ∈ shares, s.value = 0)
    (hid : ∀ s ∈ shares, s.identifier ≠ 0 ∧ s.identifier < 256) :
    ∀ dups xs ys, (∀ s ∈ shares, s.identifier ∉ dups) → (shares.map Share.identifier).Nodup →
    collectShares (p : Int) shares dups xs ys = .err "Share must have a non-zero value" := by
  induction shares with
  | nil => simp at hv
  | cons s l ih =>
    intro dups xs ys hd hnd
    by_cases h0 : s.value = 0
    · rw [collectShares, if_pos h0]
    · rw [collectShares, if_neg h0, if_neg (hid s (by simp)).1, if_neg (hd s (by simp)),
        elem_fromBytes _ (hid s (by simp)).2, Res.ok_bind]
      refine ih ?_ (fun u hu => hid u (by simp [hu])) _ _ _ ?_ ?_
      · obtain ⟨u, hu, hu0⟩ := hv
        rcases List.mem_cons.1 hu with rfl | hu
        · exact absurd hu0 h0
        · exact ⟨u, hu, hu0⟩
      · intro u hu
        rw [List.map_cons, List.nodup_cons] at hnd
        simp only [List.mem_cons, not_or]
        exact ⟨fun h => hnd.1 (by rw [← h]; exact List.mem_map_of_mem hu), hd u (by simp [hu])⟩
      · exact (List.nodup_cons.1 (by simpa using hnd)).2

/-- **C13** For every prime field larger than the number of shares, every threshold and secret for which `split_secret`
succeeds, and every choice of polynomial, any `t` or more distinct shares recombine to the minimal big-endian bytes of
the secret value — unless one of the chosen shares happens to have value zero, in which case an error is reported. -/
theorem bn_shamir_any_quorum (rng : Nat → Int) (secret : Bytes) (t n : Nat) (hn : n < 256) (hnp : n < p)
    (shares : List Share) (hsplit : splitSecret rng secret t n p = .ok shares)
    (q : List Share) (hq : ∀ s ∈ q, s ∈ shares) (hnd : q.Nodup) (ht : t ≤ q.length) :
    combineShares q p =
      if ∃ s ∈ q, s.value = 0 then .err "Share must have a non-zero value"
      else .ok (toBytes (fromBytes secret)) := by
  have hp2 : ¬ ((p : Int) < 2) := by
    have := (Fact.out : p.Prime).two_le; omega
  -- the arguments were acceptable
  have hacc := split_ok_imp rng secret t n shares hsplit
  obtain ⟨h1, h2, h3, h4⟩ := hacc
  rw [split_eq rng secret t n h1 h2 hn h3 h4] at hsplit
  obtain rfl := Res.ok.inj hsplit
  set zs : List (ZMod p) := (fromBytes secret : ZMod p) :: (List.range (t - 1)).map fun i => (rng i : ZMod p) with hzs
  have hmem : ∀ s ∈ q, ∃ i, i < n ∧ s = specShare zs (i + 1) := by
    intro s hs
    obtain ⟨i, hi, rfl⟩ := List.mem_map.1 (hq s hs)
    exact ⟨i, List.mem_range.1 hi, rfl⟩
  have hid : ∀ s ∈ q, s.identifier ≠ 0 ∧ s.identifier < 256 := by
    intro s hs
    obtain ⟨i, hi, rfl⟩ := hmem s hs
    simp [specShare]; omega
  have hidn : (q.map Share.identifier).Nodup := by
    refine (List.nodup_map_iff_inj_on hnd).2 ?_
    intro a ha b hb hab
    obtain ⟨i, hi, rfl⟩ := hmem a ha
    obtain ⟨j, hj, rfl⟩ := hmem b hb
    simp [specShare] at hab
    rw [hab]
  unfold combineShares
  rw [if_neg (by omega), if_neg hp2]
  split
  · rename_i hz
    rw [collect_zero q hz hid [] [] [] (by simp) hidn]; rfl
  · rename_i hz
    push Not at hz
    rw [collect_good q hz hid [] [] [] (by simp) hidn]
    simp only [List.nil_append, Res.ok_bind]
    obtain ⟨r, hr, hrc⟩ := interpolate_can (p := p) (q.map fun s => ⟨p, ((s.identifier : ZMod p).val : Int)⟩)
      (q.map fun s => ⟨p, s.value⟩) (q.map fun s => (s.identifier : ZMod p))
      ((q.map fun s => (s.identifier : ZMod p)).map (Sharing.mPolyVal zs))
      (by
        rw [List.forall₂_map_left_iff, List.forall₂_map_right_iff]
        exact List.forall₂_same.2 fun _ _ => ⟨rfl, rfl⟩)
      (by
        rw [List.map_map, List.forall₂_map_left_iff, List.forall₂_map_right_iff]
        refine List.forall₂_same.2 fun s hs => ⟨rfl, ?_⟩
        obtain ⟨i, hi, rfl⟩ := hmem s hs
        simp [specShare, Sharing.evaluate_eq])
      (by simp)
      (by
        refine (List.nodup_map_iff_inj_on hnd).2 ?_
        intro a ha b hb hab
        obtain ⟨i, hi, rfl⟩ := hmem a ha
        obtain ⟨j, hj, rfl⟩ := hmem b hb
        simp only [specShare] at hab
        have := (ZMod.natCast_eq_natCast_iff' _ _ _).1 hab
        rw [Nat.mod_eq_of_lt (by omega), Nat.mod_eq_of_lt (by omega)] at this
        rw [this])
      (by
        intro h
        have : q.length = 0 := by simpa using congrArg List.length h
        omega)
    rw [hr, Res.ok_bind, Res.pure_eq]
    rw [hzs, Sharing.interpolate_polyVal _ _ _ _ (by simp; omega)] at hrc
    · congr 2
      rw [hrc.2, ZMod.val_intCast]
      exact Int.emod_eq_of_lt (by simp [fromBytes]) h4
    · refine (List.nodup_map_iff_inj_on hnd).2 ?_
      intro a ha b hb hab
      obtain ⟨i, hi, rfl⟩ := hmem a ha
      obtain ⟨j, hj, rfl⟩ := hmem b hb
      simp only [specShare] at hab
      have := (ZMod.natCast_eq_natCast_iff' _ _ _).1 hab
      rw [Nat.mod_eq_of_lt (by omega), Nat.mod_eq_of_lt (by omega)] at this
      rw [this]

/-- **C13, corollary** a secret without leading zero bytes comes back byte for byte. -/
theorem bn_shamir_round_trip (rng : Nat → Int) (b : UInt8) (rest : Bytes) (hb : b ≠ 0) (t n : Nat) (hn : n < 256)
    (hnp : n < p) (shares : List Share) (hsplit : splitSecret rng (b :: rest) t n p = .ok shares)
    (q : List Share) (hq : ∀ s ∈ q, s ∈ shares) (hnd : q.Nodup) (ht : t ≤ q.length) (hz : ∀ s ∈ q, s.value ≠ 0) :
    combineShares q p = .ok (b :: rest) := by
  rw [bn_shamir_any_quorum rng (b :: rest) t n hn hnp shares hsplit q hq hnd ht, if_neg (by push Not; exact hz),
    to_from_bytes b rest hb]

/-- **C13, limit** without `total < field` the scheme leaks: the share whose identifier is the field size *is* the
secret. -/
theorem bn_shamir_small_field_leaks (rng : Nat → Int) (secret : Bytes) (t n : Nat) (hn : n < 256) (hpn : p ≤ n)
    (shares : List Share) (hsplit : splitSecret rng secret t n p = .ok shares) :
    ⟨p, fromBytes secret⟩ ∈ shares := by
  have hacc := split_ok_imp rng secret t n shares hsplit
  obtain ⟨h1, h2, h3, h4⟩ := hacc
  have hp0 := (Fact.out : p.Prime).pos
  rw [split_eq rng secret t n h1 h2 hn h3 h4] at hsplit
  obtain rfl := Res.ok.inj hsplit
  refine List.mem_map.2 ⟨p - 1, List.mem_range.2 (by omega), ?_⟩
  rw [show p - 1 + 1 = p by omega, specShare, Sharing.evaluate_eq, Sharing.mPolyVal_cons]
  simp only [CharP.cast_eq_zero, zero_smul, add_zero, ZMod.val_intCast]
  congr 1
  exact Int.emod_eq_of_lt (by simp [fromBytes]) h4

/-! ### C14 argument validation -/

/-- **C14** `split_secret` over a prime field: the errors, in order, and success otherwise; never a panic. -/
theorem bn_split_outcome (rng : Nat → Int) (secret : Bytes) (t n : Nat) (hn : n < 256) :
    (n < t → splitSecret rng secret t n p = .err "total cannot be less than the threshold") ∧
    (t ≤ n → t < 2 → splitSecret rng secret t n p = .err "threshold must be at least 2") ∧
    (t ≤ n → 2 ≤ t → secret = [] → splitSecret rng secret t n p = .err "secret cannot be empty") ∧
    (t ≤ n → 2 ≤ t → secret ≠ [] → (p : Int) ≤ ofBe secret →
      splitSecret rng secret t n p = .err "secret is too large") ∧
    (t ≤ n → 2 ≤ t → secret ≠ [] → (ofBe secret : Int) < p →
      ∃ shares, splitSecret rng secret t n p = .ok shares ∧ shares.map Share.identifier = List.range' 1 n) := by
  have hp2 : ¬ ((p : Int) < 2) := by
    have := (Fact.out : p.Prime).two_le; omega
  refine ⟨fun h => by rw [splitSecret, if_pos h], fun h1 h2 => by rw [splitSecret, if_neg (by omega), if_pos h2],
    fun h1 h2 h3 => by rw [splitSecret, if_neg (by omega), if_neg (by omega), if_pos (by simp [h3])], ?_, ?_⟩
  · intro h1 h2 h3 h4
    rw [splitSecret, if_neg (by omega), if_neg (by omega), if_neg (by simpa using h3), if_neg hp2]
    have hval : (⟨(p : Int), fromBytes secret⟩ : Element).isValid = false := by
      simp only [Element.isValid, fromBytes, Bool.and_eq_false_iff]
      right; exact decide_eq_false (by omega)
    simp only [hval]
    rw [if_pos (by simp)]
  · intro h1 h2 h3 h4
    refine ⟨_, split_eq rng secret t n h1 h2 hn h3 h4, ?_⟩
    rw [List.map_map, List.range'_eq_map_range]
    refine List.map_congr_left fun i _ => ?_
    simp [specShare, add_comm]

end

/-- **C14** fields smaller than two are refused by both functions. -/
theorem bn_bad_field (rng : Nat → Int) (secret : Bytes) (t n : Nat) (field : Int) (hf : field < 2)
    (shares : List Share) :
    (∃ e, splitSecret rng secret t n field = .err e) ∧ (∃ e, combineShares shares field = .err e) := by
  constructor
  · unfold splitSecret
    split; · exact ⟨_, rfl⟩
    split; · exact ⟨_, rfl⟩
    split; · exact ⟨_, rfl⟩
    exact ⟨_, rfl⟩
  · unfold combineShares
    split; · exact ⟨_, rfl⟩
    exact ⟨_, rfl⟩

theorem collect_ok_imp (field : Int) (shares : List Share) : ∀ dups xs ys r,
    collectShares field shares dups xs ys = .ok r →
    (∀ s ∈ shares, s.value ≠ 0 ∧ s.identifier ≠ 0 ∧ s.identifier ∉ dups) ∧ (shares.map Share.identifier).Nodup := by
  induction shares with
  | nil => intro dups xs ys r _; simp
  | cons s l ih =>
    intro dups xs ys r h
    rw [collectShares] at h
    split at h; · simp at h
    split at h; · simp at h
    split at h; · simp at h
    rename_i h1 h2 h3
    rw [Res.bind_eq_ok] at h
    obtain ⟨x, _, h⟩ := h
    obtain ⟨ih1, ih2⟩ := ih _ _ _ _ h
    refine ⟨?_, ?_⟩
    · intro u hu
      rcases List.mem_cons.1 hu with rfl | hu
      · exact ⟨h1, h2, h3⟩
      · obtain ⟨a, b, c⟩ := ih1 u hu
        exact ⟨a, b, fun h => c (by simp [h])⟩
    · rw [List.map_cons, List.nodup_cons]
      refine ⟨?_, ih2⟩
      intro hm
      obtain ⟨u, hu, hue⟩ := List.mem_map.1 hm
      exact (ih1 u hu).2.2 (by simp [hue])

/-- **C14** `combine_shares` returns a value only for at least two shares, all with non-zero identifier and value and
pairwise distinct identifiers, in a field of size at least two — for every field, also composite ones. -/
theorem bn_combine_ok_imp (shares : List Share) (field : Int) (bs : Bytes) (h : combineShares shares field = .ok bs) :
    2 ≤ shares.length ∧ 2 ≤ field ∧ (∀ s ∈ shares, s.value ≠ 0 ∧ s.identifier ≠ 0) ∧
      (shares.map Share.identifier).Nodup := by
  unfold combineShares at h
  split at h; · simp at h
  split at h; · simp at h
  rename_i h1 h2
  rw [Res.bind_eq_ok] at h
  obtain ⟨⟨xs, ys⟩, hc, _⟩ := h
  obtain ⟨h3, h4⟩ := collect_ok_imp _ _ _ _ _ _ hc
  exact ⟨by omega, by omega, fun s hs => ⟨(h3 s hs).1, (h3 s hs).2.1⟩, h4⟩

/-! never a panic -/

theorem modulus_np (a n : Int) : modulus a n ≠ .panic := by
  unfold modulus; split <;> simp

theorem inverse_np (a n : Int) : inverse a n ≠ .panic := by
  unfold inverse
  split
  · simp
  · simp only
    split <;> simp

theorem bind_np {A B : Type} {x : Res String A} {f : A → Res String B} (h1 : x ≠ .panic) (h2 : ∀ a, f a ≠ .panic) :
    (x >>= f) ≠ .panic := by
  cases x with
  | ok a => exact h2 a
  | err e => simp
  | panic => exact absurd rfl h1

theorem validate_np (a b : Element) : Element.validate a b ≠ .panic := by
  unfold Element.validate; split <;> simp

theorem add_np (a b : Element) : a.add b ≠ .panic :=
  bind_np (validate_np _ _) fun _ => bind_np (modulus_np _ _) fun _ => by simp
theorem sub_np (a b : Element) : a.sub b ≠ .panic :=
  bind_np (validate_np _ _) fun _ => bind_np (modulus_np _ _) fun _ => by simp
theorem mul_np (a b : Element) : a.mul b ≠ .panic :=
  bind_np (validate_np _ _) fun _ => bind_np (modulus_np _ _) fun _ => by simp
theorem neg_np (a : Element) : a.neg ≠ .panic := bind_np (modulus_np _ _) fun _ => by simp
theorem div_np (a b : Element) : a.div b ≠ .panic :=
  bind_np (validate_np _ _) fun _ => bind_np (bind_np (inverse_np _ _) fun _ => modulus_np _ _) fun _ => by simp

theorem foldlM_np {A ι : Type} (f : A → ι → Res String A) (hf : ∀ a i, f a i ≠ .panic) (l : List ι) :
    ∀ a, l.foldlM f a ≠ .panic := by
  induction l with
  | nil => intro a; simp [List.foldlM]
  | cons i l ih => intro a; rw [List.foldlM_cons]; exact bind_np (hf a i) fun b => ih b

theorem collect_np (field : Int) (hf : field ≠ 0) (shares : List Share) : ∀ dups xs ys,
    collectShares field shares dups xs ys ≠ .panic := by
  induction shares with
  | nil => intro dups xs ys; simp [collectShares]
  | cons s l ih =>
    intro dups xs ys
    rw [collectShares]
    split; · simp
    split; · simp
    split; · simp
    refine bind_np ?_ fun x => ih _ _ _
    unfold Element.fromBytes Element.new
    obtain ⟨r, hr, _⟩ := modulus_spec (fromBytes [UInt8.ofNat s.identifier]) field hf
    rw [hr]; simp

theorem collect_ne_nil (field : Int) (shares : List Share) : ∀ dups xs ys r,
    (shares ≠ [] ∨ xs ≠ []) → collectShares field shares dups xs ys = .ok r → r.1 ≠ [] := by
  induction shares with
  | nil => intro dups xs ys r h he; simp [collectShares] at he; subst he; simpa using h
  | cons s l ih =>
    intro dups xs ys r _ he
    rw [collectShares] at he
    split at he; · simp at he
    split at he; · simp at he
    split at he; · simp at he
    rw [Res.bind_eq_ok] at he
    obtain ⟨x, _, he⟩ := he
    exact ih _ _ _ _ (by simp) he

/-- **C14** `combine_shares` never panics, whatever the shares and the field. -/
theorem bn_combine_never_panics (shares : List Share) (field : Int) : combineShares shares field ≠ .panic := by
  unfold combineShares
  split; · simp
  split; · simp
  rename_i h1 h2
  cases hc : collectShares field shares [] [] [] with
  | panic => exact absurd hc (collect_np field (by omega) shares _ _ _)
  | err e => simp
  | ok r =>
    obtain ⟨xs, ys⟩ := r
    have hne := collect_ne_nil field shares _ _ _ _ (Or.inl (by rintro rfl; simp at h1)) hc
    rw [Res.ok_bind]
    refine bind_np ?_ fun a => by simp
    unfold interpolate
    cases xs with
    | nil => exact absurd rfl hne
    | cons x0 xs' =>
      simp only
      refine foldlM_np _ (fun a i => ?_) _ _
      refine bind_np ?_ fun b => bind_np (mul_np _ _) fun g => add_np _ _
      unfold basisAt
      refine foldlM_np _ (fun a j => ?_) _ _
      split
      · simp
      · exact bind_np (neg_np _) fun _ => bind_np (sub_np _ _) fun _ => bind_np (div_np _ _) fun _ => mul_np _ _

/-- **C14, limit** there is no threshold check: two shares of a 3-of-3 sharing silently give a wrong secret. -/
theorem bn_combine_below_threshold_wrong : ∃ (rng : Nat → Int) (shares : List Share),
    splitSecret rng [7] 3 3 101 = .ok shares ∧ ∃ wrong, combineShares (shares.take 2) 101 = .ok wrong ∧ wrong ≠ [7] := by
  refine ⟨fun _ => 1, [⟨1, 9⟩, ⟨2, 13⟩, ⟨3, 19⟩], by decide +kernel, [5], ?_, by decide⟩
  have := bn_shamir_any_quorum (p := 101) (fun _ => 4) [5] 2 2 (by norm_num) (by norm_num) [⟨1, 9⟩, ⟨2, 13⟩]
    (by decide +kernel) [⟨1, 9⟩, ⟨2, 13⟩] (by simp) (by simp) (by simp)
  rw [if_neg (by simp)] at this
  exact this

/-- **C13/C14** `Share::from_bytes` inverts `to_bytes` for reduced values and panics exactly on empty input
(a zero modulus is an error). -/
theorem bn_share_codec (s : Share) (m : Int) (h0 : 0 ≤ s.value) (hm : s.value < m) (hid : s.identifier < 256) :
    Share.fromBytes s.toBytes m = .ok s := by
  unfold Share.fromBytes Share.toBytes
  rw [List.getLast?_concat]
  simp only [List.dropLast_concat]
  rw [from_to_bytes _ h0, modulus_eq_emod _ _ (by omega), Int.emod_eq_of_lt h0 hm]
  simp [Nat.mod_eq_of_lt hid]

theorem bn_share_parse_panics_iff (data : Bytes) (m : Int) : Share.fromBytes data m = .panic ↔ data = [] := by
  unfold Share.fromBytes
  cases h : data.getLast? with
  | none => simpa using h
  | some x =>
    simp only
    constructor
    · intro hp; exact absurd hp (bind_np (modulus_np _ _) fun _ => by simp)
    · rintro rfl; simp at h

/-- the hypotheses of `bn_shamir_any_quorum` are met by a concrete 2-of-3 sharing -/
example : splitSecret (fun _ => 7) [5] 2 3 101 = .ok [⟨1, 12⟩, ⟨2, 19⟩, ⟨3, 26⟩] := by decide +kernel

example : combineShares [⟨3, 26⟩, ⟨1, 12⟩] 101 = .ok [5] := by
  have := bn_shamir_any_quorum (p := 101) (fun _ => 7) [5] 2 3 (by norm_num) (by norm_num) [⟨1, 12⟩, ⟨2, 19⟩, ⟨3, 26⟩]
    (by decide +kernel) [⟨3, 26⟩, ⟨1, 12⟩] (by simp) (by simp) (by simp)
  rw [if_neg (by simp)] at this
  rw [show ((101 : Nat) : Int) = 101 from rfl] at this
  rw [this]; rfl

end Verif.BN
