import Verif.Props.GrothTokenMore
/-!
# Attribute tokens: what they disclose (C100), use of a token object (C101), the challenge (C97)
-/
set_option linter.unusedSectionVars false
set_option linter.unusedSimpArgs false
set_option linter.unusedVariables false
namespace Verif.Groth

section Level
variable {F A B GT : Type} [Field F] [AddCommGroup A] [Module F A] [AddCommGroup B] [Module F B]
  [AddCommGroup GT] [Module F GT] [DecidableEq F] [DecidableEq A] [DecidableEq B] [DecidableEq GT]

theorem lvlRT_get (r : LevelRnd F) : ∀ (as : List A) (j k : Nat), k < as.length → (lvlRT r j as)[k]? = some (r.t (j + k))
  | [], j, k, h => by simp at h
  | a :: as, j, 0, h => by simp [lvlRT]
  | a :: as, j, k + 1, h => by
    have := lvlRT_get r as (j + 1) k (by simpa using h)
    rw [show j + 1 + k = j + (k + 1) by omega] at this
    simpa [lvlRT] using this

theorem lvlRespT_get (p : Setup A B) (c : F) (l : Link A B) (r : LevelRnd F) (hn : 1 ≤ l.attributes.length)
    (hT : l.signature.T.length = l.attributes.length) (k : Nat) (hk : k < l.attributes.length) :
    (lvlRespT p c l r)[k]? = some (r.t k • p.ga + c • (randomize l.signature r.sig).T.getD k 0) := by
  have hTl : k < (randomize l.signature r.sig).T.length := by simp only [randomize, List.length_map]; omega
  have hdl : l.attributes.dropLast.length = l.attributes.length - 1 := List.length_dropLast
  have h1 : (lvlRT r 0 l.attributes.dropLast ++ [r.t (l.attributes.length - 1)])[k]? = some (r.t k) := by
    rcases Nat.lt_or_ge k (l.attributes.length - 1) with h | h
    · rw [List.getElem?_append_left (by rw [lvlRT_length]; omega), lvlRT_get r _ 0 k (by omega), Nat.zero_add]
    · rw [List.getElem?_append_right (by rw [lvlRT_length]; omega), lvlRT_length, hdl, show k = l.attributes.length - 1 by omega, Nat.sub_self]
      rfl
  unfold lvlRespT
  rw [List.getElem?_zipWith, h1, List.getElem?_eq_getElem hTl]
  simp [List.getD, hTl]

theorem lvlRespT_length (p : Setup A B) (c : F) (l : Link A B) (r : LevelRnd F) (hn : 1 ≤ l.attributes.length)
    (hT : l.signature.T.length = l.attributes.length) : (lvlRespT p c l r).length = l.attributes.length := by
  unfold lvlRespT
  simp only [List.length_zipWith, List.length_append, lvlRT_length, List.length_dropLast, List.length_singleton, randomize, List.length_map]
  omega

theorem lvlRespA_congr (ga : A) (c : F) (rv : List Nat) (r r' : LevelRnd F) : ∀ (as as' : List A) (j : Nat), as.length = as'.length →
    (∀ (k : Nat) (a a' : A), as[k]? = some a → as'[k]? = some a' → rv.contains (j + k) = false →
      r.a (j + k) • ga + c • a = r'.a (j + k) • ga + c • a') →
    lvlRespA ga c rv r j as = lvlRespA ga c rv r' j as'
  | [], [], j, _, _ => rfl
  | [], _ :: _, j, h, _ => by simp at h
  | _ :: _, [], j, h, _ => by simp at h
  | a :: as, a' :: as', j, hl, h => by
    have ih := lvlRespA_congr ga c rv r r' as as' (j + 1) (by simpa using hl) (fun k x x' hx hx' hc => by
      have := h (k + 1) x x' (by simpa using hx) (by simpa using hx') (by rwa [show j + (k + 1) = j + 1 + k by omega])
      rwa [show j + (k + 1) = j + 1 + k by omega] at this)
    by_cases hc : rv.contains j = true
    · simp only [lvlRespA, if_pos hc, ih]
    · have := h 0 a a' (by simp) (by simp) (by simpa using hc)
      simp only [Nat.add_zero] at this
      simp only [lvlRespA, if_neg hc, ih, this]

theorem lvlRev_congr (rv : List Nat) : ∀ (as as' : List A) (j : Nat), as.length = as'.length →
    (∀ k, j + k ∈ rv → as[k]? = as'[k]?) → lvlRev rv j as = lvlRev rv j as'
  | [], [], j, _, _ => rfl
  | [], _ :: _, j, h, _ => by simp at h
  | _ :: _, [], j, h, _ => by simp at h
  | a :: as, a' :: as', j, hl, h => by
    have ih := lvlRev_congr rv as as' (j + 1) (by simpa using hl) (fun k hk => by
      have := h (k + 1) (by rwa [show j + (k + 1) = j + 1 + k by omega])
      simpa using this)
    by_cases hc : rv.contains j = true
    · have := h 0 (by simpa using hc)
      simp only [List.getElem?_cons_zero, Option.some.injEq] at this
      simp only [lvlRev, if_pos hc, ih, this]
    · simp only [lvlRev, if_neg hc, ih]

/-- the random values of another link that give the same transcript at one level; `dl` are discrete logarithms -/
def simLevel (dlA : A → F) (dlB : B → F) (c : F) (l l' : Link A B) (r : LevelRnd F) (v : F) : LevelRnd F where
  sig := r.sig * dlB l.signature.R / dlB l'.signature.R
  s := r.s + c * (dlA (randomize l.signature r.sig).S -
    dlA (randomize l'.signature (r.sig * dlB l.signature.R / dlB l'.signature.R)).S)
  vk := v
  t := fun k => r.t k + c * (dlA ((randomize l.signature r.sig).T.getD k 0) -
    dlA ((randomize l'.signature (r.sig * dlB l.signature.R / dlB l'.signature.R)).T.getD k 0))
  a := fun k => r.a k + c * (dlA (l.attributes.getD k 0) - dlA (l'.attributes.getD k 0))

theorem sim_level (p : Setup A B) (dlA : A → F) (hA : ∀ x, x = dlA x • p.ga) (dlB : B → F) (gb : B) (hB : ∀ x, x = dlB x • gb)
    (c : F) (l l' : Link A B) (r : LevelRnd F) (v : F) (hσ : r.sig ≠ 0) (rv : List Nat)
    (hn : 1 ≤ l.attributes.length) (hT : l.signature.T.length = l.attributes.length) (hT' : l'.signature.T.length = l'.attributes.length)
    (hR : l.signature.R ≠ 0) (hR' : l'.signature.R ≠ 0) (hlen : l.attributes.length = l'.attributes.length) :
    (simLevel dlA dlB c l l' r v).sig ≠ 0 ∧
    (randomize l'.signature (simLevel dlA dlB c l l' r v).sig).R = (randomize l.signature r.sig).R ∧
    (simLevel dlA dlB c l l' r v).s • p.ga + c • (randomize l'.signature (simLevel dlA dlB c l l' r v).sig).S =
      r.s • p.ga + c • (randomize l.signature r.sig).S ∧
    lvlRespT p c l' (simLevel dlA dlB c l l' r v) = lvlRespT p c l r ∧
    lvlRespA p.ga c rv (simLevel dlA dlB c l l' r v) 0 l'.attributes.dropLast = lvlRespA p.ga c rv r 0 l.attributes.dropLast := by
  have hd : ∀ x : B, x ≠ 0 → dlB x ≠ 0 := by
    intro x hx h0
    apply hx; rw [hB x, h0, zero_smul]
  have h1 := hd _ hR
  have h2 := hd _ hR'
  refine ⟨div_ne_zero (mul_ne_zero hσ h1) h2, ?_, ?_, ?_, ?_⟩
  · show (r.sig * dlB l.signature.R / dlB l'.signature.R) • l'.signature.R = r.sig • l.signature.R
    have e1 := hB l.signature.R
    have e2 := hB l'.signature.R
    revert h1 h2 e1 e2
    generalize dlB l.signature.R = d
    generalize dlB l'.signature.R = d'
    intro h1 h2 e1 e2
    rw [e1, e2, smul_smul, smul_smul, div_mul_cancel₀ _ h2]
  · simp only [simLevel]
    generalize (randomize l.signature r.sig).S = S
    generalize (randomize l'.signature (r.sig * dlB l.signature.R / dlB l'.signature.R)).S = S'
    have e1 := hA S
    have e2 := hA S'
    rw [add_smul, mul_smul, sub_smul, ← e1, ← e2]
    module
  · apply List.ext_getElem?
    intro k
    rcases Nat.lt_or_ge k l.attributes.length with hk | hk
    · rw [lvlRespT_get p c l r hn hT k hk, lvlRespT_get p c l' _ (by omega) hT' k (by omega)]
      simp only [simLevel]
      generalize (randomize l.signature r.sig).T.getD k 0 = S
      generalize (randomize l'.signature (r.sig * dlB l.signature.R / dlB l'.signature.R)).T.getD k 0 = S'
      have e1 := hA S
      have e2 := hA S'
      rw [add_smul, mul_smul, sub_smul, ← e1, ← e2]
      congr 1; module
    · rw [List.getElem?_eq_none, List.getElem?_eq_none]
      · rw [lvlRespT_length p c l r hn hT]; exact hk
      · rw [lvlRespT_length p c l' _ (by omega) hT']; omega
  · apply lvlRespA_congr
    · simp only [List.length_dropLast]; omega
    · intro k a a' ha ha' _
      have hk := (List.getElem?_eq_some_iff.mp ha).1
      have hk' := (List.getElem?_eq_some_iff.mp ha').1
      rw [List.length_dropLast] at hk hk'
      have hg : l'.attributes.getD k 0 = a := by
        rw [List.getElem?_dropLast, if_pos (by omega)] at ha
        simp [List.getD, ha]
      have hg' : l.attributes.getD k 0 = a' := by
        rw [List.getElem?_dropLast, if_pos (by omega)] at ha'
        simp [List.getD, ha']
      simp only [simLevel, Nat.zero_add, hg, hg']
      have e1 := hA a
      have e2 := hA a'
      rw [add_smul, mul_smul, sub_smul, ← e1, ← e2]
      module

end Level

section Tok
variable {F G1 G2 GT : Type} [Field F] [AddCommGroup G1] [Module F G1] [AddCommGroup G2] [Module F G2]
  [AddCommGroup GT] [Module F GT] [DecidableEq F] [DecidableEq G1] [DecidableEq G2] [DecidableEq GT]
variable {e : G1 →ₗ[F] G2 →ₗ[F] GT} {c c' : Chain G1 G2} {ipk : G2} {ev ev' : List G2} {od od' : List G1} {sk sk' : F}
  {p1 : Setup G1 G2} {p2 : Setup G2 G1} {revealed : List (List Nat)}

/-- Two chains that look the same to the verifier: as many levels, as many attributes at each, and the same values where the verifier asks. -/
structure SameView (c c' : Chain G1 G2) (revealed : List (List Nat)) : Prop where
  size : c'.size = c.size
  odd : ∀ i l l' rv, i % 2 = 1 → c.odd[i / 2]? = some l → c'.odd[i / 2]? = some l' → revealed[i - 1]? = some rv →
    l.attributes.length = l'.attributes.length ∧ ∀ j, j ∈ rv → j + 1 < l.attributes.length → l.attributes[j]? = l'.attributes[j]?
  even : ∀ i l l' rv, i % 2 = 0 → 1 ≤ i → c.even[i / 2 - 1]? = some l → c'.even[i / 2 - 1]? = some l' → revealed[i - 1]? = some rv →
    l.attributes.length = l'.attributes.length ∧ ∀ j, j ∈ rv → j + 1 < l.attributes.length → l.attributes[j]? = l'.attributes[j]?

/-- The random values of the second holder: `dl1` and `dl2` are discrete logarithms.  Outside the levels of the chain the values are not used. -/
def simRnd (dl1 : G1 → F) (dl2 : G2 → F) (c c' : Chain G1 G2) (ev ev' : List G2) (od od' : List G1) (sk sk' ch : F) (rnd : Nat → LevelRnd F) : Nat → LevelRnd F := fun i =>
  if 1 ≤ i ∧ i ≤ c.size then
    if i % 2 = 1 then simLevel dl1 dl2 ch (oddLink c i) (oddLink c' i) (rnd i)
      ((rnd i).vk + ch * (if i = c.size then sk - sk' else dl1 (od.getD (i / 2) 0) - dl1 (od'.getD (i / 2) 0)))
    else simLevel dl2 dl1 ch (evenLink c i) (evenLink c' i) (rnd i)
      ((rnd i).vk + ch * (if i = c.size then sk - sk' else dl2 (ev.getD (i / 2 - 1) 0) - dl2 (ev'.getD (i / 2 - 1) 0)))
  else rnd i

/-- Given a challenge, to the random values of the first chain correspond values of the second for which commitment and response are the same. -/
theorem token_sim (h : Presentable e c ipk ev od sk p1 p2 revealed) (h' : Presentable e c' ipk ev' od' sk' p1 p2 revealed)
    (hview : SameView c c' revealed) (dl1 : G1 → F) (hd1 : ∀ x, x = dl1 x • p1.ga) (dl2 : G2 → F) (hd2 : ∀ x, x = dl2 x • p2.ga)
    (hR1 : ∀ l ∈ c.odd, l.signature.R ≠ 0) (hR1' : ∀ l ∈ c'.odd, l.signature.R ≠ 0)
    (hR2 : ∀ l ∈ c.even, l.signature.R ≠ 0) (hR2' : ∀ l ∈ c'.even, l.signature.R ≠ 0)
    (rnd : Nat → LevelRnd F) (hσ : ∀ i, (rnd i).sig ≠ 0) (ch : F) :
    (∀ i, (simRnd dl1 dl2 c c' ev ev' od od' sk sk' ch rnd i).sig ≠ 0) ∧ ∃ tok tok' k q,
      commitment e c p1 p2 Token.new revealed rnd = .ok (tok, k) ∧ response c p1 p2 tok k sk ch ev od = .ok q ∧
      commitment e c' p1 p2 Token.new revealed (simRnd dl1 dl2 c c' ev ev' od od' sk sk' ch rnd) = .ok (tok', k) ∧ response c' p1 p2 tok' k sk' ch ev' od' = .ok q := by
  let vkO : Nat → F := fun i => (rnd i).vk + ch * (if i = c.size then sk - sk' else dl1 (od.getD (i / 2) 0) - dl1 (od'.getD (i / 2) 0))
  let vkE : Nat → F := fun i => (rnd i).vk + ch * (if i = c.size then sk - sk' else dl2 (ev.getD (i / 2 - 1) 0) - dl2 (ev'.getD (i / 2 - 1) 0))
  set rnd' : Nat → LevelRnd F := simRnd dl1 dl2 c c' ev ev' od od' sk sk' ch rnd with hrnd'
  have hrO : ∀ i, 1 ≤ i → i ≤ c.size → i % 2 = 1 →
      rnd' i = simLevel dl1 dl2 ch (oddLink c i) (oddLink c' i) (rnd i) (vkO i) := by
    intro i h1 h2 ho
    simp only [hrnd', simRnd]; rw [if_pos ⟨h1, h2⟩, if_pos ho]
  have hrE : ∀ i, 1 ≤ i → i ≤ c.size → i % 2 = 0 →
      rnd' i = simLevel dl2 dl1 ch (evenLink c i) (evenLink c' i) (rnd i) (vkE i) := by
    intro i h1 h2 ho
    simp only [hrnd', simRnd]; rw [if_pos ⟨h1, h2⟩, if_neg (by omega)]
  have hsz := hview.size
  have hO : ∀ i, 1 ≤ i → i ≤ c.size → i % 2 = 1 → (rnd' i).sig ≠ 0 ∧
      (randomize (oddLink c' i).signature (rnd' i).sig).R = (randomize (oddLink c i).signature (rnd i).sig).R ∧
      (rnd' i).s • p1.ga + ch • (randomize (oddLink c' i).signature (rnd' i).sig).S =
        (rnd i).s • p1.ga + ch • (randomize (oddLink c i).signature (rnd i).sig).S ∧
      lvlRespT p1 ch (oddLink c' i) (rnd' i) = lvlRespT p1 ch (oddLink c i) (rnd i) ∧
      lvlRespA p1.ga ch (revealed.getD (i - 1) []) (rnd' i) 0 (oddLink c' i).attributes.dropLast =
        lvlRespA p1.ga ch (revealed.getD (i - 1) []) (rnd i) 0 (oddLink c i).attributes.dropLast ∧
      (oddLink c' i).attributes.length = (oddLink c i).attributes.length ∧
      lvlRev (revealed.getD (i - 1) []) 0 (oddLink c' i).attributes.dropLast =
        lvlRev (revealed.getD (i - 1) []) 0 (oddLink c i).attributes.dropLast := by
    intro i h1 h2 ho
    obtain ⟨g1, g2, g3, g4, -⟩ := pres_odd h h1 h2 ho
    obtain ⟨k1, k2, k3, k4, -⟩ := pres_odd h' h1 (by omega) ho
    obtain ⟨hl, hrev⟩ := hview.odd i _ _ _ ho g1 k1 g2
    rw [hrO i h1 h2 ho]
    obtain ⟨a1, a2, a3, a4, a5⟩ := sim_level p1 dl1 hd1 dl2 p2.ga hd2 ch (oddLink c i) (oddLink c' i) (rnd i) (vkO i) (hσ i)
      (revealed.getD (i - 1) []) (by omega) g3 k3 (hR1 _ (List.mem_of_getElem? g1)) (hR1' _ (List.mem_of_getElem? k1)) hl
    refine ⟨a1, a2, a3, a4, a5, hl.symm, lvlRev_congr _ _ _ 0 (by simp only [List.length_dropLast]; omega) (fun k hk => ?_)⟩
    rw [Nat.zero_add] at hk
    rw [List.getElem?_dropLast, List.getElem?_dropLast, hl]
    by_cases hkn : k < (oddLink c' i).attributes.length - 1
    · rw [if_pos hkn, if_pos hkn]; exact (hrev k hk (by omega)).symm
    · rw [if_neg hkn, if_neg hkn]
  have hE : ∀ i, 1 ≤ i → i ≤ c.size → i % 2 = 0 → (rnd' i).sig ≠ 0 ∧
      (randomize (evenLink c' i).signature (rnd' i).sig).R = (randomize (evenLink c i).signature (rnd i).sig).R ∧
      (rnd' i).s • p2.ga + ch • (randomize (evenLink c' i).signature (rnd' i).sig).S =
        (rnd i).s • p2.ga + ch • (randomize (evenLink c i).signature (rnd i).sig).S ∧
      lvlRespT p2 ch (evenLink c' i) (rnd' i) = lvlRespT p2 ch (evenLink c i) (rnd i) ∧
      lvlRespA p2.ga ch (revealed.getD (i - 1) []) (rnd' i) 0 (evenLink c' i).attributes.dropLast =
        lvlRespA p2.ga ch (revealed.getD (i - 1) []) (rnd i) 0 (evenLink c i).attributes.dropLast ∧
      (evenLink c' i).attributes.length = (evenLink c i).attributes.length ∧
      lvlRev (revealed.getD (i - 1) []) 0 (evenLink c' i).attributes.dropLast =
        lvlRev (revealed.getD (i - 1) []) 0 (evenLink c i).attributes.dropLast := by
    intro i h1 h2 ho
    obtain ⟨g1, g2, g3, g4, -⟩ := pres_even h h1 h2 ho
    obtain ⟨k1, k2, k3, k4, -⟩ := pres_even h' h1 (by omega) ho
    obtain ⟨hl, hrev⟩ := hview.even i _ _ _ ho h1 g1 k1 g2
    rw [hrE i h1 h2 ho]
    obtain ⟨a1, a2, a3, a4, a5⟩ := sim_level p2 dl2 hd2 dl1 p1.ga hd1 ch (evenLink c i) (evenLink c' i) (rnd i) (vkE i) (hσ i)
      (revealed.getD (i - 1) []) (by omega) g3 k3 (hR2 _ (List.mem_of_getElem? g1)) (hR2' _ (List.mem_of_getElem? k1)) hl
    refine ⟨a1, a2, a3, a4, a5, hl.symm, lvlRev_congr _ _ _ 0 (by simp only [List.length_dropLast]; omega) (fun k hk => ?_)⟩
    rw [Nat.zero_add] at hk
    rw [List.getElem?_dropLast, List.getElem?_dropLast, hl]
    by_cases hkn : k < (evenLink c' i).attributes.length - 1
    · rw [if_pos hkn, if_pos hkn]; exact (hrev k hk (by omega)).symm
    · rw [if_neg hkn, if_neg hkn]
  have hσ' : ∀ i, (rnd' i).sig ≠ 0 := by
    intro i
    by_cases hi : 1 ≤ i ∧ i ≤ c.size
    · rcases Nat.mod_two_eq_zero_or_one i with ho | ho
      · exact (hE i hi.1 hi.2 ho).1
      · exact (hO i hi.1 hi.2 ho).1
    · simp only [hrnd', simRnd]; rw [if_neg hi]; exact hσ i
  have hmo : ∀ {α : Type} (f g : Nat → α) (L : Nat), (∀ i, 1 ≤ i → i ≤ L → i % 2 = 1 → f i = g i) → (oddsOf L).map f = (oddsOf L).map g := by
    intro α f g L hfg
    apply List.map_congr_left
    intro i hi
    simp only [oddsOf, List.mem_map, List.mem_range] at hi
    obtain ⟨j, hj, rfl⟩ := hi
    exact hfg _ (by omega) (by omega) (by omega)
  have hme : ∀ {α : Type} (f g : Nat → α) (L : Nat), (∀ i, 1 ≤ i → i ≤ L → i % 2 = 0 → f i = g i) → (evensOf L).map f = (evensOf L).map g := by
    intro α f g L hfg
    apply List.map_congr_left
    intro i hi
    simp only [evensOf, List.mem_map, List.mem_range] at hi
    obtain ⟨j, hj, rfl⟩ := hi
    exact hfg _ (by omega) (by omega) (by omega)
  have h1 := h.valid.nonempty
  have hresp : respAt c' ev' od' sk' p1 p2 revealed rnd' ch c'.size = respAt c ev od sk p1 p2 revealed rnd ch c.size := by
    simp only [respAt, hsz, if_true]
    congr 1
    · rcases Nat.mod_two_eq_zero_or_one c.size with ho | ho
      · rw [hrE _ h1 (le_refl _) ho]
        show vkE c.size + ch * sk' = _
        simp only [vkE, if_true]; ring
      · rw [hrO _ h1 (le_refl _) ho]
        show vkO c.size + ch * sk' = _
        simp only [vkO, if_true]; ring
    · refine hmo _ _ _ (fun i hi1 hi2 ho => ?_)
      rw [hrO i hi1 (by omega) ho]
      show vkO i • p1.ga + _ = _
      simp only [vkO, if_neg (show ¬ i = c.size by omega)]
      have e1 := hd1 (od.getD (i / 2) 0)
      have e2 := hd1 (od'.getD (i / 2) 0)
      rw [add_smul, mul_smul, sub_smul, ← e1, ← e2]
      module
    · refine hme _ _ _ (fun i hi1 hi2 ho => ?_)
      rw [hrE i hi1 (by omega) ho]
      show vkE i • p2.ga + _ = _
      simp only [vkE, if_neg (show ¬ i = c.size by omega)]
      have e1 := hd2 (ev.getD (i / 2 - 1) 0)
      have e2 := hd2 (ev'.getD (i / 2 - 1) 0)
      rw [add_smul, mul_smul, sub_smul, ← e1, ← e2]
      module
    · exact hmo _ _ _ (fun i hi1 hi2 ho => (hO i hi1 hi2 ho).2.2.1)
    · exact hme _ _ _ (fun i hi1 hi2 ho => (hE i hi1 hi2 ho).2.2.1)
    · exact hmo _ _ _ (fun i hi1 hi2 ho => (hO i hi1 hi2 ho).2.2.2.1)
    · exact hme _ _ _ (fun i hi1 hi2 ho => (hE i hi1 hi2 ho).2.2.2.1)
    · exact hmo _ _ _ (fun i hi1 hi2 ho => (hO i hi1 hi2 ho).2.2.2.2.1)
    · exact hme _ _ _ (fun i hi1 hi2 ho => (hE i hi1 hi2 ho).2.2.2.2.1)
  -- the commitments are what the verifier reconstructs
  obtain ⟨tok, k, q, hk, hq, hrec⟩ := token_complete h rnd hσ ch
  obtain ⟨tok', k', q', hk', hq', hrec'⟩ := token_complete h' rnd' hσ' ch
  have e1 := commitment_eq h rnd
  have e1' := commitment_eq h' rnd'
  rw [hk] at e1
  rw [hk'] at e1'
  simp only [Res.ok.injEq, Prod.mk.injEq] at e1 e1'
  obtain ⟨rfl, rfl⟩ := e1
  obtain ⟨rfl, rfl⟩ := e1'
  rw [response_eq h rnd ch] at hq
  rw [response_eq h' rnd' ch] at hq'
  simp only [Res.ok.injEq] at hq hq'
  subst hq hq'
  have hkk : commOf e c' p1 p2 revealed rnd' = commOf e c p1 p2 revealed rnd := by
    have hcong := reconstruct_congr e c.size (commOf e c' p1 p2 revealed rnd') (commOf e c p1 p2 revealed rnd)
      (respAt c ev od sk p1 p2 revealed rnd ch c.size) ch revealed ipk p1 p2 ?_ ?_ ?_ ?_ ?_ ?_
    · rw [hresp, hsz, hcong, hrec] at hrec'
      simpa using hrec'.symm
    · simp only [commOf, commitAt, hsz, List.map_map]
      apply List.map_congr_left
      intro i hi
      simp only [levelsOf, List.mem_map, List.mem_range] at hi
      obtain ⟨j, hj, rfl⟩ := hi
      simp only [Function.comp]
      have hlen : ∀ {A B : Type} [AddCommGroup A] [Module F A] [AddCommGroup B] [Module F B] (e : A →ₗ[F] B →ₗ[F] GT) (p : Setup A B)
          (prev : Option F) (l : Link A B) (rv : List Nat) (r : LevelRnd F), (lvlComm e p prev l rv r).comT.length =
            l.attributes.length - 1 + 1 := by
        intro A B _ _ _ _ e p prev l rv r
        classical
        show (lvlComT _ _ _ _ _ _ _ ++ [_]).length = _
        rw [List.length_append, lvlComT_length, List.length_singleton, List.length_dropLast]
      rcases Nat.mod_two_eq_zero_or_one (j + 1) with ho | ho
      · rw [if_neg (by omega), if_neg (by omega)]
        simp only [evenComm, hlen, (hE (j + 1) (by omega) (by omega) ho).2.2.2.2.2.1]
      · rw [if_pos ho, if_pos ho]
        simp only [oddComm, hlen, (hO (j + 1) (by omega) (by omega) ho).2.2.2.2.2.1]
    · simp only [commOf, hsz]
      exact hmo _ _ _ (fun i hi1 hi2 ho => (hO i hi1 hi2 ho).2.1)
    · simp only [commOf, hsz]
      exact hme _ _ _ (fun i hi1 hi2 ho => (hE i hi1 hi2 ho).2.1)
    · simp only [commOf, commitAt, hsz]
      exact hmo _ _ _ (fun i hi1 hi2 ho => (hO i hi1 hi2 ho).2.2.2.2.2.2)
    · simp only [commOf, commitAt, hsz]
      exact hme _ _ _ (fun i hi1 hi2 ho => (hE i hi1 hi2 ho).2.2.2.2.2.2)
    · simp only [commOf, commitAt, hsz, List.length_map]
  refine ⟨hσ', (commitAt e c p1 p2 revealed rnd c.size).tok, (commitAt e c' p1 p2 revealed rnd' c'.size).tok,
    commOf e c p1 p2 revealed rnd, respAt c ev od sk p1 p2 revealed rnd ch c.size, hk, response_eq h rnd ch, ?_, ?_⟩
  · rw [hk', hkk]
  · rw [← hkk, response_eq h' rnd' ch, hresp]

/-- **C100** Perfect zero knowledge for a given challenge: what the token of one chain discloses, that of any other chain with the same revealed
attributes discloses with the same probability: to the random values of the first correspond values of the second for which the commitment
and the response are the same.  (The groups have prime order: every element is a multiple of the generator.) -/
theorem token_indistinguishable (h : Presentable e c ipk ev od sk p1 p2 revealed) (h' : Presentable e c' ipk ev' od' sk' p1 p2 revealed)
    (hview : SameView c c' revealed) (hg1 : ∀ x : G1, ∃ a : F, x = a • p1.ga) (hg2 : ∀ x : G2, ∃ a : F, x = a • p2.ga)
    (hR1 : ∀ l ∈ c.odd, l.signature.R ≠ 0) (hR1' : ∀ l ∈ c'.odd, l.signature.R ≠ 0)
    (hR2 : ∀ l ∈ c.even, l.signature.R ≠ 0) (hR2' : ∀ l ∈ c'.even, l.signature.R ≠ 0)
    (rnd : Nat → LevelRnd F) (hσ : ∀ i, (rnd i).sig ≠ 0) (ch : F) :
    ∃ rnd' : Nat → LevelRnd F, (∀ i, 1 ≤ i → i ≤ c.size → (rnd' i).sig ≠ 0) ∧ ∃ tok tok' k q,
      commitment e c p1 p2 Token.new revealed rnd = .ok (tok, k) ∧ response c p1 p2 tok k sk ch ev od = .ok q ∧
      commitment e c' p1 p2 Token.new revealed rnd' = .ok (tok', k) ∧ response c' p1 p2 tok' k sk' ch ev' od' = .ok q := by
  choose dl1 hd1 using hg1
  choose dl2 hd2 using hg2
  obtain ⟨h1, h2⟩ := token_sim h h' hview dl1 hd1 dl2 hd2 hR1 hR1' hR2 hR2' rnd hσ ch
  exact ⟨_, fun i _ _ => h1 i, h2⟩

/-! ## Using a token object more than once -/

/-- **C101** Two responses of one token object to different challenges give away the secret key of its holder. -/
theorem token_two_responses_leak (h : Presentable e c ipk ev od sk p1 p2 revealed) (rnd : Nat → LevelRnd F) (ch ch' : F) (hc : ch ≠ ch')
    (tok : Token F G1 G2) (k : Comm G1 G2 GT) (hk : commitment e c p1 p2 Token.new revealed rnd = .ok (tok, k)) :
    ∃ q q', response c p1 p2 tok k sk ch ev od = .ok q ∧ response c p1 p2 tok k sk ch' ev od = .ok q' ∧
      sk = (ch - ch')⁻¹ * (q.csk - q'.csk) := by
  rw [commitment_eq h rnd] at hk
  simp only [Res.ok.injEq, Prod.mk.injEq] at hk
  obtain ⟨rfl, rfl⟩ := hk
  refine ⟨_, _, response_eq h rnd ch, response_eq h rnd ch', ?_⟩
  have hd : ch - ch' ≠ 0 := sub_ne_zero.mpr hc
  simp only [respAt, if_true]
  field_simp
  ring

theorem commitStep_counts (ps : PreSetup GT) (pr : List GT) (rnd : Nat → LevelRnd F) (st st' : CommitState F G1 G2 GT) (i : Nat)
    (h : commitStep c p1 p2 revealed ps pr rnd st i = .ok st') :
    st'.tok.oddSigs.length + st'.tok.evenSigs.length = st.tok.oddSigs.length + st.tok.evenSigs.length + 1 ∧
    st'.commsS.length = st.commsS.length + 1 ∧ st'.commsT.length = st.commsT.length + 1 ∧
    st'.oddRev.length + st'.evenRev.length = st.oddRev.length + st.evenRev.length + 1 := by
  unfold commitStep at h
  by_cases hi : i % 2 = 1
  · rw [if_pos hi] at h
    simp only [Res.bind_eq_ok, Res.pure_eq, Res.ok.injEq] at h
    obtain ⟨l, -, gr, -, prev, -, rv, -, q, -, rfl⟩ := h
    refine ⟨?_, ?_, ?_, ?_⟩ <;> simp only [List.length_append, List.length_singleton] <;> omega
  · rw [if_neg hi] at h
    simp only [Res.bind_eq_ok, Res.pure_eq, Res.ok.injEq] at h
    obtain ⟨l, -, gr, -, prev, -, rv, -, q, -, rfl⟩ := h
    refine ⟨?_, ?_, ?_, ?_⟩ <;> simp only [List.length_append, List.length_singleton] <;> omega

theorem commitLoop_counts (ps : PreSetup GT) (pr : List GT) (rnd : Nat → LevelRnd F) : ∀ (n i : Nat) (st st' : CommitState F G1 G2 GT),
    forLevels (commitStep c p1 p2 revealed ps pr rnd) n i st = .ok st' →
    st'.tok.oddSigs.length + st'.tok.evenSigs.length = st.tok.oddSigs.length + st.tok.evenSigs.length + n ∧
    st'.commsS.length = st.commsS.length + n ∧ st'.commsT.length = st.commsT.length + n ∧
    st'.oddRev.length + st'.evenRev.length = st.oddRev.length + st.evenRev.length + n
  | 0, i, st, st', h => by
    simp only [forLevels, Res.ok.injEq] at h
    subst h
    omega
  | n + 1, i, st, st', h => by
    simp only [forLevels, Res.bind_eq_ok] at h
    obtain ⟨s1, h1, h2⟩ := h
    have a := commitStep_counts ps pr rnd st s1 i h1
    have b := commitLoop_counts ps pr rnd n (i + 1) s1 st' h2
    omega

/-- **C101** A second commitment from the same token object (whatever the attributes revealed and random values) cannot be responded to:
`response` refuses it, so the blindings of the first are not used a second time. -/
theorem token_second_commitment_refused (hne : 1 ≤ c.size) (rnd rnd' : Nat → LevelRnd F) (revealed' : List (List Nat))
    (tok tok' : Token F G1 G2) (k k' : Comm G1 G2 GT) (hk : commitment e c p1 p2 Token.new revealed rnd = .ok (tok, k))
    (hk' : commitment e c p1 p2 tok revealed' rnd' = .ok (tok', k')) (ch : F) :
    response c p1 p2 tok' k' sk ch ev od = .err (.incorrectNumberOfBlindedR c.size (2 * c.size)) := by
  have key : ∀ {revealed : List (List Nat)} {rnd : Nat → LevelRnd F} {t0 t1 : Token F G1 G2} {k : Comm G1 G2 GT},
      commitment e c p1 p2 t0 revealed rnd = .ok (t1, k) →
      t1.oddSigs.length + t1.evenSigs.length = t0.oddSigs.length + t0.evenSigs.length + c.size ∧
      k.commsS.length = c.size ∧ k.commsT.length = c.size ∧ k.oddRev.length + k.evenRev.length = c.size ∧
      k.oddR.length + k.evenR.length = t1.oddSigs.length + t1.evenSigs.length := by
    intro revealed rnd t0 t1 k h
    unfold commitment at h
    simp only [Res.bind_eq_ok] at h
    obtain ⟨pr, -, h⟩ := h
    unfold commitWith at h
    by_cases hl : revealed.length ≠ c.size
    · rw [if_pos hl] at h; cases h
    rw [if_neg hl] at h
    simp only [Res.bind_eq_ok, Res.pure_eq, Res.ok.injEq, Prod.mk.injEq] at h
    obtain ⟨st, hst, rfl, rfl⟩ := h
    have := commitLoop_counts _ _ _ _ _ _ _ hst
    simp only [List.length_nil, List.length_map] at this ⊢
    obtain ⟨a1, a2, a3, a4⟩ := this
    exact ⟨a1, a2.trans (Nat.zero_add _), a3.trans (Nat.zero_add _), a4.trans (Nat.zero_add _), trivial⟩
  have a := key hk
  have b := key hk'
  simp only [Token.new, List.length_nil] at a
  have hR : k'.oddR.length + k'.evenR.length = 2 * c.size := by omega
  unfold response Comm.validate
  rw [if_neg (by omega), if_neg (by omega), if_neg (by omega), if_pos (by omega), hR]
  rfl

end Tok
end Verif.Groth
