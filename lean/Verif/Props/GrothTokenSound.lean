import Verif.Props.GrothToken
/-!
# Attribute tokens: extraction from two transcripts (C96), what the reconstruction does not check
-/
set_option linter.unusedSectionVars false
set_option linter.unusedSimpArgs false
set_option linter.unusedVariables false
namespace Verif.Groth

theorem unwrap_eq_ok {α : Type} {o : Option α} {a : α} : (Res.unwrap o : Res Error α) = .ok a ↔ o = some a := by
  cases o <;> simp

section Level
variable {F A B GT : Type} [Field F] [AddCommGroup A] [Module F A] [AddCommGroup B] [Module F B]
  [AddCommGroup GT] [Module F GT] [DecidableEq F] [DecidableEq A] [DecidableEq B] [DecidableEq GT]
variable (e : A →ₗ[F] B →ₗ[F] GT)

/-- The place of a hidden attribute `j` among the hidden attributes: the number of hidden indices below it. -/
def hiddenAt (rv : List Nat) (j : Nat) : Nat := ((List.range j).filter (fun i => !rv.contains i)).length

theorem hiddenAt_succ (rv : List Nat) (j : Nat) :
    hiddenAt rv (j + 1) = hiddenAt rv j + (if rv.contains j = true then 0 else 1) := by
  unfold hiddenAt
  rw [List.range_succ, List.filter_append, List.length_append]
  cases h : rv.contains j <;> simp_all

theorem hiddenAt_mono (rv : List Nat) (j k : Nat) : hiddenAt rv j ≤ hiddenAt rv (j + k) := by
  induction k with
  | zero => exact le_refl _
  | succ k ih => rw [← Nat.add_assoc, hiddenAt_succ]; omega

/-- what a successful reconstruction of the attributes of a level says -/
theorem reconAttrs_inv (R gb : B) (c : F) (rv : List Nat) (rev : List (Nat × A)) : ∀ (m j : Nat) (iss : List GT) (ts as : List A)
    (l : List GT), reconAttrs e R gb c rv rev m j iss ts as = .ok l →
    l.length = m ∧ ∀ k, k < m → ∃ t s x, ts[k]? = some t ∧ iss[k]? = some s ∧ l[k]? = some x ∧
      (rv.contains (j + k) = true → ∃ a, rev.lookup (j + k) = some a ∧ x = e t R + e a (-c • gb) + s) ∧
      (rv.contains (j + k) = false → ∃ a, as[hiddenAt rv (j + k) - hiddenAt rv j]? = some a ∧ x = e t R + e a (-gb) + s)
  | 0, j, iss, ts, as, l, h => by
    simp only [reconAttrs, Res.ok.injEq] at h
    subst h
    exact ⟨rfl, fun k hk => absurd hk (by omega)⟩
  | m + 1, j, iss, ts, as, l, h => by
    simp only [reconAttrs, Res.bind_eq_ok, unwrap_eq_ok] at h
    obtain ⟨t, ht, s, hs, h⟩ := h
    have tail : ∀ {α : Type} (l : List α) (k : Nat), l.tail[k]? = l[k + 1]? := by
      intro α l k; cases l <;> simp
    by_cases hc : rv.contains j = true
    · rw [if_pos hc] at h
      simp only [Res.bind_eq_ok, unwrap_eq_ok, Res.pure_eq, Res.ok.injEq] at h
      obtain ⟨a, ha, rest, hr, rfl⟩ := h
      obtain ⟨h1, h2⟩ := reconAttrs_inv R gb c rv rev m (j + 1) _ _ _ _ hr
      refine ⟨by simp [h1], fun k hk => ?_⟩
      cases k with
      | zero => exact ⟨t, s, _, by rw [← List.head?_eq_getElem?]; exact ht, by rw [← List.head?_eq_getElem?]; exact hs, rfl,
          fun _ => ⟨a, ha, rfl⟩, fun h0 => by rw [Nat.add_zero, hc] at h0; cases h0⟩
      | succ k =>
        obtain ⟨t', s', x, g1, g2, g3, g4, g5⟩ := h2 k (by omega)
        rw [hiddenAt_succ, if_pos hc, Nat.add_zero] at g5
        rw [show j + 1 + k = j + (k + 1) by omega] at g4 g5
        exact ⟨t', s', x, by rw [← tail]; exact g1, by rw [← tail]; exact g2, by simpa using g3, g4, g5⟩
    · rw [if_neg hc] at h
      simp only [Res.bind_eq_ok, unwrap_eq_ok, Res.pure_eq, Res.ok.injEq] at h
      obtain ⟨a, ha, rest, hr, rfl⟩ := h
      obtain ⟨h1, h2⟩ := reconAttrs_inv R gb c rv rev m (j + 1) _ _ _ _ hr
      refine ⟨by simp [h1], fun k hk => ?_⟩
      cases k with
      | zero => exact ⟨t, s, _, by rw [← List.head?_eq_getElem?]; exact ht, by rw [← List.head?_eq_getElem?]; exact hs, rfl,
          fun h0 => by rw [Nat.add_zero] at h0; exact absurd h0 hc,
          fun _ => ⟨a, by rw [Nat.add_zero, Nat.sub_self, ← List.head?_eq_getElem?]; exact ha, rfl⟩⟩
      | succ k =>
        obtain ⟨t', s', x, g1, g2, g3, g4, g5⟩ := h2 k (by omega)
        have hmono := hiddenAt_mono rv (j + 1) k
        rw [hiddenAt_succ, if_neg hc] at g5 hmono
        rw [show j + 1 + k = j + (k + 1) by omega] at g4 g5 hmono
        rw [tail, show hiddenAt rv (j + (k + 1)) - (hiddenAt rv j + 1) + 1 = hiddenAt rv (j + (k + 1)) - hiddenAt rv j by omega] at g5
        exact ⟨t', s', x, by rw [← tail]; exact g1, by rw [← tail]; exact g2, by simpa using g3, g4, g5⟩

/-- What two responses `as`, `as'` of a level say attribute `j` is, `d` being the inverse of the difference of the challenges: a revealed attribute
is that of the token, a hidden one is computed from the two responses for it. -/
def attrAt (d : F) (rv : List Nat) (rev : List (Nat × A)) (as as' : List A) (j : Nat) : A :=
  if rv.contains j = true then (rev.lookup j).getD 0 else d • (as.getD (hiddenAt rv j) 0 - as'.getD (hiddenAt rv j) 0)

/-- What two responses of a level say its link is: its level, its attributes (`n` with the key), and its signature. -/
def levelOf (d : F) (i : Nat) (R : B) (n : Nat) (rv : List Nat) (rev : List (Nat × A)) (own s s' : A) (ts ts' as as' : List A) : Link A B :=
  ⟨i, (List.range (n - 1)).map (attrAt d rv rev as as') ++ [own],
    ⟨R, d • (s - s'), (List.range n).map (fun j => d • (ts.getD j 0 - ts'.getD j 0))⟩⟩

/-- One level: from two transcripts with the same commitments, a valid link with the revealed attributes. -/
theorem extract_level (p : Setup A B) (i : Nat) (R : B) (c c' : F) (hc : c ≠ c') (rv : List Nat) (rev : List (Nat × A)) (y0 : A)
    (hy0 : p.y.head? = some y0) (vk : B) (own : A) (g g' : GT) (hg : g - g' = -(c - c') • (e p.ga vk + e y0 p.gb))
    (iss iss' : List GT) (hi : ∀ (j : Nat) (s s' : GT), iss[j]? = some s → iss'[j]? = some s' →
      ∃ y, p.y[j]? = some y ∧ s - s' = -(c - c') • e y vk)
    (o o' : GT) (ho : o - o' = -(c - c') • e own p.gb) (s s' : A) (hs : e s R + g = e s' R + g') (ts ts' as as' : List A) (ct : List GT)
    (hn : 1 ≤ ct.length) (hny : ct.length ≤ p.y.length)
    (ht : reconT e R p.gb c ct.length rv rev iss o ts as = .ok ct) (ht' : reconT e R p.gb c' ct.length rv rev iss' o' ts' as' = .ok ct) :
    LinkValid e (levelOf (c - c')⁻¹ i R ct.length rv rev own s s' ts ts' as as') own vk p ∧
      ∀ j, j ∈ rv → j + 1 < ct.length → ∃ a, rev.lookup j = some a ∧
        (levelOf (c - c')⁻¹ i R ct.length rv rev own s s' ts ts' as as').attributes[j]? = some a := by
  have hd : c - c' ≠ 0 := sub_ne_zero.mpr hc
  unfold reconT at ht ht'
  simp only [Res.bind_eq_ok, unwrap_eq_ok, Res.pure_eq, Res.ok.injEq] at ht ht'
  obtain ⟨q, hq, t, htl, sl, hsl, hct⟩ := ht
  obtain ⟨q', hq', t', htl', sl', hsl', hct'⟩ := ht'
  obtain ⟨l1, l2⟩ := reconAttrs_inv e R p.gb c rv rev _ _ _ _ _ _ hq
  obtain ⟨l1', l2'⟩ := reconAttrs_inv e R p.gb c' rv rev _ _ _ _ _ _ hq'
  have hqq : q = q' ∧ e t R + o + sl = e t' R + o' + sl' := by
    have := hct.trans hct'.symm
    have h2 := List.append_inj this (by omega)
    exact ⟨h2.1, by simpa using h2.2⟩
  obtain ⟨rfl, hlast⟩ := hqq
  -- the last attribute
  have hP1 : ∃ y, p.y[ct.length - 1]? = some y ∧
      e ((c - c')⁻¹ • (ts.getD (ct.length - 1) 0 - ts'.getD (ct.length - 1) 0)) R = e own p.gb + e y vk := by
    obtain ⟨y, hy, hyd⟩ := hi _ _ _ hsl hsl'
    refine ⟨y, hy, ?_⟩
    have h1 : e (t - t') R = (c - c') • (e own p.gb + e y vk) := by
      rw [map_sub, LinearMap.sub_apply, smul_add]
      linear_combination (norm := module) hlast - ho - hyd
    rw [List.getD_eq_getElem?_getD, List.getD_eq_getElem?_getD, htl, htl', Option.getD_some, Option.getD_some]
    simp only [map_smul, LinearMap.smul_apply, h1, smul_smul, inv_mul_cancel₀ hd, one_smul]
  -- the others
  have hP : ∀ j, j + 1 < ct.length → (∃ y, p.y[j]? = some y ∧
      e ((c - c')⁻¹ • (ts.getD j 0 - ts'.getD j 0)) R = e (attrAt (c - c')⁻¹ rv rev as as' j) p.gb + e y vk) ∧
      (j ∈ rv → rev.lookup j = some (attrAt (c - c')⁻¹ rv rev as as' j)) := by
    intro j hj
    obtain ⟨t1, s1, x1, g1, g2, g3, g4, g5⟩ := l2 j (by omega)
    obtain ⟨t2, s2, x2, k1, k2, k3, k4, k5⟩ := l2' j (by omega)
    obtain rfl : x1 = x2 := by rw [g3] at k3; simpa using k3
    obtain ⟨y, hy, hyd⟩ := hi j _ _ g2 k2
    rw [Nat.zero_add, show hiddenAt rv 0 = 0 from rfl, Nat.sub_zero] at g5 k5
    rw [Nat.zero_add] at g4 k4
    rw [List.getD_eq_getElem?_getD, List.getD_eq_getElem?_getD, g1, k1, Option.getD_some, Option.getD_some]
    unfold attrAt
    by_cases hr : rv.contains j = true
    · rw [if_pos hr]
      obtain ⟨a, ha, hx⟩ := g4 hr
      obtain ⟨a', ha', hx'⟩ := k4 hr
      obtain rfl : a = a' := by rw [ha] at ha'; simpa using ha'
      rw [ha, Option.getD_some]
      refine ⟨⟨y, hy, ?_⟩, fun _ => rfl⟩
      have h1 : e (t1 - t2) R = (c - c') • (e a p.gb + e y vk) := by
        have h2 := hx.symm.trans hx'
        simp only [map_smul, map_neg, LinearMap.neg_apply] at h2
        rw [map_sub, LinearMap.sub_apply, smul_add]
        linear_combination (norm := module) h2 - hyd
      simp only [map_smul, LinearMap.smul_apply, h1, smul_smul, inv_mul_cancel₀ hd, one_smul]
    · rw [if_neg hr]
      have hr' : rv.contains j = false := by simpa using hr
      obtain ⟨a, ha, hx⟩ := g5 hr'
      obtain ⟨a', ha', hx'⟩ := k5 hr'
      rw [List.getD_eq_getElem?_getD, List.getD_eq_getElem?_getD, ha, ha', Option.getD_some, Option.getD_some]
      refine ⟨⟨y, hy, ?_⟩, fun h => absurd (by simpa using h) hr⟩
      have h1 : e (t1 - t2) R = e (a - a') p.gb + (c - c') • e y vk := by
        have h2 := hx.symm.trans hx'
        simp only [map_neg, LinearMap.neg_apply] at h2
        rw [map_sub, LinearMap.sub_apply, map_sub, LinearMap.sub_apply]
        linear_combination (norm := module) h2 - hyd
      simp only [map_smul, LinearMap.smul_apply, h1, smul_add, smul_smul, inv_mul_cancel₀ hd, one_smul]
  have hat : ∀ j, j + 1 < ct.length → (levelOf (c - c')⁻¹ i R ct.length rv rev own s s' ts ts' as as').attributes[j]? =
      some (attrAt (c - c')⁻¹ rv rev as as' j) := by
    intro j hj
    unfold levelOf
    rw [List.getElem?_append_left (by simp; omega)]
    simp [show j < ct.length - 1 by omega]
  have hlen : (levelOf (c - c')⁻¹ i R ct.length rv rev own s s' ts ts' as as').attributes.length = ct.length := by
    simp [levelOf]; omega
  have hT : ∀ j, j < ct.length → (levelOf (c - c')⁻¹ i R ct.length rv rev own s s' ts ts' as as').signature.T[j]? =
      some ((c - c')⁻¹ • (ts.getD j 0 - ts'.getD j 0)) := by
    intro j hj
    simp [levelOf, hj]
  refine ⟨⟨by rw [hlen]; exact hny, by simp [levelOf], ⟨y0, by rw [← List.head?_eq_getElem?]; exact hy0, ?_⟩, fun j m hm => ?_⟩, ?_⟩
  · have h1 : e (s - s') R = (c - c') • (e p.ga vk + e y0 p.gb) := by
      rw [map_sub, LinearMap.sub_apply]
      linear_combination (norm := module) hs - hg
    show e ((c - c')⁻¹ • (s - s')) R = _
    simp only [map_smul, LinearMap.smul_apply, h1, smul_smul, inv_mul_cancel₀ hd, one_smul]
    abel
  · have hj : j < ct.length := by rw [← hlen]; exact (List.getElem?_eq_some_iff.mp hm).1
    by_cases hj1 : j + 1 < ct.length
    · rw [hat j hj1] at hm
      obtain ⟨⟨y, hy, heq⟩, -⟩ := hP j hj1
      simp only [Option.some.injEq] at hm
      subst hm
      exact ⟨y, _, hy, hT j hj, heq⟩
    · obtain rfl : j = ct.length - 1 := by omega
      obtain ⟨y, hy, heq⟩ := hP1
      have : own = m := by
        unfold levelOf at hm
        rw [List.getElem?_append_right (by simp)] at hm
        simpa using hm
      subst this
      exact ⟨y, _, hy, hT _ hj, heq⟩
  · intro j hj hlt
    exact ⟨_, (hP j hlt).2 hj, hat j hlt⟩

theorem checkLevel_ok {n r y : Nat} {ra : Option (List A)} (h : checkLevel n r y ra = .ok ()) : r + 1 ≤ n ∧ n ≤ y := by
  unfold checkLevel at h
  by_cases h1 : n < r
  · rw [if_pos h1] at h; cases h
  rw [if_neg h1] at h
  by_cases h2 : n > y
  · rw [if_pos h2] at h; cases h
  rw [if_neg h2] at h
  by_cases h3 : n - r < 1
  · rw [if_pos h3] at h; cases h
  omega

end Level

section Tok
variable {F G1 G2 GT : Type} [Field F] [AddCommGroup G1] [Module F G1] [AddCommGroup G2] [Module F G2]
  [AddCommGroup GT] [Module F GT] [DecidableEq F] [DecidableEq G1] [DecidableEq G2] [DecidableEq GT]
variable (e : G1 →ₗ[F] G2 →ₗ[F] GT)

/-- what a successful reconstruction says, level by level -/
theorem reconstruct_inv {L : Nat} {k k' : Comm G1 G2 GT} {q : Resp F G1 G2} {ch : F} {revealed : List (List Nat)} {ipk : G2}
    {p1 : Setup G1 G2} {p2 : Setup G2 G1} (h : reconstruct e L k q ch revealed ipk p1 p2 = .ok k') :
    ∃ v, plainVals e p1 p2 ipk ch q.csk = .ok v ∧ k'.commsS.length = L ∧ k'.commsT.length = L ∧
      ∀ i, 1 ≤ i → i ≤ L → ∃ s t, k'.commsS[i - 1]? = some s ∧ k'.commsT[i - 1]? = some t ∧
        reconStep e L k q ch revealed p1 p2 v i = .ok (s, t) := by
  unfold reconstruct reconFrom at h
  simp only [Res.bind_eq_ok, Res.pure_eq, Res.ok.injEq] at h
  obtain ⟨_, -, _, -, v, hv, l, hl, rfl⟩ := h
  obtain ⟨h1, h2⟩ := (pushLevels_ok_iff _ _ _ _).1 hl
  refine ⟨v, hv, by simp [h1], by simp [h1], fun i hi1 hi2 => ?_⟩
  have hlt : i - 1 < l.length := by omega
  refine ⟨l[i - 1].1, l[i - 1].2, by simp [hlt], by simp [hlt], ?_⟩
  have := h2 (i - 1) l[i - 1] (by simp)
  rwa [show 1 + (i - 1) = i by omega] at this

/-- The chain has the attributes that the token reveals: at each level it has as many attributes as the token has commitments, and for each index
that the verifier asks for (but that of the key, the last one) the value in the token. -/
structure Reveals (c : Chain G1 G2) (k : Comm G1 G2 GT) (revealed : List (List Nat)) : Prop where
  odd : ∀ i, 1 ≤ i → i ≤ c.size → i % 2 = 1 → ∃ l m rv ct, c.odd[i / 2]? = some l ∧ k.oddRev[i / 2]? = some m ∧
    revealed[i - 1]? = some rv ∧ k.commsT[i - 1]? = some ct ∧ l.attributes.length = ct.length ∧
    ∀ j, j ∈ rv → j + 1 < ct.length → ∃ a, m.lookup j = some a ∧ l.attributes[j]? = some a
  even : ∀ i, 1 ≤ i → i ≤ c.size → i % 2 = 0 → ∃ l m rv ct, c.even[i / 2 - 1]? = some l ∧ k.evenRev[i / 2 - 1]? = some m ∧
    revealed[i - 1]? = some rv ∧ k.commsT[i - 1]? = some ct ∧ l.attributes.length = ct.length ∧
    ∀ j, j ∈ rv → j + 1 < ct.length → ∃ a, m.lookup j = some a ∧ l.attributes[j]? = some a

/-! ## What is computed from two responses -/

variable (F) in
/-- the secret key of the last member -/
def extractSk (q q' : Resp F G1 G2) (ch ch' : F) : F := (ch - ch')⁻¹ * (q.csk - q'.csk)

/-- the key of the odd level `i` of a chain of length `L` -/
def extractOdd (L : Nat) (q q' : Resp F G1 G2) (ch ch' : F) (p1 : Setup G1 G2) (i : Nat) : G1 :=
  if i = L then extractSk F q q' ch ch' • p1.ga else (ch - ch')⁻¹ • (q.oddVk.getD (i / 2) 0 - q'.oddVk.getD (i / 2) 0)

/-- the key of the even level `i`; level 0 is the root -/
def extractEven (L : Nat) (q q' : Resp F G1 G2) (ch ch' : F) (ipk : G2) (p2 : Setup G2 G1) (i : Nat) : G2 :=
  if i = 0 then ipk else if i = L then extractSk F q q' ch ch' • p2.ga
    else (ch - ch')⁻¹ • (q.evenVk.getD (i / 2 - 1) 0 - q'.evenVk.getD (i / 2 - 1) 0)

/-- the chain: the points `R` and the revealed attributes are those of the token, the rest is computed from the two responses -/
def extractChain (L : Nat) (k : Comm G1 G2 GT) (q q' : Resp F G1 G2) (ch ch' : F) (revealed : List (List Nat)) (ipk : G2)
    (p1 : Setup G1 G2) (p2 : Setup G2 G1) : Chain G1 G2 :=
  ⟨(oddsOf L).map (fun i => levelOf (ch - ch')⁻¹ i (k.oddR.getD (i / 2) 0) (k.commsT.getD (i - 1) []).length (revealed.getD (i - 1) [])
      (k.oddRev.getD (i / 2) []) (extractOdd L q q' ch ch' p1 i) (q.oddS.getD (i / 2) 0) (q'.oddS.getD (i / 2) 0)
      (q.oddT.getD (i / 2) []) (q'.oddT.getD (i / 2) []) (q.oddA.getD (i / 2) []) (q'.oddA.getD (i / 2) [])),
   (evensOf L).map (fun i => levelOf (ch - ch')⁻¹ i (k.evenR.getD (i / 2 - 1) 0) (k.commsT.getD (i - 1) []).length (revealed.getD (i - 1) [])
      (k.evenRev.getD (i / 2 - 1) []) (extractEven L q q' ch ch' ipk p2 i) (q.evenS.getD (i / 2 - 1) 0) (q'.evenS.getD (i / 2 - 1) 0)
      (q.evenT.getD (i / 2 - 1) []) (q'.evenT.getD (i / 2 - 1) []) (q.evenA.getD (i / 2 - 1) []) (q'.evenA.getD (i / 2 - 1) []))⟩

/-- **C96** From two responses to different challenges for the same commitment that are both accepted, one can compute a valid chain
from the root's key of the claimed length, with the revealed attributes, and the secret key of its last member. -/
theorem token_sound (L : Nat) (hL : 1 ≤ L) (k : Comm G1 G2 GT) (q q' : Resp F G1 G2) (ch ch' : F) (hc : ch ≠ ch')
    (revealed : List (List Nat)) (ipk : G2) (p1 : Setup G1 G2) (p2 : Setup G2 G1)
    (h : reconstruct e L k q ch revealed ipk p1 p2 = .ok k) (h' : reconstruct e L k q' ch' revealed ipk p1 p2 = .ok k) :
    let c := extractChain L k q q' ch ch' revealed ipk p1 p2
    let ev := (evensOf L).map (extractEven L q q' ch ch' ipk p2)
    let od := (oddsOf L).map (extractOdd L q q' ch ch' p1)
    c.size = L ∧ ChainValid e c (ipk :: ev) od p1 p2 ∧ Reveals c k revealed ∧
      (L % 2 = 1 → od.getLast? = some (extractSk F q q' ch ch' • p1.ga)) ∧
      (L % 2 = 0 → ev.getLast? = some (extractSk F q q' ch ch' • p2.ga)) := by
  intro c ev od
  have hd : ch - ch' ≠ 0 := sub_ne_zero.mpr hc
  obtain ⟨v, hv, -, -, hs⟩ := reconstruct_inv e h
  obtain ⟨v', hv', -, -, hs'⟩ := reconstruct_inv e h'
  unfold plainVals at hv hv'
  simp only [Res.bind_eq_ok, Res.pure_eq, Res.ok.injEq, unwrap_eq_ok] at hv hv'
  obtain ⟨y1, hy1, y2, hy2, rfl⟩ := hv
  obtain ⟨y1', hy1', y2', hy2', rfl⟩ := hv'
  obtain rfl : y1 = y1' := by rw [hy1] at hy1'; simpa using hy1'
  obtain rfl : y2 = y2' := by rw [hy2] at hy2'; simpa using hy2'
  -- the keys
  let sk : F := extractSk F q q' ch ch'
  let ov : Nat → G1 := extractOdd L q q' ch ch' p1
  let ew : Nat → G2 := extractEven L q q' ch ch' ipk p2
  let fO : Nat → Link G1 G2 := fun i => levelOf (ch - ch')⁻¹ i (k.oddR.getD (i / 2) 0) (k.commsT.getD (i - 1) []).length (revealed.getD (i - 1) [])
      (k.oddRev.getD (i / 2) []) (ov i) (q.oddS.getD (i / 2) 0) (q'.oddS.getD (i / 2) 0)
      (q.oddT.getD (i / 2) []) (q'.oddT.getD (i / 2) []) (q.oddA.getD (i / 2) []) (q'.oddA.getD (i / 2) [])
  let fE : Nat → Link G2 G1 := fun i => levelOf (ch - ch')⁻¹ i (k.evenR.getD (i / 2 - 1) 0) (k.commsT.getD (i - 1) []).length
      (revealed.getD (i - 1) []) (k.evenRev.getD (i / 2 - 1) []) (ew i) (q.evenS.getD (i / 2 - 1) 0) (q'.evenS.getD (i / 2 - 1) 0)
      (q.evenT.getD (i / 2 - 1) []) (q'.evenT.getD (i / 2 - 1) []) (q.evenA.getD (i / 2 - 1) []) (q'.evenA.getD (i / 2 - 1) [])
  have gD : ∀ {α : Type} (l : List α) (n : Nat) (a x : α), l[n]? = some a → l.getD n x = a := by
    intro α l n a x h; rw [List.getD_eq_getElem?_getD, h, Option.getD_some]
  have hdsm : ∀ {M : Type} [AddCommGroup M] [Module F M] (x : M), (ch - ch') • (ch - ch')⁻¹ • x = x := by
    intro M _ _ x; rw [smul_smul, mul_inv_cancel₀ hd, one_smul]
  have hfO : ∀ i, 1 ≤ i → i ≤ L → i % 2 = 1 → (fO i).level = i ∧ LinkValid e (fO i) (ov i) (ew (i - 1)) p1 ∧
      ∃ m rv ct, k.oddRev[i / 2]? = some m ∧ revealed[i - 1]? = some rv ∧ k.commsT[i - 1]? = some ct ∧ (fO i).attributes.length = ct.length ∧
        ∀ j, j ∈ rv → j + 1 < ct.length → ∃ a, m.lookup j = some a ∧ (fO i).attributes[j]? = some a := by
    intro i hi1 hi2 hi3
    obtain ⟨s, t, g1, g2, g3⟩ := hs i hi1 hi2
    obtain ⟨s', t', k1, k2, k3⟩ := hs' i hi1 hi2
    obtain rfl : s = s' := by rw [g1] at k1; simpa using k1
    obtain rfl : t = t' := by rw [g2] at k2; simpa using k2
    unfold reconStep at g3 k3
    rw [if_pos hi3] at g3 k3
    simp only [Res.bind_eq_ok, Res.pure_eq, Res.ok.injEq, unwrap_eq_ok, Prod.mk.injEq] at g3 k3
    obtain ⟨ct, hct, rv, hrv, _, hchk, rs, hrs, R, hR, is, his, ts, hts, as, has, m, hm, own, hown, t1, ht1, hS, rfl⟩ := g3
    obtain ⟨ct', hct', rv', hrv', _, -, rs', hrs', R', hR', is', his', ts', hts', as', has', m', hm', own', hown', t1', ht1', hS', rfl⟩ := k3
    rw [hct] at g2 hct'
    rw [hrv] at hrv'
    rw [hR] at hR'
    rw [hm] at hm'
    simp only [Option.some.injEq] at g2 hct' hrv' hR' hm'
    subst g2 hct' hrv' hR' hm'
    obtain ⟨hn1, hn2⟩ := checkLevel_ok hchk
    have hiss : is.1 - is'.1 = -(ch - ch') • (e p1.ga (ew (i - 1)) + e y1 p1.gb) ∧
        ∀ (j : Nat) (s s' : GT), is.2[j]? = some s → is'.2[j]? = some s' →
          ∃ y, p1.y[j]? = some y ∧ s - s' = -(ch - ch') • e y (ew (i - 1)) := by
      unfold issuerOdd at his his'
      by_cases h1 : i = 1
      · rw [if_pos h1] at his his'
        simp only [Res.ok.injEq] at his his'
        subst his his'
        have hew : ew (i - 1) = ipk := by simp [ew, extractEven, h1]
        rw [hew]
        refine ⟨?_, fun j s s' hj hj' => ?_⟩
        · simp only [map_smul, map_neg]; module
        · simp only [List.getElem?_map] at hj hj'
          cases hyj : p1.y[j]? with
          | none => rw [hyj] at hj; cases hj
          | some y =>
            rw [hyj] at hj hj'
            simp only [Option.map_some, Option.some.injEq] at hj hj'
            refine ⟨y, rfl, ?_⟩
            rw [← hj, ← hj']
            simp only [map_smul, map_neg]; module
      · rw [if_neg h1] at his his'
        simp only [Res.bind_eq_ok, Res.pure_eq, Res.ok.injEq, unwrap_eq_ok] at his his'
        obtain ⟨r, hr, rfl⟩ := his
        obtain ⟨r', hr', rfl⟩ := his'
        have hew : ew (i - 1) = (ch - ch')⁻¹ • (r - r') := by
          simp only [ew, extractEven]
          rw [if_neg (by omega), if_neg (by omega), show (i - 1) / 2 - 1 = i / 2 - 1 by omega]
          simp [List.getD, hr, hr']
        have hx : ∀ a : G1, (ch - ch') • e a (ew (i - 1)) = e a r - e a r' := by
          intro a; rw [hew, map_smul, hdsm, map_sub]
        refine ⟨?_, fun j s s' hj hj' => ?_⟩
        · simp only [map_smul, map_neg, LinearMap.neg_apply]
          linear_combination (norm := module) hx p1.ga
        · simp only [List.getElem?_map] at hj hj'
          cases hyj : p1.y[j]? with
          | none => rw [hyj] at hj; cases hj
          | some y =>
            rw [hyj] at hj hj'
            simp only [Option.map_some, Option.some.injEq] at hj hj'
            refine ⟨y, rfl, ?_⟩
            rw [← hj, ← hj']
            simp only [map_neg, LinearMap.neg_apply]
            linear_combination (norm := module) hx y
    have hownd : own - own' = -(ch - ch') • e (ov i) p1.gb := by
      unfold ownOdd at hown hown'
      by_cases h1 : i = L
      · rw [if_pos h1] at hown hown'
        simp only [Res.ok.injEq] at hown hown'
        subst hown hown'
        have hov : ov i = sk • p1.ga := by simp [ov, extractOdd, sk, h1]
        have hsk : (ch - ch') * sk = q.csk - q'.csk := by
          show (ch - ch') * ((ch - ch')⁻¹ * (q.csk - q'.csk)) = _
          rw [← mul_assoc, mul_inv_cancel₀ hd, one_mul]
        rw [hov]
        simp only [map_smul, map_neg, LinearMap.smul_apply, LinearMap.neg_apply]
        rw [smul_smul, neg_mul, hsk]; module
      · rw [if_neg h1] at hown hown'
        simp only [Res.bind_eq_ok, Res.pure_eq, Res.ok.injEq, unwrap_eq_ok] at hown hown'
        obtain ⟨r, hr, rfl⟩ := hown
        obtain ⟨r', hr', rfl⟩ := hown'
        have hov : ov i = (ch - ch')⁻¹ • (r - r') := by
          simp only [ov, extractOdd]
          rw [if_neg h1]
          simp [List.getD, hr, hr']
        have hx : (ch - ch') • e (ov i) p1.gb = e r p1.gb - e r' p1.gb := by
          rw [hov, map_smul, LinearMap.smul_apply, hdsm, map_sub, LinearMap.sub_apply]
        simp only [map_neg]
        linear_combination (norm := module) hx
    obtain ⟨e5, e6⟩ := extract_level e p1 i R ch ch' hc rv m y1 hy1 (ew (i - 1)) (ov i) is.1 is'.1 hiss.1 is.2 is'.2 hiss.2
      own own' hownd rs rs' (hS.trans hS'.symm) ts ts' as as' ct (by omega) hn2 ht1 ht1'
    have hf : fO i = levelOf (ch - ch')⁻¹ i R ct.length rv m (ov i) rs rs' ts ts' as as' := by
      simp only [fO]
      rw [gD _ _ _ _ hR, gD _ _ _ _ hct, gD _ _ _ _ hrv, gD _ _ _ _ hm, gD _ _ _ _ hrs, gD _ _ _ _ hrs', gD _ _ _ _ hts, gD _ _ _ _ hts',
        gD _ _ _ _ has, gD _ _ _ _ has']
    rw [hf]
    exact ⟨rfl, e5, m, rv, ct, hm, hrv, hct, by simp [levelOf]; omega, e6⟩
  have hfE : ∀ i, 1 ≤ i → i ≤ L → i % 2 = 0 → (fE i).level = i ∧ LinkValid e.flip (fE i) (ew i) (ov (i - 1)) p2 ∧
      ∃ m rv ct, k.evenRev[i / 2 - 1]? = some m ∧ revealed[i - 1]? = some rv ∧ k.commsT[i - 1]? = some ct ∧
        (fE i).attributes.length = ct.length ∧ ∀ j, j ∈ rv → j + 1 < ct.length → ∃ a, m.lookup j = some a ∧ (fE i).attributes[j]? = some a := by
    intro i hi1 hi2 hi3
    obtain ⟨s, t, g1, g2, g3⟩ := hs i hi1 hi2
    obtain ⟨s', t', k1, k2, k3⟩ := hs' i hi1 hi2
    obtain rfl : s = s' := by rw [g1] at k1; simpa using k1
    obtain rfl : t = t' := by rw [g2] at k2; simpa using k2
    unfold reconStep at g3 k3
    rw [if_neg (by omega)] at g3 k3
    simp only [Res.bind_eq_ok, Res.pure_eq, Res.ok.injEq, unwrap_eq_ok, Prod.mk.injEq] at g3 k3
    obtain ⟨ct, hct, rv, hrv, _, hchk, rs, hrs, R, hR, r, hr, ts, hts, as, has, m, hm, own, hown, t1, ht1, hS, rfl⟩ := g3
    obtain ⟨ct', hct', rv', hrv', _, -, rs', hrs', R', hR', r', hr', ts', hts', as', has', m', hm', own', hown', t1', ht1', hS', rfl⟩ := k3
    rw [hct] at g2 hct'
    rw [hrv] at hrv'
    rw [hR] at hR'
    rw [hm] at hm'
    simp only [Option.some.injEq] at g2 hct' hrv' hR' hm'
    subst g2 hct' hrv' hR' hm'
    obtain ⟨hn1, hn2⟩ := checkLevel_ok hchk
    have hov : ov (i - 1) = (ch - ch')⁻¹ • (r - r') := by
      simp only [ov, extractOdd]
      rw [if_neg (by omega), show (i - 1) / 2 = i / 2 - 1 by omega]
      simp [List.getD, hr, hr']
    have hx : ∀ a : G2, (ch - ch') • e (ov (i - 1)) a = e r a - e r' a := by
      intro a; rw [hov, map_smul, LinearMap.smul_apply, hdsm, map_sub, LinearMap.sub_apply]
    have hownd : own - own' = -(ch - ch') • e.flip (ew i) p2.gb := by
      unfold ownEven at hown hown'
      rw [LinearMap.flip_apply]
      by_cases h1 : i = L
      · rw [if_pos h1] at hown hown'
        simp only [Res.ok.injEq] at hown hown'
        subst hown hown'
        have hew : ew i = sk • p2.ga := by
          simp only [ew, extractEven]; rw [if_neg (by omega), if_pos h1]
        have hsk : (ch - ch') * sk = q.csk - q'.csk := by
          show (ch - ch') * ((ch - ch')⁻¹ * (q.csk - q'.csk)) = _
          rw [← mul_assoc, mul_inv_cancel₀ hd, one_mul]
        rw [hew]
        simp only [map_smul, map_neg, LinearMap.smul_apply, LinearMap.neg_apply]
        rw [smul_smul, neg_mul, hsk]; module
      · rw [if_neg h1] at hown hown'
        simp only [Res.bind_eq_ok, Res.pure_eq, Res.ok.injEq, unwrap_eq_ok] at hown hown'
        obtain ⟨z, hz, rfl⟩ := hown
        obtain ⟨z', hz', rfl⟩ := hown'
        have hew : ew i = (ch - ch')⁻¹ • (z - z') := by
          simp only [ew, extractEven]
          rw [if_neg (by omega), if_neg h1]
          simp [List.getD, hz, hz']
        have hx2 : (ch - ch') • e p2.gb (ew i) = e p2.gb z - e p2.gb z' := by
          rw [hew, map_smul, hdsm, map_sub]
        simp only [map_neg, LinearMap.neg_apply]
        linear_combination (norm := module) hx2
    obtain ⟨e5, e6⟩ := extract_level e.flip p2 i R ch ch' hc rv m y2 hy2 (ov (i - 1)) (ew i)
      (e r (-p2.ga) + e (-ch • p2.gb) y2) (e r' (-p2.ga) + e (-ch' • p2.gb) y2)
      (by simp only [LinearMap.flip_apply, map_neg, map_smul, LinearMap.neg_apply, LinearMap.smul_apply]
          linear_combination (norm := module) hx p2.ga)
      (p2.y.map (fun y => e r (-y))) (p2.y.map (fun y => e r' (-y)))
      (fun j s s' hj hj' => by
        simp only [List.getElem?_map] at hj hj'
        cases hyj : p2.y[j]? with
        | none => rw [hyj] at hj; cases hj
        | some y =>
          rw [hyj] at hj hj'
          simp only [Option.map_some, Option.some.injEq] at hj hj'
          refine ⟨y, rfl, ?_⟩
          rw [← hj, ← hj', LinearMap.flip_apply]
          simp only [map_neg]
          linear_combination (norm := module) hx y)
      own own' hownd rs rs' (by simp only [LinearMap.flip_apply]; exact hS.trans hS'.symm) ts ts' as as' ct (by omega) hn2 ht1 ht1'
    have hf : fE i = levelOf (ch - ch')⁻¹ i R ct.length rv m (ew i) rs rs' ts ts' as as' := by
      simp only [fE]
      rw [gD _ _ _ _ hR, gD _ _ _ _ hct, gD _ _ _ _ hrv, gD _ _ _ _ hm, gD _ _ _ _ hrs, gD _ _ _ _ hrs', gD _ _ _ _ hts, gD _ _ _ _ hts',
        gD _ _ _ _ has, gD _ _ _ _ has']
    rw [hf]
    exact ⟨rfl, e5, m, rv, ct, hm, hrv, hct, by simp [levelOf]; omega, e6⟩
  have hsz : (⟨(oddsOf L).map fO, (evensOf L).map fE⟩ : Chain G1 G2).size = L := by
    simp only [Chain.size, List.length_map, oddsOf_length, evensOf_length]; omega
  have hcc : c = ⟨(oddsOf L).map fO, (evensOf L).map fE⟩ := rfl
  have hev : ev = (evensOf L).map ew := rfl
  have hod : od = (oddsOf L).map ov := rfl
  rw [hcc, hev, hod]
  clear_value c ev od
  refine ⟨hsz, ⟨?_, ?_, ?_, ?_⟩, ⟨?_, ?_⟩, ?_, ?_⟩
  · rw [hsz]; exact hL
  · rw [hsz, List.length_cons, List.length_map, evensOf_length]
  · rw [hsz, List.length_map, oddsOf_length]
  · rw [hsz]
    intro i h1 h2
    refine ⟨fun ho => ⟨fO i, ov i, ew (i - 1), oddsOf_get fO L i ho h2, (hfO i h1 h2 ho).1, oddsOf_get ov L i ho h2, ?_, (hfO i h1 h2 ho).2.1⟩,
      fun ho => ⟨fE i, ew i, ov (i - 1), evensOf_get fE L i ho h1 h2, (hfE i h1 h2 ho).1, ?_, ?_, (hfE i h1 h2 ho).2.1⟩⟩
    · by_cases hi1 : i = 1
      · subst hi1; simp [ew, extractEven]
      · have := evensOf_get ew L (i - 1) (by omega) (by omega) (by omega)
        rw [show i / 2 = (i - 1) / 2 - 1 + 1 by omega, List.getElem?_cons_succ]; exact this
    · have := evensOf_get ew L i ho h1 h2
      rw [show i / 2 = i / 2 - 1 + 1 by omega, List.getElem?_cons_succ]; exact this
    · have := oddsOf_get ov L (i - 1) (by omega) (by omega)
      rwa [show (i - 1) / 2 = i / 2 - 1 by omega] at this
  · rw [hsz]
    intro i h1 h2 ho
    obtain ⟨-, -, m, rv, ct, a1, a2, a3, a4, a5⟩ := hfO i h1 h2 ho
    exact ⟨fO i, m, rv, ct, oddsOf_get fO L i ho h2, a1, a2, a3, a4, a5⟩
  · rw [hsz]
    intro i h1 h2 ho
    obtain ⟨-, -, m, rv, ct, a1, a2, a3, a4, a5⟩ := hfE i h1 h2 ho
    exact ⟨fE i, m, rv, ct, evensOf_get fE L i ho h1 h2, a1, a2, a3, a4, a5⟩
  · intro ho
    have := oddsOf_get ov L L ho (le_refl _)
    rw [List.getLast?_eq_getElem?, List.length_map, oddsOf_length, show (L + 1) / 2 - 1 = L / 2 by omega, this]
    simp [ov, extractOdd]
  · intro ho
    have := evensOf_get ew L L ho hL (le_refl _)
    rw [List.getLast?_eq_getElem?, List.length_map, evensOf_length, this]
    simp only [ew, extractEven]
    rw [if_neg (by omega), if_pos trivial]

end Tok
end Verif.Groth
