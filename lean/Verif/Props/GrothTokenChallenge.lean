import Verif.Props.GrothTokenZk
/-!
# The challenge of an attribute token (C97), and examples for C95 to C101
-/
set_option linter.unusedSectionVars false
set_option linter.unusedSimpArgs false
set_option linter.unusedVariables false
namespace Verif.Groth

/-- an encoding into `n` bytes that keeps values apart -/
structure FixedEnc {α : Type} (enc : α → Bytes) (n : Nat) : Prop where
  len : ∀ x, (enc x).length = n
  inj : ∀ x y, enc x = enc y → x = y

section Bytes
variable {α : Type} {enc : α → Bytes} {n : Nat}

theorem flatMap_inj (h : FixedEnc enc n) : ∀ (l l' : List α) (r r' : Bytes), l.length = l'.length →
    l.flatMap enc ++ r = l'.flatMap enc ++ r' → l = l' ∧ r = r'
  | [], [], r, r', _, he => ⟨rfl, by simpa using he⟩
  | [], _ :: _, _, _, hl, _ => by simp at hl
  | _ :: _, [], _, _, hl, _ => by simp at hl
  | a :: l, a' :: l', r, r', hl, he => by
    simp only [List.flatMap_cons, List.append_assoc] at he
    obtain ⟨h1, h2⟩ := List.append_inj he (by rw [h.len, h.len])
    obtain ⟨h3, h4⟩ := flatMap_inj h l l' r r' (by simpa using hl) h2
    exact ⟨by rw [h.inj _ _ h1, h3], h4⟩

theorem flatMap2_inj (h : FixedEnc enc n) : ∀ (l l' : List (List α)) (r r' : Bytes), l.map List.length = l'.map List.length →
    l.flatMap (fun v => v.flatMap enc) ++ r = l'.flatMap (fun v => v.flatMap enc) ++ r' → l = l' ∧ r = r'
  | [], [], r, r', _, he => ⟨rfl, by simpa using he⟩
  | [], _ :: _, _, _, hl, _ => by simp at hl
  | _ :: _, [], _, _, hl, _ => by simp at hl
  | a :: l, a' :: l', r, r', hl, he => by
    simp only [List.map_cons, List.cons.injEq] at hl
    simp only [List.flatMap_cons, List.append_assoc] at he
    obtain ⟨h1, h2⟩ := flatMap_inj h a a' _ _ hl.1 he
    obtain ⟨h3, h4⟩ := flatMap2_inj h l l' r r' hl.2 h2
    exact ⟨by rw [h1, h3], h4⟩

theorem revBytes_inj (h : FixedEnc enc n) : ∀ (m m' : List (Nat × α)) (r r' : Bytes), m.map Prod.fst = m'.map Prod.fst →
    revBytes enc m ++ r = revBytes enc m' ++ r' → m = m' ∧ r = r'
  | [], [], r, r', _, he => ⟨rfl, by simpa [revBytes] using he⟩
  | [], _ :: _, _, _, hl, _ => by simp at hl
  | _ :: _, [], _, _, hl, _ => by simp at hl
  | (j, a) :: m, (j', a') :: m', r, r', hl, he => by
    simp only [List.map_cons, List.cons.injEq] at hl
    obtain ⟨rfl, hl⟩ := hl
    have he' : (toString j).toUTF8.data.toList ++ (enc a ++ (revBytes enc m ++ r)) =
        (toString j).toUTF8.data.toList ++ (enc a' ++ (revBytes enc m' ++ r')) := by
      simpa only [revBytes, List.flatMap_cons, List.append_assoc] using he
    obtain ⟨h1, h2⟩ := List.append_inj (List.append_cancel_left he') (by rw [h.len, h.len])
    obtain ⟨h3, h4⟩ := revBytes_inj h m m' r r' hl h2
    exact ⟨by rw [h.inj _ _ h1, h3], h4⟩

theorem revsBytes_inj (h : FixedEnc enc n) : ∀ (m m' : List (List (Nat × α))) (r r' : Bytes),
    m.map (fun x => x.map Prod.fst) = m'.map (fun x => x.map Prod.fst) →
    m.flatMap (revBytes enc) ++ r = m'.flatMap (revBytes enc) ++ r' → m = m' ∧ r = r'
  | [], [], r, r', _, he => ⟨rfl, by simpa using he⟩
  | [], _ :: _, _, _, hl, _ => by simp at hl
  | _ :: _, [], _, _, hl, _ => by simp at hl
  | a :: l, a' :: l', r, r', hl, he => by
    simp only [List.map_cons, List.cons.injEq] at hl
    simp only [List.flatMap_cons, List.append_assoc] at he
    obtain ⟨h1, h2⟩ := revBytes_inj h a a' _ _ hl.1 he
    obtain ⟨h3, h4⟩ := revsBytes_inj h l l' r r' hl.2 h2
    exact ⟨by rw [h1, h3], h4⟩

end Bytes

section Tok
variable {F G1 G2 GT : Type} [Field F] [AddCommGroup G1] [Module F G1] [AddCommGroup G2] [Module F G2]
  [AddCommGroup GT] [Module F GT] [DecidableEq F] [DecidableEq G1] [DecidableEq G2] [DecidableEq GT]
variable (e : G1 →ₗ[F] G2 →ₗ[F] GT)
variable (enc1 : G1 → Bytes) (enc2 : G2 → Bytes) (encT : GT → Bytes)

/-- Two commitments of one shape: as many elements everywhere and the same indices revealed, in the same order. -/
structure SameShape (k k' : Comm G1 G2 GT) : Prop where
  s : k.commsS.length = k'.commsS.length
  oddR : k.oddR.length = k'.oddR.length
  evenR : k.evenR.length = k'.evenR.length
  t : k.commsT.map List.length = k'.commsT.map List.length
  oddRev : k.oddRev.map (fun x => x.map Prod.fst) = k'.oddRev.map (fun x => x.map Prod.fst)
  evenRev : k.evenRev.map (fun x => x.map Prod.fst) = k'.evenRev.map (fun x => x.map Prod.fst)

/-- **C97** Among commitments of one shape the bytes that are hashed tell commitments apart. -/
theorem commitment_bytes_inj {n1 n2 nT : Nat} (h1 : FixedEnc enc1 n1) (h2 : FixedEnc enc2 n2) (hT : FixedEnc encT nT)
    (k k' : Comm G1 G2 GT) (hs : SameShape k k') (h : k.toBytes enc1 enc2 encT = k'.toBytes enc1 enc2 encT) : k = k' := by
  unfold Comm.toBytes at h
  simp only [List.append_assoc] at h
  obtain ⟨a1, h⟩ := flatMap_inj hT _ _ _ _ hs.s h
  obtain ⟨a2, h⟩ := flatMap_inj h2 _ _ _ _ hs.oddR h
  obtain ⟨a3, h⟩ := flatMap_inj h1 _ _ _ _ hs.evenR h
  obtain ⟨a4, h⟩ := flatMap2_inj hT _ _ _ _ hs.t h
  obtain ⟨a5, h⟩ := revsBytes_inj h1 _ _ _ _ hs.oddRev h
  have h' : k.evenRev.flatMap (revBytes enc2) ++ [] = k'.evenRev.flatMap (revBytes enc2) ++ [] := by simpa using h
  obtain ⟨a6, -⟩ := revsBytes_inj h2 _ _ _ _ hs.evenRev h'
  cases k; cases k'
  simp only at a1 a2 a3 a4 a5 a6
  subst a1 a2 a3 a4 a5 a6
  rfl

theorem reconAttrs_length {A B : Type} [AddCommGroup A] [Module F A] [AddCommGroup B] [Module F B] (e : A →ₗ[F] B →ₗ[F] GT)
    (R gb : B) (c : F) (rv : List Nat) (rev : List (Nat × A)) : ∀ (m j : Nat) (iss : List GT) (ts as : List A) (out : List GT),
    reconAttrs e R gb c rv rev m j iss ts as = .ok out → out.length = m
  | 0, j, iss, ts, as, out, h => by simp only [reconAttrs, Res.ok.injEq] at h; rw [← h]; rfl
  | m + 1, j, iss, ts, as, out, h => by
    simp only [reconAttrs, Res.bind_eq_ok] at h
    obtain ⟨t, -, s, -, h⟩ := h
    by_cases hc : rv.contains j = true
    · rw [if_pos hc] at h
      simp only [Res.bind_eq_ok, Res.pure_eq, Res.ok.injEq] at h
      obtain ⟨a, -, rest, hr, rfl⟩ := h
      rw [List.length_cons, reconAttrs_length e R gb c rv rev m _ _ _ _ _ hr]
    · rw [if_neg hc] at h
      simp only [Res.bind_eq_ok, Res.pure_eq, Res.ok.injEq] at h
      obtain ⟨a, -, rest, hr, rfl⟩ := h
      rw [List.length_cons, reconAttrs_length e R gb c rv rev m _ _ _ _ _ hr]

theorem reconT_length {A B : Type} [AddCommGroup A] [Module F A] [AddCommGroup B] [Module F B] (e : A →ₗ[F] B →ₗ[F] GT)
    (R gb : B) (c : F) (n : Nat) (hn : 1 ≤ n) (rv : List Nat) (rev : List (Nat × A)) (iss : List GT) (own : GT) (ts as : List A) (out : List GT)
    (h : reconT e R gb c n rv rev iss own ts as = .ok out) : out.length = n := by
  unfold reconT at h
  simp only [Res.bind_eq_ok, Res.pure_eq, Res.ok.injEq] at h
  obtain ⟨q, hq, t, -, s, -, rfl⟩ := h
  rw [List.length_append, reconAttrs_length e R gb c rv rev _ _ _ _ _ _ hq, List.length_singleton]
  omega

theorem reconStep_shape (L : Nat) (k : Comm G1 G2 GT) (q : Resp F G1 G2) (ch : F) (revealed : List (List Nat)) (p1 : Setup G1 G2)
    (p2 : Setup G2 G1) (v : ReconVals GT) (i : Nat) (out : GT × List GT) (h : reconStep e L k q ch revealed p1 p2 v i = .ok out) :
    (k.commsT[i - 1]?).map List.length = some out.2.length := by
  unfold reconStep at h
  by_cases hi : i % 2 = 1
  · rw [if_pos hi] at h
    simp only [Res.bind_eq_ok, Res.pure_eq, Res.ok.injEq, unwrap_eq_ok] at h
    obtain ⟨ct, hct, rv, -, u, hchk, s, -, R, -, is, -, ts, -, as, -, ra, -, own, -, t, ht, rfl⟩ := h
    have := (checkLevel_ok hchk).1
    rw [hct, Option.map_some, reconT_length _ _ _ _ _ (by omega) _ _ _ _ _ _ _ ht]
  · rw [if_neg hi] at h
    simp only [Res.bind_eq_ok, Res.pure_eq, Res.ok.injEq, unwrap_eq_ok] at h
    obtain ⟨ct, hct, rv, -, u, hchk, s, -, R, -, r, -, ts, -, as, -, ra, -, own, -, t, ht, rfl⟩ := h
    have := (checkLevel_ok hchk).1
    rw [hct, Option.map_some, reconT_length _ _ _ _ _ (by omega) _ _ _ _ _ _ _ ht]

/-- what the verifier reconstructs has the shape of what it was given, and the same `R` and revealed attributes -/
theorem reconstruct_shape (L : Nat) (k k' : Comm G1 G2 GT) (q : Resp F G1 G2) (ch : F) (revealed : List (List Nat)) (ipk : G2)
    (p1 : Setup G1 G2) (p2 : Setup G2 G1) (h : reconstruct e L k q ch revealed ipk p1 p2 = .ok k') :
    SameShape k' k ∧ k'.oddR = k.oddR ∧ k'.evenR = k.evenR ∧ k'.oddRev = k.oddRev ∧ k'.evenRev = k.evenRev := by
  unfold reconstruct reconFrom at h
  simp only [Res.bind_eq_ok, Res.pure_eq, Res.ok.injEq] at h
  obtain ⟨u, hk, u', -, v, -, l, hl, rfl⟩ := h
  obtain ⟨hlen, hstep⟩ := (pushLevels_ok_iff _ _ _ _).mp hl
  have hS : k.commsS.length = L ∧ k.commsT.length = L := by
    unfold Comm.validate at hk
    by_cases h1 : k.commsT.length ≠ L
    · rw [if_pos h1] at hk; cases hk
    rw [if_neg h1] at hk
    by_cases h2 : k.commsS.length ≠ L
    · rw [if_pos h2] at hk; cases hk
    exact ⟨not_not.mp h2, not_not.mp h1⟩
  refine ⟨⟨by simp only [List.length_map]; omega, rfl, rfl, ?_, rfl, rfl⟩, rfl, rfl, rfl, rfl⟩
  apply List.ext_getElem?
  intro j
  rw [List.getElem?_map, List.getElem?_map, List.getElem?_map]
  rcases Nat.lt_or_ge j L with hj | hj
  · have hjl : j < l.length := by omega
    have := reconStep_shape e L k q ch revealed p1 p2 v (1 + j) l[j] (hstep j l[j] (by rw [List.getElem?_eq_getElem hjl]))
    rw [show 1 + j - 1 = j by omega] at this
    rw [this, List.getElem?_eq_getElem hjl]
    rfl
  · rw [List.getElem?_eq_none (by omega), List.getElem?_eq_none (by omega)]; rfl

/-- **C97** The verifier's comparison of challenges: the challenge it recomputes is that of the commitment it was given exactly if it
reconstructs that commitment, unless the hash has the same value for the two byte strings (which are then different). -/
theorem challenge_check {n1 n2 nT : Nat} (h1 : FixedEnc enc1 n1) (h2 : FixedEnc enc2 n2) (hT : FixedEnc encT nT) (H : Bytes → F)
    (L : Nat) (k k' : Comm G1 G2 GT) (q : Resp F G1 G2) (ch : F) (revealed : List (List Nat)) (ipk : G2)
    (p1 : Setup G1 G2) (p2 : Setup G2 G1) (extra : Bytes) (h : reconstruct e L k q ch revealed ipk p1 p2 = .ok k')
    (hH : H (enc2 ipk ++ k'.toBytes enc1 enc2 encT ++ extra) = H (enc2 ipk ++ k.toBytes enc1 enc2 encT ++ extra) →
      enc2 ipk ++ k'.toBytes enc1 enc2 encT ++ extra = enc2 ipk ++ k.toBytes enc1 enc2 encT ++ extra) :
    genChallenge enc1 enc2 encT H k' ipk extra = genChallenge enc1 enc2 encT H k ipk extra ↔ k' = k := by
  constructor
  · intro he
    have := hH he
    exact commitment_bytes_inj enc1 enc2 encT h1 h2 hT k' k (reconstruct_shape e L k k' q ch revealed ipk p1 p2 h).1
      (List.append_cancel_left (List.append_cancel_right this))
  · rintro rfl; rfl

/-- **C97** With at most one revealed attribute at each level, the bytes that are hashed do not depend on the order in which the maps are
read. -/
theorem challenge_order_free (k : Comm G1 G2 GT) (o : List (List (Nat × G1))) (ev : List (List (Nat × G2)))
    (ho : List.Forall₂ List.Perm k.oddRev o) (he : List.Forall₂ List.Perm k.evenRev ev)
    (h1 : ∀ m ∈ k.oddRev, m.length ≤ 1) (h2 : ∀ m ∈ k.evenRev, m.length ≤ 1) :
    ({ k with oddRev := o, evenRev := ev } : Comm G1 G2 GT).toBytes enc1 enc2 encT = k.toBytes enc1 enc2 encT := by
  have key : ∀ {α : Type} (a b : List (List α)), List.Forall₂ List.Perm a b → (∀ m ∈ a, m.length ≤ 1) → b = a := by
    intro α a b h
    induction h with
    | nil => intro _; rfl
    | @cons x y xs ys hxy _ ih =>
      intro hm
      have hx := hm x (by simp)
      have : y = x := by
        match x, hx with
        | [], _ => simpa using hxy.symm.eq_nil
        | [a], _ => exact (List.perm_singleton.mp hxy.symm)
      rw [this, ih (fun m hm' => hm m (by simp [hm']))]
  rw [key _ _ ho h1, key _ _ he h2]

theorem digit_head {j j' : Nat} (hj : j < 10) (hj' : j' < 10) (hne : j ≠ j') (r r' : Bytes) :
    (toString j).toUTF8.data.toList ++ r ≠ (toString j').toUTF8.data.toList ++ r' := by
  intro h
  have hd : ∀ i : Fin 10, (toString i.1).toUTF8.data.toList = [(48 + i.1).toUInt8] := by decide +kernel
  rw [hd ⟨j, hj⟩, hd ⟨j', hj'⟩] at h
  simp only [List.cons_append, List.nil_append, List.cons.injEq] at h
  have hinj : ∀ a b : Fin 10, (48 + a.1).toUInt8 = (48 + b.1).toUInt8 → a = b := by decide +kernel
  have := hinj ⟨j, hj⟩ ⟨j', hj'⟩ h.1
  simp only [Fin.mk.injEq] at this
  exact hne this

/-- **C97, negation** With two revealed attributes at one level the bytes depend on the order in which the map is read, which differs from one map object
to the next: prover and verifier, having the same commitment, hash different strings. -/
theorem challenge_order_matters (H : Bytes → F) (k : Comm G1 G2 GT) (pre post : List (List (Nat × G1))) (j j' : Nat) (a a' : G1)
    (hj : j < 10) (hj' : j' < 10) (hne : j ≠ j') (hk : k.oddRev = pre ++ [[(j, a), (j', a')]] ++ post) (ipk : G2) (extra : Bytes) :
    ∃ s s' : Bytes, s ≠ s' ∧ List.Forall₂ List.Perm k.oddRev (pre ++ [[(j', a'), (j, a)]] ++ post) ∧
      genChallenge enc1 enc2 encT H k ipk extra = H s ∧
      genChallenge enc1 enc2 encT H { k with oddRev := pre ++ [[(j', a'), (j, a)]] ++ post } ipk extra = H s' := by
  refine ⟨_, _, ?_, ?_, rfl, rfl⟩
  · intro h
    have h := List.append_cancel_left (List.append_cancel_right h)
    unfold Comm.toBytes at h
    simp only [List.append_assoc] at h
    have h := List.append_cancel_left (List.append_cancel_left (List.append_cancel_left (List.append_cancel_left h)))
    rw [hk] at h
    simp only [List.flatMap_append, List.append_assoc] at h
    have h := List.append_cancel_left h
    simp only [List.flatMap_cons, List.flatMap_nil, revBytes, List.append_assoc] at h
    exact digit_head hj hj' hne _ _ h
  · rw [hk]
    have hr : ∀ l : List (List (Nat × G1)), List.Forall₂ List.Perm l l := fun l => List.forall₂_same.mpr (fun _ _ => List.Perm.refl _)
    exact List.rel_append (List.rel_append (hr pre) (List.Forall₂.cons (List.Perm.swap _ _ _) .nil)) (hr post)

/-- **C97, negation** The bytes do not fix the shape: how the commitments for attributes are divided among the levels is not hashed. -/
theorem challenge_shape_unbound (H : Bytes → F) (k : Comm G1 G2 GT) (t1 t2 : List GT) (x : GT) (rest : List (List GT))
    (hk : k.commsT = t1 :: (x :: t2) :: rest) (ipk : G2) (extra : Bytes) :
    genChallenge enc1 enc2 encT H { k with commsT := (t1 ++ [x]) :: t2 :: rest } ipk extra = genChallenge enc1 enc2 encT H k ipk extra ∧
      ({ k with commsT := (t1 ++ [x]) :: t2 :: rest } : Comm G1 G2 GT) ≠ k := by
  constructor
  · unfold genChallenge Comm.toBytes
    simp only [hk, List.flatMap_cons, List.flatMap_append, List.flatMap_nil, List.append_assoc, List.nil_append]
  · intro h
    have := congrArg Comm.commsT h
    rw [hk] at this
    simp at this

end Tok
/-! ## Examples -/
section Examples
open Verif.Toy
local instance : Fact (Nat.Prime 101) := fact101

/-- a holder of the chain of two levels who reveals the first attribute of level 1 -/
theorem honest_presentable : Presentable toyE honestChain ((13 : ZMod 101) * 7) [19 * 7] [17 * 5] (19 : ZMod 101) cs1 cs2 [[0], []] where
  valid := honestChain_valid
  gens := by decide
  params := by decide
  oddT := by decide +kernel
  evenT := by decide +kernel
  keyOdd := by decide
  keyEven := fun _ => by decide +kernel
  sets := by decide
  revOdd := by
    intro i rv l hi hr hl
    have h1 : i / 2 < 1 := by have := (List.getElem?_eq_some_iff.mp hl).1; simpa [honestChain] using this
    obtain rfl : i = 1 := by omega
    simp only [Nat.sub_self, List.getElem?_cons_zero, Option.some.injEq] at hr
    obtain rfl : honestLink1 = l := by simpa [honestChain] using hl
    subst hr
    decide +kernel
  revEven := by
    intro i rv l hi h1 hr hl
    have h2 : i / 2 - 1 < 1 := by have := (List.getElem?_eq_some_iff.mp hl).1; simpa [honestChain] using this
    obtain rfl : i = 2 := by omega
    have hr' : [] = rv := by simpa using hr
    obtain rfl : honestLink2 = l := by simpa [honestChain] using hl
    subst hr'
    decide +kernel

def toyRnd : Nat → LevelRnd (ZMod 101) := fun i => ⟨3 + i, 8 + i, 21 + i, fun j => 30 + j, fun j => 40 + 2 * j⟩
theorem toyRnd_sig : ∀ i : Nat, i ≤ 2 → (toyRnd i).sig ≠ 0 := by decide +kernel

/-- random values that are good at every level -/
def toyRnd' : Nat → LevelRnd (ZMod 101) := fun i => if i ≤ 2 then toyRnd i else toyRnd 1
theorem toyRnd'_sig (i : Nat) : (toyRnd' i).sig ≠ 0 := by
  unfold toyRnd'
  by_cases h : i ≤ 2
  · rw [if_pos h]; exact toyRnd_sig i h
  · rw [if_neg h]; exact toyRnd_sig 1 (by omega)

example := token_complete honest_presentable toyRnd' toyRnd'_sig 23
example := token_two_responses_leak honest_presentable toyRnd' 23 24 (by decide)

/-- the two accepted responses that `token_sound` needs -/
example : ∃ (k : Comm (ZMod 101) (ZMod 101) (ZMod 101)) (q q' : Resp (ZMod 101) (ZMod 101) (ZMod 101)),
    ChainValid toyE (extractChain 2 k q q' 23 24 [[0], []] (13 * 7) cs1 cs2) ((13 * 7) :: (evensOf 2).map (extractEven 2 q q' 23 24 (13 * 7) cs2))
      ((oddsOf 2).map (extractOdd 2 q q' 23 24 cs1)) cs1 cs2 := by
  obtain ⟨tok, k, q, hk, hq, hr⟩ := token_complete honest_presentable toyRnd' toyRnd'_sig 23
  obtain ⟨tok', k', q', hk', hq', hr'⟩ := token_complete honest_presentable toyRnd' toyRnd'_sig 24
  rw [hk] at hk'
  simp only [Res.ok.injEq, Prod.mk.injEq] at hk'
  obtain ⟨rfl, rfl⟩ := hk'
  exact ⟨k, q, q', (token_sound toyE 2 (by decide) k q q' 23 24 (by decide) _ _ _ _ hr hr').2.1⟩

/-- another holder: other keys below the root, other hidden attributes, the same first attribute of level 1 -/
def honestLink1' : Link (ZMod 101) (ZMod 101) :=
  match delegate (F := ZMod 101) 0 [20, 31] (18 * 5) 13 cs1 9 with | .ok l => l | _ => ⟨0, [], ⟨0, 0, []⟩⟩
def honestLink2' : Link (ZMod 101) (ZMod 101) :=
  match delegate (F := ZMod 101) 1 [41] (22 * 7) 18 cs2 6 with | .ok l => l | _ => ⟨0, [], ⟨0, 0, []⟩⟩
def honestChain' : Chain (ZMod 101) (ZMod 101) := ⟨[honestLink1'], [honestLink2']⟩

theorem honest_presentable' : Presentable toyE honestChain' ((13 : ZMod 101) * 7) [22 * 7] [18 * 5] (22 : ZMod 101) cs1 cs2 [[0], []] where
  valid := by
    have h1 : Honest cs1 cs2 ⟨[honestLink1'], []⟩ [(keygen cs1 (13 : ZMod 101)).2] ([] ++ [(keygen cs2 (18 : ZMod 101)).2])
        (18 : ZMod 101) :=
      Honest.odd (F := ZMod 101) (c := Chain.empty) (sk := 13) 18 9 [20, 31] honestLink1' (Honest.root 13) rfl (by decide) (by decide +kernel) (by decide +kernel)
    have h2 : Honest cs1 cs2 honestChain' [(keygen cs1 (13 : ZMod 101)).2, (keygen cs1 (22 : ZMod 101)).2] [(keygen cs2 (18 : ZMod 101)).2]
        (22 : ZMod 101) := Honest.even (F := ZMod 101) (c := ⟨[honestLink1'], []⟩) (ev := [(keygen cs1 (13 : ZMod 101)).2]) (sk := 18) 22 6 [41] honestLink2' h1 rfl (by decide)
      (by decide +kernel) (by decide +kernel)
    obtain ⟨g1, g2, g3, g4, g5, -⟩ := honest_inv toyE h2
    exact ⟨by decide, g1, g2, g5⟩
  gens := by decide
  params := by decide
  oddT := by decide +kernel
  evenT := by decide +kernel
  keyOdd := by decide
  keyEven := fun _ => by decide +kernel
  sets := by decide
  revOdd := by
    intro i rv l hi hr hl
    have h1 : i / 2 < 1 := by have := (List.getElem?_eq_some_iff.mp hl).1; simpa [honestChain'] using this
    obtain rfl : i = 1 := by omega
    simp only [Nat.sub_self, List.getElem?_cons_zero, Option.some.injEq] at hr
    obtain rfl : honestLink1' = l := by simpa [honestChain'] using hl
    subst hr
    decide +kernel
  revEven := by
    intro i rv l hi h1 hr hl
    have h2 : i / 2 - 1 < 1 := by have := (List.getElem?_eq_some_iff.mp hl).1; simpa [honestChain'] using this
    obtain rfl : i = 2 := by omega
    have hr' : [] = rv := by simpa using hr
    obtain rfl : honestLink2' = l := by simpa [honestChain'] using hl
    subst hr'
    decide +kernel

theorem same_view : SameView honestChain honestChain' [[0], []] where
  size := rfl
  odd := by
    intro i l l' rv hi hl hl' hr
    have h1 : i / 2 < 1 := by have := (List.getElem?_eq_some_iff.mp hl).1; simpa [honestChain] using this
    obtain rfl : i = 1 := by omega
    have hr' : [0] = rv := by simpa using hr
    obtain rfl : honestLink1 = l := by simpa [honestChain] using hl
    obtain rfl : honestLink1' = l' := by simpa [honestChain'] using hl'
    subst hr'
    decide +kernel
  even := by
    intro i l l' rv hi h1 hl hl' hr
    have h2 : i / 2 - 1 < 1 := by have := (List.getElem?_eq_some_iff.mp hl).1; simpa [honestChain] using this
    obtain rfl : i = 2 := by omega
    have hr' : [] = rv := by simpa using hr
    obtain rfl : honestLink2 = l := by simpa [honestChain] using hl
    obtain rfl : honestLink2' = l' := by simpa [honestChain'] using hl'
    subst hr'
    decide +kernel

example : honestChain.odd.map Link.attributes ≠ honestChain'.odd.map Link.attributes := by decide +kernel

example := token_indistinguishable honest_presentable honest_presentable' same_view
  (fun x => ⟨x * 5⁻¹, by revert x; decide +kernel⟩) (fun x => ⟨x * 7⁻¹, by revert x; decide +kernel⟩)
  (by decide +kernel) (by decide +kernel) (by decide +kernel) (by decide +kernel) toyRnd' toyRnd'_sig 23

/-- a second commitment is made, and refused -/
example : ∃ tok k tok' k', commitment toyE honestChain cs1 cs2 Token.new [[0], []] toyRnd = .ok (tok, k) ∧
    commitment toyE honestChain cs1 cs2 tok [[1], [0]] toyRnd' = .ok (tok', k') ∧
    response honestChain cs1 cs2 tok' k' (19 : ZMod 101) 23 [19 * 7] [17 * 5] = .err (.incorrectNumberOfBlindedR 2 4) := by
  obtain ⟨tok, k, q, hk, hq, hr⟩ := token_complete honest_presentable toyRnd' toyRnd'_sig 23
  have hk0 : ∃ p : Token (ZMod 101) (ZMod 101) (ZMod 101) × Comm (ZMod 101) (ZMod 101) (ZMod 101),
      commitment toyE honestChain cs1 cs2 Token.new [[0], []] toyRnd = .ok p ∧
      ∃ p' : Token (ZMod 101) (ZMod 101) (ZMod 101) × Comm (ZMod 101) (ZMod 101) (ZMod 101),
        commitment toyE honestChain cs1 cs2 p.1 [[1], [0]] toyRnd' = .ok p' := by
    refine ⟨(match commitment toyE honestChain cs1 cs2 Token.new [[0], []] toyRnd with
      | .ok p => p | _ => (Token.new, ⟨[], [], [], [], [], []⟩)), by decide +kernel,
      (match commitment toyE honestChain cs1 cs2 (match commitment toyE honestChain cs1 cs2 Token.new [[0], []] toyRnd with
        | .ok p => p | _ => (Token.new, ⟨[], [], [], [], [], []⟩)).1 [[1], [0]] toyRnd' with
      | .ok p => p | _ => (Token.new, ⟨[], [], [], [], [], []⟩)), by decide +kernel⟩
  obtain ⟨⟨t, k1⟩, h1, ⟨t', k2⟩, h2⟩ := hk0
  exact ⟨t, k1, t', k2, h1, h2, token_second_commitment_refused (by decide) _ _ _ _ _ _ _ h1 h2 23⟩

/-- **C95** The generators of the two schemes must be shared: with another generator for the keys of odd levels, chains are made and are valid,
and the honest holder's token is not accepted. -/
def cs2x : Setup (ZMod 101) (ZMod 101) := ⟨7, 6, [4, 6, 9]⟩
def unsharedLink : Link (ZMod 101) (ZMod 101) :=
  match delegate (F := ZMod 101) 0 [20, 30] (17 * 6) 13 cs1 4 with | .ok l => l | _ => ⟨0, [], ⟨0, 0, []⟩⟩
example : (match commitment toyE ⟨[unsharedLink], []⟩ cs1 cs2x Token.new [[0]] toyRnd with
    | .ok (tok, k) => match response ⟨[unsharedLink], []⟩ cs1 cs2x tok k (17 : ZMod 101) 23 [] [17 * 6] with
      | .ok q => decide (reconstruct toyE 1 k q 23 [[0]] (13 * 7) cs1 cs2x = .ok k)
      | _ => true
    | _ => true) = false := by decide +kernel

/-- crashing tokens -/
example : reconstruct toyE 1 ⟨[1], [], [5], [[]], [[]], []⟩ (⟨4, [], [], [1], [], [[]], [], [[]], []⟩ : Resp (ZMod 101) (ZMod 101) (ZMod 101)) 23
    [[]] (13 * 7) cs1 cs2 = .panic :=
  token_panics_empty toyE 1 (le_refl _) _ _ _ _ _ _ _ rfl rfl rfl
example : reconstruct toyE 1 ⟨[1], [], [5], [[6, 8]], [[]], []⟩
    (⟨4, [], [], [1], [], [[2, 3]], [], [[]], []⟩ : Resp (ZMod 101) (ZMod 101) (ZMod 101)) 23 [[0]] (13 * 7) cs1 cs2 = .panic := by
  decide +kernel
example : reconstruct toyE 2 ⟨[1], [1], [5, 5], [[6, 8], [3]], [[(0, 7)]], [[]]⟩
    (⟨4, [], [], [1], [2], [[2, 3]], [[1]], [[]], [[]]⟩ : Resp (ZMod 101) (ZMod 101) (ZMod 101)) 23 [[0], []] (13 * 7) cs1 cs2 = .panic :=
  token_panics_no_vk toyE 2 (le_refl _) _ _ _ _ _ _ _ rfl rfl _ _ rfl rfl rfl rfl

/-- encodings as `FixedEnc` asks for -/
theorem toyEnc : FixedEnc (fun x : ZMod 101 => [x.val.toUInt8]) 1 := ⟨fun _ => rfl, by decide +kernel⟩

example (H : Bytes → ZMod 101) := challenge_order_matters (GT := ZMod 101) (fun x : ZMod 101 => [x.val.toUInt8]) (fun x : ZMod 101 => [x.val.toUInt8])
  (fun x : ZMod 101 => [x.val.toUInt8]) H ⟨[1], [], [5], [[6, 8, 9]], [[(0, 7), (1, 8)]], []⟩ [] [] 0 1 7 8 (by decide) (by decide) (by decide) rfl 91 []
example (H : Bytes → ZMod 101) := challenge_shape_unbound (fun x : ZMod 101 => [x.val.toUInt8]) (fun x : ZMod 101 => [x.val.toUInt8])
  (fun x : ZMod 101 => [x.val.toUInt8]) H ⟨[1], [1], [5, 5], [[6], [8, 3]], [[]], [[]]⟩ [6] [3] 8 [] rfl 91 []
end Examples
end Verif.Groth
