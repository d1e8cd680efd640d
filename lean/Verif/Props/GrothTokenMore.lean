import Verif.Props.GrothTokenSound
/-!
# Attribute tokens: the two reconstructions (C99), the challenge (C97), crashes (C98), zero knowledge (C100), reuse (C101)
-/
set_option linter.unusedSectionVars false
set_option linter.unusedSimpArgs false
set_option linter.unusedVariables false
namespace Verif.Groth

section Tok
variable {F G1 G2 GT : Type} [Field F] [AddCommGroup G1] [Module F G1] [AddCommGroup G2] [Module F G2]
  [AddCommGroup GT] [Module F GT] [DecidableEq F] [DecidableEq G1] [DecidableEq G2] [DecidableEq GT]
variable (e : G1 →ₗ[F] G2 →ₗ[F] GT)

/-! ## Precomputed values -/

/-- **C99** The reconstruction with values precomputed for the root's key and the parameters gives the result of the plain one, whatever
the commitment, the response, the challenge and the attributes asked for (errors and crashes included). -/
theorem reconstruct_precomputed (L : Nat) (k : Comm G1 G2 GT) (q : Resp F G1 G2) (ch : F) (revealed : List (List Nat)) (ipk : G2)
    (p1 : Setup G1 G2) (p2 : Setup G2 G1) (pre : PreRecon GT) (h : preRecon e ipk p1 p2 = .ok pre) :
    reconstructPre e L k q ch revealed p1 p2 pre = reconstruct e L k q ch revealed ipk p1 p2 := by
  unfold preRecon at h
  simp only [Res.bind_eq_ok, Res.pure_eq, Res.ok.injEq, unwrap_eq_ok] at h
  obtain ⟨y1, hy1, y2, hy2, rfl⟩ := h
  have hv : plainVals e p1 p2 ipk ch q.csk = .ok (precompVals ⟨e (-p1.ga) p1.gb, e (-p2.gb) p2.ga, e y1 p1.gb, e p2.gb y2, e p1.ga ipk,
      p1.y.map (fun y => e y ipk)⟩ ch q.csk) := by
    unfold plainVals precompVals
    rw [hy1, hy2]
    simp only [Res.unwrap_some, Res.ok_bind, Res.pure_eq, map_smul, map_neg, LinearMap.smul_apply, LinearMap.neg_apply, smul_add, smul_neg, neg_smul,
      List.map_map, Function.comp_def]
  unfold reconstructPre reconstruct
  rw [hv]
  rfl

/-- **C99** Precomputing on the parameters does not change the commitment. -/
theorem commitment_precomputed (c : Chain G1 G2) (p1 : Setup G1 G2) (p2 : Setup G2 G1) (tok : Token F G1 G2)
    (revealed : List (List Nat)) (rnd : Nat → LevelRnd F) :
    commitWithSetup e c p1 p2 tok revealed (preSetup e p1 p2) rnd = commitment e c p1 p2 tok revealed rnd ∧
    ∀ pr, preChain e c p1 p2 = .ok pr →
      commitWith c p1 p2 tok revealed (preSetup e p1 p2) pr rnd = commitment e c p1 p2 tok revealed rnd := by
  refine ⟨rfl, fun pr h => ?_⟩
  unfold commitment
  rw [h, Res.ok_bind]

/-! ## What the reconstruction depends on -/

theorem reconStep_congr (L : Nat) (k k' : Comm G1 G2 GT) (q : Resp F G1 G2) (ch : F) (revealed : List (List Nat)) (p1 : Setup G1 G2)
    (p2 : Setup G2 G1) (v : ReconVals GT) (i : Nat) (hT : k.commsT.map List.length = k'.commsT.map List.length) (hoR : k.oddR = k'.oddR)
    (heR : k.evenR = k'.evenR) (ho : k.oddRev = k'.oddRev) (he : k.evenRev = k'.evenRev) :
    reconStep e L k q ch revealed p1 p2 v i = reconStep e L k' q ch revealed p1 p2 v i := by
  have hl : (k.commsT[i - 1]?).map List.length = (k'.commsT[i - 1]?).map List.length := by
    rw [← List.getElem?_map, ← List.getElem?_map, hT]
  unfold reconStep
  rw [hoR, heR, ho, he]
  cases h1 : k.commsT[i - 1]? with
  | none =>
    rw [h1] at hl
    cases h2 : k'.commsT[i - 1]? with
    | none => rfl
    | some c' => rw [h2] at hl; cases hl
  | some ct =>
    rw [h1] at hl
    cases h2 : k'.commsT[i - 1]? with
    | none => rw [h2] at hl; cases hl
    | some ct' =>
      rw [h2] at hl
      have : ct.length = ct'.length := by simpa using hl
      simp only [Res.unwrap_some, Res.ok_bind, this]

theorem pushLevels_congr {τ : Type} (f g : Nat → Res Error τ) : ∀ (n i : Nat), (∀ k, i ≤ k → k < i + n → f k = g k) →
    pushLevels f n i = pushLevels g n i
  | 0, _, _ => rfl
  | n + 1, i, h => by
    simp only [pushLevels]
    rw [h i (le_refl _) (by omega), pushLevels_congr f g n (i + 1) (fun k h1 h2 => h k (by omega) (by omega))]

/-- Commitments with the same blinded signature parts, revealed attributes and numbers of commitments are reconstructed to the same. -/
theorem reconstruct_congr (L : Nat) (k k' : Comm G1 G2 GT) (q : Resp F G1 G2) (ch : F) (revealed : List (List Nat)) (ipk : G2)
    (p1 : Setup G1 G2) (p2 : Setup G2 G1) (hT : k.commsT.map List.length = k'.commsT.map List.length) (hoR : k.oddR = k'.oddR)
    (heR : k.evenR = k'.evenR) (ho : k.oddRev = k'.oddRev) (he : k.evenRev = k'.evenRev) (hS : k.commsS.length = k'.commsS.length) :
    reconstruct e L k q ch revealed ipk p1 p2 = reconstruct e L k' q ch revealed ipk p1 p2 := by
  have hTl : k.commsT.length = k'.commsT.length := by
    have := congrArg List.length hT
    simpa using this
  have hv : k.validate L = k'.validate L := by
    unfold Comm.validate
    rw [hoR, heR, ho, he, hS, hTl]
  unfold reconstruct reconFrom
  rw [hv]
  congr 1; funext _
  congr 1; funext _
  congr 1; funext v
  rw [pushLevels_congr _ _ L 1 (fun i _ _ => reconStep_congr e L k k' q ch revealed p1 p2 v i hT hoR heR ho he), hoR, heR, ho, he]

theorem reconAttrs_lookup {A B : Type} [AddCommGroup A] [Module F A] [AddCommGroup B] [Module F B] (e : A →ₗ[F] B →ₗ[F] GT)
    (R gb : B) (c : F) (rv : List Nat) (rev rev' : List (Nat × A)) : ∀ (m j : Nat) (iss : List GT) (ts as : List A),
    (∀ x, x ∈ rv → j ≤ x → x < j + m → rev.lookup x = rev'.lookup x) →
    reconAttrs e R gb c rv rev m j iss ts as = reconAttrs e R gb c rv rev' m j iss ts as
  | 0, j, iss, ts, as, _ => rfl
  | m + 1, j, iss, ts, as, h => by
    have ih := fun iss ts as => reconAttrs_lookup e R gb c rv rev rev' m (j + 1) iss ts as (fun x hx h1 h2 => h x hx (by omega) (by omega))
    by_cases hc : rv.contains j = true
    · have := h j (by simpa using hc) (le_refl _) (by omega)
      simp only [reconAttrs, if_pos hc, this, ih]
    · simp only [reconAttrs, if_neg hc, ih]

/-- **C96, negation** Attributes that the token shows at indices the verifier does not ask for are not checked: replacing them, or adding any
value, does not make the reconstruction fail. -/
theorem token_unlisted_unchecked (L : Nat) (k : Comm G1 G2 GT) (q : Resp F G1 G2) (ch : F) (revealed : List (List Nat)) (ipk : G2)
    (p1 : Setup G1 G2) (p2 : Setup G2 G1) (o : List (List (Nat × G1))) (ev : List (List (Nat × G2)))
    (hol : o.length = k.oddRev.length) (hel : ev.length = k.evenRev.length)
    (ho : ∀ i rv m m', i % 2 = 1 → revealed[i - 1]? = some rv → k.oddRev[i / 2]? = some m → o[i / 2]? = some m' →
      ∀ j, j ∈ rv → m.lookup j = m'.lookup j)
    (he : ∀ i rv m m', i % 2 = 0 → 1 ≤ i → revealed[i - 1]? = some rv → k.evenRev[i / 2 - 1]? = some m → ev[i / 2 - 1]? = some m' →
      ∀ j, j ∈ rv → m.lookup j = m'.lookup j)
    (h : reconstruct e L k q ch revealed ipk p1 p2 = .ok k) :
    reconstruct e L { k with oddRev := o, evenRev := ev } q ch revealed ipk p1 p2 = .ok { k with oddRev := o, evenRev := ev } := by
  have hstep : ∀ v i, 1 ≤ i → reconStep e L { k with oddRev := o, evenRev := ev } q ch revealed p1 p2 v i =
      reconStep e L k q ch revealed p1 p2 v i := by
    intro v i h1
    unfold reconStep
    rcases Nat.mod_two_eq_zero_or_one i with hp | hp
    · rw [if_neg (by omega), if_neg (by omega)]
      cases hrv : revealed[i - 1]? with
      | none => rfl
      | some rv =>
        have hx : ∀ m m', k.evenRev[i / 2 - 1]? = some m → ev[i / 2 - 1]? = some m' → ∀ R gb n iss own ts as,
            reconT e.flip R gb ch n rv m iss own ts as = reconT e.flip R gb ch n rv m' iss own ts as := by
          intro m m' hm hm' R gb n iss own ts as
          unfold reconT
          rw [reconAttrs_lookup e.flip R gb ch rv m m' _ _ _ _ _ (fun x hx _ _ => he i rv m m' hp h1 hrv hm hm' x hx)]
        cases hm : k.evenRev[i / 2 - 1]? with
        | none =>
          have hm' : ev[i / 2 - 1]? = none := by
            rw [List.getElem?_eq_none_iff] at hm ⊢; omega
          simp only [hm']
        | some m =>
          have hlt : i / 2 - 1 < ev.length := by
            have := (List.getElem?_eq_some_iff.mp hm).1; omega
          have hm' : ev[i / 2 - 1]? = some ev[i / 2 - 1] := List.getElem?_eq_getElem hlt
          simp only [hm', Res.unwrap_some, Res.ok_bind, hx m _ hm hm']
    · rw [if_pos hp, if_pos hp]
      cases hrv : revealed[i - 1]? with
      | none => rfl
      | some rv =>
        have hx : ∀ m m', k.oddRev[i / 2]? = some m → o[i / 2]? = some m' → ∀ R gb n iss own ts as,
            reconT e R gb ch n rv m iss own ts as = reconT e R gb ch n rv m' iss own ts as := by
          intro m m' hm hm' R gb n iss own ts as
          unfold reconT
          rw [reconAttrs_lookup e R gb ch rv m m' _ _ _ _ _ (fun x hx _ _ => ho i rv m m' hp hrv hm hm' x hx)]
        cases hm : k.oddRev[i / 2]? with
        | none =>
          have hm' : o[i / 2]? = none := by
            rw [List.getElem?_eq_none_iff] at hm ⊢; omega
          simp only [hm']
        | some m =>
          have hlt : i / 2 < o.length := by
            have := (List.getElem?_eq_some_iff.mp hm).1; omega
          have hm' : o[i / 2]? = some o[i / 2] := List.getElem?_eq_getElem hlt
          simp only [hm', Res.unwrap_some, Res.ok_bind, hx m _ hm hm']
  have hval : Comm.validate { k with oddRev := o, evenRev := ev } L = k.validate L := by
    unfold Comm.validate
    simp only [hol, hel]
  unfold reconstruct reconFrom at h ⊢
  rw [hval]
  simp only [Res.bind_eq_ok, Res.pure_eq, Res.ok.injEq] at h ⊢
  obtain ⟨u1, h1, u2, h2, v, h3, l, h4, h5⟩ := h
  refine ⟨u1, h1, u2, h2, v, h3, l, ?_, ?_⟩
  · rw [← h4]; exact pushLevels_congr _ _ L 1 (fun i hi _ => hstep v i hi)
  · rw [← h5]

/-! ## Zero levels -/

/-- **C96, negation** A token for no level at all is accepted for every root key and challenge, without any credential. -/
theorem token_empty_accepted (ch : F) (ipk : G2) (p1 : Setup G1 G2) (p2 : Setup G2 G1) (revealed : List (List Nat)) (csk : F)
    (h1 : p1.y ≠ []) (h2 : p2.y ≠ []) :
    reconstruct e 0 ⟨[], [], [], [], [], []⟩ (⟨csk, [], [], [], [], [], [], [], []⟩ : Resp F G1 G2) ch revealed ipk p1 p2 =
      .ok ⟨[], [], [], [], [], []⟩ := by
  obtain ⟨y1, l1, hy1⟩ := List.exists_cons_of_ne_nil h1
  obtain ⟨y2, l2, hy2⟩ := List.exists_cons_of_ne_nil h2
  have hv : ∃ v, plainVals e p1 p2 ipk ch csk = .ok v := by
    unfold plainVals; rw [hy1, hy2]; exact ⟨_, rfl⟩
  obtain ⟨v, hv⟩ := hv
  unfold reconstruct
  show (plainVals e p1 p2 ipk ch csk >>= _) = _
  rw [hv]
  rfl

/-! ## Crashes -/

/-- a crash at level 1 is a crash of the reconstruction -/
theorem recon_panic_first (L : Nat) (hL : 1 ≤ L) (k : Comm G1 G2 GT) (q : Resp F G1 G2) (ch : F) (revealed : List (List Nat)) (ipk : G2)
    (p1 : Setup G1 G2) (p2 : Setup G2 G1) (hk : k.validate L = .ok ()) (hq : q.validate L = .ok ())
    (h : ∀ v, reconStep e L k q ch revealed p1 p2 v 1 = .panic) : reconstruct e L k q ch revealed ipk p1 p2 = .panic := by
  obtain ⟨n, rfl⟩ : ∃ n, L = n + 1 := ⟨L - 1, by omega⟩
  unfold reconstruct reconFrom
  rw [hk, Res.ok_bind, hq, Res.ok_bind]
  cases hv : plainVals e p1 p2 ipk ch q.csk with
  | panic => rfl
  | err x =>
    unfold plainVals at hv
    cases h1 : p1.y.head? with
    | none => rw [h1] at hv; cases hv
    | some y1 =>
      cases h2 : p2.y.head? with
      | none => rw [h1, h2] at hv; cases hv
      | some y2 => rw [h1, h2] at hv; cases hv
  | ok v =>
    simp only [Res.ok_bind, pushLevels, h v, Res.panic_bind]

/-- **C98** A token with no commitment for the attributes of level 1 crashes the verifier. -/
theorem token_panics_empty (L : Nat) (hL : 1 ≤ L) (k : Comm G1 G2 GT) (q : Resp F G1 G2) (ch : F) (revealed : List (List Nat)) (ipk : G2)
    (p1 : Setup G1 G2) (p2 : Setup G2 G1) (hk : k.validate L = .ok ()) (hq : q.validate L = .ok ()) (h : k.commsT[0]? = some []) :
    reconstruct e L k q ch revealed ipk p1 p2 = .panic := by
  refine recon_panic_first e L hL k q ch revealed ipk p1 p2 hk hq (fun v => ?_)
  unfold reconStep
  rw [if_pos rfl, show (1 - 1 : Nat) = 0 from rfl, h]
  cases hr : revealed[0]? with
  | none => rfl
  | some rv =>
    have : checkLevel ([] : List GT).length rv.length p1.y.length q.oddA[1 / 2]? = .panic := by
      unfold checkLevel
      by_cases h0 : ([] : List GT).length < rv.length
      · rw [if_pos h0]
      · rw [if_neg h0, if_neg (by simp), if_pos (by simp)]
    simp only [Res.unwrap_some, Res.ok_bind, this, Res.panic_bind]

/-- **C98** A token that leaves out an attribute the verifier asks for (at level 1) crashes the verifier. -/
theorem token_panics_missing (L : Nat) (hL : 1 ≤ L) (k : Comm G1 G2 GT) (q : Resp F G1 G2) (ch : F) (revealed : List (List Nat)) (ipk : G2)
    (p1 : Setup G1 G2) (p2 : Setup G2 G1) (hk : k.validate L = .ok ()) (hq : q.validate L = .ok ()) (ct : List GT) (rv : List Nat)
    (m : List (Nat × G1)) (as : List G1) (h : k.commsT[0]? = some ct) (hr : revealed[0]? = some rv) (hm : k.oddRev[0]? = some m)
    (ha : q.oddA[0]? = some as) (hn : rv.length < ct.length) (hy : ct.length ≤ p1.y.length) (hu : ct.length - rv.length - 1 ≤ as.length)
    (j : Nat) (hj : j ∈ rv) (hjn : j + 1 < ct.length) (hlk : m.lookup j = none) :
    reconstruct e L k q ch revealed ipk p1 p2 = .panic := by
  refine recon_panic_first e L hL k q ch revealed ipk p1 p2 hk hq (fun v => ?_)
  have hp : ∀ (R gb : _) (n i : Nat) (iss : List GT) (ts as : List G1), i ≤ j → j < i + n →
      reconAttrs e R gb ch rv m n i iss ts as = .panic := by
    intro R gb n
    induction n with
    | zero => intro i iss ts as h1 h2; omega
    | succ n ih =>
      intro i iss ts as h1 h2
      simp only [reconAttrs]
      cases ts.head? with
      | none => rfl
      | some t =>
        cases iss.head? with
        | none => rfl
        | some s =>
          simp only [Res.unwrap_some, Res.ok_bind]
          by_cases hij : i = j
          · have hc : rv.contains i = true := by rw [hij]; simpa using hj
            rw [if_pos hc, hij, hlk]
            rfl
          · by_cases hc : rv.contains i = true
            · rw [if_pos hc]
              cases m.lookup i with
              | none => rfl
              | some a => simp only [Res.unwrap_some, Res.ok_bind]; rw [ih (i + 1) _ _ _ (by omega) (by omega)]; rfl
            · rw [if_neg hc]
              cases as.head? with
              | none => rfl
              | some a => simp only [Res.unwrap_some, Res.ok_bind]; rw [ih (i + 1) _ _ _ (by omega) (by omega)]; rfl
  have hchk : checkLevel ct.length rv.length p1.y.length (some as) = .ok () := by
    unfold checkLevel
    rw [if_neg (by omega), if_neg (by omega), if_neg (by omega)]
    dsimp only
    rw [if_neg (by omega)]
  unfold reconStep
  rw [if_pos rfl, show (1 - 1 : Nat) = 0 from rfl, show (1 / 2 : Nat) = 0 from rfl, h, hr, hm, ha]
  simp only [Res.unwrap_some, Res.ok_bind, hchk]
  cases q.oddS[0]? with
  | none => rfl
  | some s =>
  cases k.oddR[0]? with
  | none => rfl
  | some R =>
  have h1 : issuerOdd e p1 q v 1 = .ok (v.rootS, v.rootIss) := by unfold issuerOdd; rw [if_pos rfl]
  simp only [Res.unwrap_some, Res.ok_bind, h1]
  cases q.oddT[0]? with
  | none => rfl
  | some ts =>
  simp only [Res.unwrap_some, Res.ok_bind]
  have hown : (∃ o, ownOdd e L p1 q v 1 = .ok o) ∨ ownOdd e L p1 q v 1 = .panic := by
    unfold ownOdd
    by_cases h1 : 1 = L
    · rw [if_pos h1]; exact Or.inl ⟨_, rfl⟩
    · rw [if_neg h1]
      cases q.oddVk[1 / 2]? with
      | none => exact Or.inr rfl
      | some r => exact Or.inl ⟨_, rfl⟩
  rcases hown with ⟨o, ho⟩ | ho
  · rw [ho, Res.ok_bind]
    unfold reconT
    rw [hp _ _ (ct.length - 1) 0 _ _ _ (by omega) (by omega)]
    rfl
  · rw [ho]; rfl

/-- **C98** A response without the element for the key of level 1 passes the checks on its lengths, and crashes the verifier (if there are
further levels and level 1 passes its checks). -/
theorem token_panics_no_vk (L : Nat) (hL : 2 ≤ L) (k : Comm G1 G2 GT) (q : Resp F G1 G2) (ch : F) (revealed : List (List Nat)) (ipk : G2)
    (p1 : Setup G1 G2) (p2 : Setup G2 G1) (hk : k.validate L = .ok ()) (hq : q.validate L = .ok ()) (ct : List GT) (rv : List Nat)
    (h : k.commsT[0]? = some ct) (hr : revealed[0]? = some rv)
    (hchk : checkLevel ct.length rv.length p1.y.length q.oddA[0]? = .ok ()) (hvk : q.oddVk = []) :
    reconstruct e L k q ch revealed ipk p1 p2 = .panic := by
  refine recon_panic_first e L (by omega) k q ch revealed ipk p1 p2 hk hq (fun v => ?_)
  have h1 : issuerOdd e p1 q v 1 = .ok (v.rootS, v.rootIss) := by unfold issuerOdd; rw [if_pos rfl]
  have h2 : ownOdd e L p1 q v 1 = .panic := by unfold ownOdd; rw [if_neg (by omega), hvk]; rfl
  unfold reconStep
  rw [if_pos rfl, show (1 - 1 : Nat) = 0 from rfl, show (1 / 2 : Nat) = 0 from rfl, h, hr]
  simp only [Res.unwrap_some, Res.ok_bind, hchk, h1, h2]
  cases q.oddS[0]? with
  | none => rfl
  | some s =>
  cases k.oddR[0]? with
  | none => rfl
  | some R =>
  cases q.oddT[0]? with
  | none => rfl
  | some ts =>
  cases q.oddA[0]? with
  | none => rfl
  | some as =>
  cases k.oddRev[0]? with
  | none => rfl
  | some m => rfl

end Tok
end Verif.Groth
