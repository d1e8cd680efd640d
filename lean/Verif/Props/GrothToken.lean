import Verif.Groth.Token
import Verif.Props.GrothChain
import Mathlib.Tactic.Module
import Mathlib.Tactic.LinearCombination
import Mathlib.Tactic.Linarith
/-!
# Attribute tokens: completeness (C95)
-/
set_option linter.unusedSectionVars false
set_option linter.unusedSimpArgs false
set_option linter.unusedVariables false
namespace Verif.Groth

/-! ## The values of one level in closed form -/

section Level
variable {F A B GT : Type} [Field F] [AddCommGroup A] [Module F A] [AddCommGroup B] [Module F B]
  [AddCommGroup GT] [Module F GT] [DecidableEq F] [DecidableEq A] [DecidableEq B] [DecidableEq GT]

/-- the commitments for attributes `j, j + 1, …`, `P j` being the term for the issuer's key -/
def lvlComT (gr inv : GT) (P : Nat → GT) (rv : List Nat) (r : LevelRnd F) : Nat → List A → List GT
  | _, [] => []
  | j, _ :: as => ((r.sig * r.t j) • gr + P j + (if rv.contains j = true then 0 else r.a j • inv)) :: lvlComT gr inv P rv r (j + 1) as

/-- the blindings of the hidden attributes -/
def lvlRA (rv : List Nat) (r : LevelRnd F) : Nat → List A → List F
  | _, [] => []
  | j, _ :: as => if rv.contains j = true then lvlRA rv r (j + 1) as else r.a j :: lvlRA rv r (j + 1) as

/-- the revealed attributes -/
def lvlRev (rv : List Nat) : Nat → List A → List (Nat × A)
  | _, [] => []
  | j, a :: as => if rv.contains j = true then (j, a) :: lvlRev rv (j + 1) as else lvlRev rv (j + 1) as

/-- the responses for the hidden attributes -/
def lvlRespA (ga : A) (c : F) (rv : List Nat) (r : LevelRnd F) : Nat → List A → List A
  | _, [] => []
  | j, a :: as => if rv.contains j = true then lvlRespA ga c rv r (j + 1) as
    else (r.a j • ga + c • a) :: lvlRespA ga c rv r (j + 1) as

/-- the blindings of `T` from attribute `j` on -/
def lvlRT (r : LevelRnd F) : Nat → List A → List F
  | _, [] => []
  | j, _ :: as => r.t j :: lvlRT r (j + 1) as

theorem commitAttrs_eq (gr inv : GT) (negY : List GT) (prev : Option F) (rv : List Nat) (r : LevelRnd F) (P : Nat → GT) :
    ∀ (as : List A) (j : Nat), (∀ k, k < as.length → ∀ x, addPrev prev negY (j + k) x = .ok (x + P (j + k))) →
      commitAttrs gr inv negY prev rv r j as =
        .ok (lvlComT gr inv P rv r j as, lvlRT r j as, lvlRA rv r j as, lvlRev rv j as)
  | [], j, _ => rfl
  | a :: as, j, h => by
    have h0 : ∀ x, addPrev prev negY j x = .ok (x + P j) := fun x => by simpa using h 0 (by simp) x
    have ih := commitAttrs_eq gr inv negY prev rv r P as (j + 1) (fun k hk x => by
      have := h (k + 1) (by simpa using hk) x
      rwa [show j + (k + 1) = j + 1 + k by omega] at this)
    simp only [commitAttrs, h0, Res.ok_bind, ih, lvlComT, lvlRT, lvlRA, lvlRev]
    by_cases hc : rv.contains j = true
    · simp only [if_pos hc, Res.pure_eq, add_zero]
    · simp only [if_neg hc, Res.pure_eq]

theorem lvlRT_length (r : LevelRnd F) : ∀ (as : List A) (j : Nat), (lvlRT r j as).length = as.length
  | [], j => rfl
  | a :: as, j => by simp [lvlRT, lvlRT_length r as (j + 1)]

theorem lvlComT_length (gr inv : GT) (P : Nat → GT) (rv : List Nat) (r : LevelRnd F) : ∀ (as : List A) (j : Nat),
    (lvlComT gr inv P rv r j as).length = as.length
  | [], j => rfl
  | a :: as, j => by simp [lvlComT, lvlComT_length gr inv P rv r as (j + 1)]

theorem lvl_count (rv : List Nat) (r : LevelRnd F) : ∀ (as : List A) (j : Nat),
    (lvlRA rv r j as).length + (lvlRev rv j as).length = as.length
  | [], j => rfl
  | a :: as, j => by
    have ih := lvl_count rv r as (j + 1)
    by_cases hc : rv.contains j = true
    · simp only [lvlRA, lvlRev, if_pos hc, List.length_cons]; omega
    · simp only [lvlRA, lvlRev, if_neg hc, List.length_cons]; omega

theorem lvlRespA_length (ga : A) (c : F) (rv : List Nat) (r : LevelRnd F) : ∀ (as : List A) (j : Nat),
    (lvlRespA ga c rv r j as).length = (lvlRA rv r j as).length
  | [], j => rfl
  | a :: as, j => by
    have ih := lvlRespA_length ga c rv r as (j + 1)
    by_cases hc : rv.contains j = true
    · simp only [lvlRespA, lvlRA, if_pos hc, ih]
    · simp only [lvlRespA, lvlRA, if_neg hc, ih, List.length_cons]

/-- the keys of the revealed attributes -/
theorem lvlRev_keys (rv : List Nat) : ∀ (as : List A) (j k : Nat),
    k ∈ (lvlRev rv j as).map Prod.fst ↔ k ∈ rv ∧ j ≤ k ∧ k < j + as.length
  | [], j, k => by simp only [lvlRev, List.map_nil, List.not_mem_nil, List.length_nil, false_iff]; omega
  | a :: as, j, k => by
    have ih := lvlRev_keys rv as (j + 1) k
    by_cases hc : rv.contains j = true
    · have hj : j ∈ rv := by simpa using hc
      simp only [lvlRev, if_pos hc, List.map_cons, List.mem_cons, ih, List.length_cons]
      constructor
      · rintro (rfl | ⟨h1, h2, h3⟩)
        · exact ⟨hj, by omega, by omega⟩
        · exact ⟨h1, by omega, by omega⟩
      · rintro ⟨h1, h2, h3⟩
        by_cases hk : k = j
        · exact Or.inl hk
        · exact Or.inr ⟨h1, by omega, by omega⟩
    · have hj : ¬ j ∈ rv := by simpa using hc
      simp only [lvlRev, if_neg hc, ih, List.length_cons]
      constructor
      · rintro ⟨h1, h2, h3⟩; exact ⟨h1, by omega, by omega⟩
      · rintro ⟨h1, h2, h3⟩
        have : k ≠ j := by rintro rfl; exact hj h1
        exact ⟨h1, by omega, by omega⟩

theorem lvlRev_lookup (rv : List Nat) : ∀ (as : List A) (j k : Nat) (a : A), as[k]? = some a → j + k ∈ rv →
    (lvlRev rv j as).lookup (j + k) = some a
  | [], j, k, a, h, _ => by simp at h
  | b :: as, j, 0, a, h, hm => by
    have hc : rv.contains j = true := by simpa using hm
    have : b = a := by simpa using h
    simp only [lvlRev, if_pos hc, Nat.add_zero, List.lookup_cons, beq_self_eq_true, this]
  | b :: as, j, k + 1, a, h, hm => by
    have ih := lvlRev_lookup rv as (j + 1) k a (by simpa using h) (by rwa [show j + 1 + k = j + (k + 1) by omega])
    rw [show j + 1 + k = j + (k + 1) by omega] at ih
    by_cases hc : rv.contains j = true
    · have hne : (j + (k + 1) == j) = false := by
        rw [beq_eq_false_iff_ne]; omega
      simp only [lvlRev, if_pos hc, List.lookup_cons, hne, ih]
    · simp only [lvlRev, if_neg hc, ih]

theorem respAttrs_eq (ga : A) (c : F) (rev : List (Nat × A)) (rv : List Nat) (r : LevelRnd F) (v : A) (tl : F) :
    ∀ (as : List A) (j : Nat) (ts : List A), ts.length = as.length + 1 →
      (∀ k, k < as.length → ((rev.map Prod.fst).contains (j + k) = rv.contains (j + k))) →
      respAttrs ga c rev j (as ++ [v]) ts (lvlRT r j as ++ [tl]) (lvlRA rv r j as) =
        .ok (List.zipWith (fun b t => b • ga + c • t) (lvlRT r j as ++ [tl]) ts, lvlRespA ga c rv r j as)
  | [], j, ts, hl, _ => by
    match ts, hl with
    | [t], _ => simp [respAttrs, lvlRT, lvlRA, lvlRespA]
  | a :: as, j, [], hl, _ => by simp at hl
  | a :: as, j, t :: ts, hl, h => by
    have ih := respAttrs_eq ga c rev rv r v tl as (j + 1) ts (by simpa using hl) (fun k hk => by
      have := h (k + 1) (by simpa using hk)
      rwa [show j + (k + 1) = j + 1 + k by omega] at this)
    have h0 : (rev.map Prod.fst).contains j = rv.contains j := by simpa only [Nat.add_zero] using h 0 (by simp)
    have hne : (as ++ [v]).isEmpty = false := by simp
    have hrt : lvlRT r j (a :: as) = r.t j :: lvlRT r (j + 1) as := rfl
    simp only [hrt, List.cons_append, respAttrs, List.head?_cons, Res.unwrap_some, Res.ok_bind, h0, hne, List.tail_cons]
    by_cases hc : rv.contains j = true
    · simp only [lvlRA, lvlRespA, hc, if_true, ih, Res.ok_bind, Res.pure_eq, List.zipWith_cons_cons]
      simp
    · have hc' : rv.contains j = false := by simpa using hc
      have hra : lvlRA rv r j (a :: as) = r.a j :: lvlRA rv r (j + 1) as := by simp only [lvlRA, if_neg hc]
      simp only [hra, lvlRespA, hc', Bool.false_eq_true, if_false, ih, Res.ok_bind, Res.pure_eq, List.zipWith_cons_cons,
        List.head?_cons, Res.unwrap_some, List.tail_cons]
      simp [ih]

variable (e : A →ₗ[F] B →ₗ[F] GT)

theorem reconAttrs_eq (R R' gb : B) (ga : A) (c : F) (rev : List (Nat × A)) (rv : List Nat) (r : LevelRnd F) (P : Nat → GT) (tl : F)
    (hR : R' = r.sig • R) :
    ∀ (as : List A) (j : Nat) (iss : List GT) (ts : List A), 
      (∀ (k : Nat) (a : A), as[k]? = some a → ∃ s t, iss[k]? = some s ∧ ts[k]? = some t ∧ s + c • (e t R' - e a gb) = P (j + k) ∧
        (rv.contains (j + k) = true → rev.lookup (j + k) = some a)) →
      reconAttrs e R' gb c rv rev as.length j iss (List.zipWith (fun b t => b • ga + c • t) (lvlRT r j as ++ [tl]) ts)
        (lvlRespA ga c rv r j as) = .ok (lvlComT (e ga R) (-(e ga gb)) P rv r j as)
  | [], j, iss, ts, _ => rfl
  | a :: as, j, iss, ts, h => by
    obtain ⟨s, t, hs, ht, heq, hlk⟩ := h 0 a (by simp)
    match iss, ts, hs, ht with
    | s' :: iss, t' :: ts, hs, ht =>
      obtain rfl : s' = s := by simpa using hs
      obtain rfl : t' = t := by simpa using ht
      have ih := reconAttrs_eq R R' gb ga c rev rv r P tl hR as (j + 1) iss ts (fun k a' ha => by
        obtain ⟨s1, t1, h1, h2, h3, h4⟩ := h (k + 1) a' (by simpa using ha)
        rw [show j + (k + 1) = j + 1 + k by omega] at h3 h4
        exact ⟨s1, t1, by simpa using h1, by simpa using h2, h3, h4⟩)
      have hrt : lvlRT r j (a :: as) = r.t j :: lvlRT r (j + 1) as := rfl
      simp only [Nat.add_zero] at heq hlk
      simp only [hrt, List.cons_append, List.zipWith_cons_cons, List.length_cons, reconAttrs, List.head?_cons, Res.unwrap_some,
        Res.ok_bind, List.tail_cons]
      by_cases hc : rv.contains j = true
      · simp only [if_pos hc, hlk hc, Res.unwrap_some, Res.ok_bind, lvlRespA, ih, Res.pure_eq, lvlComT]
        congr 2
        rw [← heq, hR]
        simp only [map_add, map_smul, LinearMap.add_apply, LinearMap.smul_apply, map_neg, LinearMap.neg_apply, map_sub]
        module
      · have hra : lvlRespA ga c rv r j (a :: as) = (r.a j • ga + c • a) :: lvlRespA ga c rv r (j + 1) as := by
          simp only [lvlRespA, if_neg hc]
        simp only [if_neg hc, hra, List.head?_cons, List.tail_cons, Res.unwrap_some, Res.ok_bind, ih, Res.pure_eq, lvlComT]
        congr 2
        rw [← heq, hR]
        simp only [map_add, map_smul, LinearMap.add_apply, LinearMap.smul_apply, map_neg, LinearMap.neg_apply, map_sub]
        module

/-! ## One level -/

/-- the term for the blinded key of the issuer in the commitment -/
def lvlPrev (p : Setup A B) (prev : Option F) (j : Nat) : GT :=
  match prev with
  | none => 0
  | some b => b • -(e (p.y.getD j 0) p.gb)

/-- what `commitLevel` returns -/
def lvlComm (p : Setup A B) (prev : Option F) (l : Link A B) (rv : List Nat) (r : LevelRnd F) : LevelComm F A GT :=
  ⟨(r.sig * r.s) • e p.ga l.signature.R + (match prev with | none => 0 | some b => b • -(e p.ga p.gb)),
    lvlComT (e p.ga l.signature.R) (-(e p.ga p.gb)) (lvlPrev e p prev) rv r 0 l.attributes.dropLast ++
      [(r.sig * r.t (l.attributes.length - 1)) • e p.ga l.signature.R + r.vk • -(e p.ga p.gb) +
        lvlPrev e p prev (l.attributes.length - 1)],
    lvlRT r 0 l.attributes.dropLast ++ [r.t (l.attributes.length - 1)], lvlRA rv r 0 l.attributes.dropLast,
    lvlRev rv 0 l.attributes.dropLast⟩

/-- the responses `resp_t` and `resp_a` of a level -/
def lvlRespT (p : Setup A B) (c : F) (l : Link A B) (r : LevelRnd F) : List A :=
  List.zipWith (fun b t => b • p.ga + c • t) (lvlRT r 0 l.attributes.dropLast ++ [r.t (l.attributes.length - 1)])
    (randomize l.signature r.sig).T

theorem addPrev_eq (p : Setup A B) (prev : Option F) (j : Nat) (hj : j < p.y.length) (x : GT) :
    addPrev prev (p.y.map (fun y => -(e y p.gb))) j x = .ok (x + lvlPrev e p prev j) := by
  cases prev with
  | none => simp [addPrev, lvlPrev]
  | some b =>
    have h1 : p.y.getD j 0 = p.y[j] := by simp [List.getD, hj]
    have h2 : (p.y.map (fun y => -(e y p.gb)))[j]? = some (-(e (p.y.getD j 0) p.gb)) := by
      rw [h1, List.getElem?_map, List.getElem?_eq_getElem hj]; rfl
    simp only [addPrev, h2, Res.unwrap_some, Res.ok_bind, Res.pure_eq, lvlPrev]

theorem dropLast_append {l : List A} {v : A} (h : l.getLast? = some v) : l = l.dropLast ++ [v] := by
  obtain ⟨hne, he⟩ := List.getLast?_eq_some_iff.mp h
  rw [he]; simp

theorem getLast_length {l : List A} {v : A} (h : l.getLast? = some v) : 1 ≤ l.length := by
  cases l with
  | nil => simp at h
  | cons a as => simp

theorem commitLevel_eq (p : Setup A B) (prev : Option F) (l : Link A B) (rv : List Nat) (r : LevelRnd F)
    (hn : 1 ≤ l.attributes.length) (hy : l.attributes.length ≤ p.y.length) (hrv : rv.length ≤ l.attributes.length) :
    commitLevel (e p.ga l.signature.R) (-(e p.ga p.gb)) (p.y.map (fun y => -(e y p.gb))) prev p.y l rv r =
      .ok (lvlComm e p prev l rv r) := by
  unfold commitLevel
  rw [if_neg (by omega), if_neg (by omega), if_neg (by omega),
    commitAttrs_eq _ _ _ _ _ _ (lvlPrev e p prev) l.attributes.dropLast 0 (fun k hk x => ?_)]
  · simp only [Res.ok_bind, addPrev_eq e p prev _ (show l.attributes.length - 1 < p.y.length by omega), Res.pure_eq, lvlComm]
    cases prev <;> rfl
  · rw [Nat.zero_add]
    apply addPrev_eq
    rw [List.length_dropLast] at hk
    omega

theorem respLevel_eq (p : Setup A B) (c : F) (prev : Option F) (l : Link A B) (rv : List Nat) (r : LevelRnd F)
    (hn : 1 ≤ l.attributes.length) (hT : l.signature.T.length = l.attributes.length) :
    respLevel p.ga c (randomize l.signature r.sig).T (lvlComm e p prev l rv r).rT (lvlComm e p prev l rv r).rA l
      (lvlComm e p prev l rv r).rev = .ok (lvlRespT p c l r, lvlRespA p.ga c rv r 0 l.attributes.dropLast) := by
  have hcount := lvl_count rv r l.attributes.dropLast 0
  have hdl : l.attributes.dropLast.length = l.attributes.length - 1 := List.length_dropLast
  obtain ⟨v, hv⟩ : ∃ v, l.attributes.getLast? = some v := by
    cases h : l.attributes.getLast? with
    | none => rw [List.getLast?_eq_none_iff] at h; rw [h] at hn; simp at hn
    | some v => exact ⟨v, rfl⟩
  unfold respLevel
  rw [if_neg (by show ¬ _ < (lvlRev rv 0 l.attributes.dropLast).length + 1; omega)]
  have hchk : checkBlindings (lvlComm e p prev l rv r).rT (lvlComm e p prev l rv r).rA l
      (l.attributes.length - (lvlComm e p prev l rv r).rev.length - 1) = .ok () := by
    unfold checkBlindings
    rw [if_neg, if_neg, if_neg]
    · show ¬ (lvlRA rv r 0 l.attributes.dropLast).length ≠ l.attributes.length - (lvlRev rv 0 l.attributes.dropLast).length - 1
      omega
    · omega
    · show ¬ (lvlRT r 0 l.attributes.dropLast ++ [r.t (l.attributes.length - 1)]).length ≠ _
      rw [List.length_append, lvlRT_length, List.length_singleton]; omega
  rw [hchk, Res.ok_bind]
  have key := respAttrs_eq p.ga c (lvlRev rv 0 l.attributes.dropLast) rv r v (r.t (l.attributes.length - 1)) l.attributes.dropLast 0
    (randomize l.signature r.sig).T (by simp only [randomize, List.length_map]; omega) (fun k hk => ?_)
  · rw [← dropLast_append hv] at key
    exact key
  · rw [Nat.zero_add, Bool.eq_iff_iff, List.contains_iff_mem, List.contains_iff_mem, lvlRev_keys]
    constructor
    · exact fun h => h.1
    · exact fun h => ⟨h, by omega, by omega⟩

/-- how the reconstruction represents the key of the issuer: the term for `ga` and those for the `y` -/
def IssuerTerms (p : Setup A B) (prev : Option F) (c : F) (vk : B) (g : GT) (iss : List GT) : Prop :=
  match prev with
  | none => g = e p.ga (-c • vk) ∧ iss = p.y.map (fun y => e y (-c • vk))
  | some b => g = e (-p.ga) (b • p.gb + c • vk) ∧ iss = p.y.map (fun y => e (-y) (b • p.gb + c • vk))

theorem issuer_eq {p : Setup A B} {prev : Option F} {c : F} {vk : B} {g : GT} {iss : List GT} (h : IssuerTerms e p prev c vk g iss)
    (j : Nat) (y : A) (hy : p.y[j]? = some y) :
    ∃ s, iss[j]? = some s ∧ s + c • e y vk = lvlPrev e p prev j := by
  have hd : p.y.getD j 0 = y := by simp [List.getD, hy]
  cases prev with
  | none =>
    obtain ⟨-, rfl⟩ := h
    refine ⟨_, by rw [List.getElem?_map, hy]; rfl, ?_⟩
    simp only [lvlPrev, map_smul, LinearMap.smul_apply, map_neg]
    module
  | some b =>
    obtain ⟨-, rfl⟩ := h
    refine ⟨_, by rw [List.getElem?_map, hy]; rfl, ?_⟩
    simp only [lvlPrev, hd, map_add, map_smul, LinearMap.smul_apply, map_neg, LinearMap.neg_apply, LinearMap.add_apply]
    module

/-- One level: the reconstruction gives back what was committed to. -/
theorem recon_level (p : Setup A B) (c : F) (prev : Option F) (l : Link A B) (rv : List Nat) (r : LevelRnd F) (own : A) (vk : B)
    (hσ : r.sig ≠ 0) (hv : LinkValid e l own vk p) (hT : l.signature.T.length = l.attributes.length)
    (hrv : rv.length + 1 ≤ l.attributes.length) (g : GT) (iss : List GT) (hi : IssuerTerms e p prev c vk g iss) (y0 : A)
    (hy0 : p.y.head? = some y0) (ownT : GT) (ho : ownT = -(e (r.vk • p.ga + c • own) p.gb)) :
    checkLevel (lvlComm e p prev l rv r).comT.length rv.length p.y.length (some (lvlRespA p.ga c rv r 0 l.attributes.dropLast)) =
      .ok () ∧
    e (r.s • p.ga + c • (randomize l.signature r.sig).S) (randomize l.signature r.sig).R + (g + e y0 (-c • p.gb)) =
      (lvlComm e p prev l rv r).comS ∧
    reconT e (randomize l.signature r.sig).R p.gb c (lvlComm e p prev l rv r).comT.length rv (lvlComm e p prev l rv r).rev iss ownT
      (lvlRespT p c l r) (lvlRespA p.ga c rv r 0 l.attributes.dropLast) = .ok (lvlComm e p prev l rv r).comT := by
  have hn := getLast_length hv.delegatee
  have hdl : l.attributes.dropLast.length = l.attributes.length - 1 := List.length_dropLast
  have hlen : (lvlComm e p prev l rv r).comT.length = l.attributes.length := by
    show (lvlComT _ _ _ _ _ _ _ ++ [_]).length = _
    rw [List.length_append, lvlComT_length, List.length_singleton]; omega
  have hval := valid_randomize e r.sig hσ hv.signature
  have hcount := lvl_count rv r l.attributes.dropLast 0
  have hra := lvlRespA_length p.ga c rv r l.attributes.dropLast 0
  rw [hlen]
  refine ⟨?_, ?_, ?_⟩
  · unfold checkLevel
    rw [if_neg (by omega), if_neg (by have := hv.count; omega), if_neg (by omega)]
    dsimp only
    rw [if_neg]
    -- revealed indices out of range only make the bound larger
    have : (lvlRev rv 0 l.attributes.dropLast).length ≤ rv.length := by
      have hnd : ((lvlRev rv 0 l.attributes.dropLast).map Prod.fst).Nodup := by
        clear hra hcount hdl
        generalize l.attributes.dropLast = as
        suffices ∀ (as : List A) (j : Nat), ((lvlRev rv j as).map Prod.fst).Nodup from this as 0
        intro as
        induction as with
        | nil => intro j; simp [lvlRev]
        | cons a as ih =>
          intro j
          by_cases hc : rv.contains j = true
          · simp only [lvlRev, if_pos hc, List.map_cons, List.nodup_cons]
            refine ⟨fun hm => ?_, ih _⟩
            obtain ⟨-, h, -⟩ := (lvlRev_keys rv as (j + 1) j).1 hm
            omega
          · simp only [lvlRev, if_neg hc]; exact ih _
      have hsub : (lvlRev rv 0 l.attributes.dropLast).map Prod.fst ⊆ rv := fun k hk => ((lvlRev_keys rv _ 0 k).1 hk).1
      have := (hnd.subperm hsub).length_le
      rwa [List.length_map] at this
    omega
  · obtain ⟨y0', h0, heq⟩ := hval.first
    obtain rfl : y0' = y0 := by rw [List.head?_eq_getElem?, h0] at hy0; simpa using hy0
    have hS : e (r.s • p.ga) (randomize l.signature r.sig).R = (r.sig * r.s) • e p.ga l.signature.R := by
      simp only [randomize, map_smul, LinearMap.smul_apply]; module
    rw [map_add, LinearMap.add_apply, hS, map_smul, LinearMap.smul_apply, heq]
    cases prev with
    | none =>
      obtain ⟨rfl, -⟩ := hi
      simp only [lvlComm, map_smul, LinearMap.smul_apply, map_neg, LinearMap.neg_apply]
      module
    | some b =>
      obtain ⟨rfl, -⟩ := hi
      simp only [lvlComm, map_smul, LinearMap.smul_apply, map_neg, LinearMap.neg_apply, map_add, LinearMap.add_apply]
      module
  · have hat := dropLast_append hv.delegatee
    have hTl : (randomize l.signature r.sig).T.length = l.attributes.length := by simp only [randomize, List.length_map]; omega
    have key := reconAttrs_eq e l.signature.R (randomize l.signature r.sig).R p.gb p.ga c (lvlRev rv 0 l.attributes.dropLast) rv r
      (lvlPrev e p prev) (r.t (l.attributes.length - 1)) rfl l.attributes.dropLast 0 iss (randomize l.signature r.sig).T
      (fun k a ha => ?_)
    · rw [hdl] at key
      have hlast : l.attributes[l.attributes.length - 1]? = some own := by
        rw [← List.getLast?_eq_getElem?]; exact hv.delegatee
      obtain ⟨y, t, hy, ht, heq⟩ := hval.each _ own hlast
      obtain ⟨s, hs, hsP⟩ := issuer_eq e hi _ y hy
      have hts : (lvlRespT p c l r)[l.attributes.length - 1]? = some (r.t (l.attributes.length - 1) • p.ga + c • t) := by
        unfold lvlRespT
        rw [List.getElem?_zipWith, ht, List.getElem?_append_right (by rw [lvlRT_length]; omega), lvlRT_length, hdl, Nat.sub_self]
        rfl
      unfold reconT
      show (reconAttrs e (randomize l.signature r.sig).R p.gb c rv (lvlRev rv 0 l.attributes.dropLast) (l.attributes.length - 1) 0 iss
        (List.zipWith (fun b t => b • p.ga + c • t) (lvlRT r 0 l.attributes.dropLast ++ [r.t (l.attributes.length - 1)])
          (randomize l.signature r.sig).T) (lvlRespA p.ga c rv r 0 l.attributes.dropLast) >>= _) = _
      rw [key, Res.ok_bind, hts, Res.unwrap_some, Res.ok_bind, hs, Res.unwrap_some, Res.ok_bind, Res.pure_eq]
      simp only [lvlComm]
      congr 3
      have hS : e (r.t (l.attributes.length - 1) • p.ga) (randomize l.signature r.sig).R =
          (r.sig * r.t (l.attributes.length - 1)) • e p.ga l.signature.R := by
        simp only [randomize, map_smul, LinearMap.smul_apply]; module
      rw [map_add, LinearMap.add_apply, hS, map_smul, LinearMap.smul_apply, heq, ← hsP, ho]
      simp only [map_smul, LinearMap.smul_apply, map_neg, LinearMap.neg_apply, map_add, LinearMap.add_apply]
      module
    · have hk : k < l.attributes.dropLast.length := (List.getElem?_eq_some_iff.mp ha).1
      have ha' : l.attributes[k]? = some a := by
        rw [hat, List.getElem?_append_left hk]; exact ha
      obtain ⟨y, t, hy, ht, heq⟩ := hval.each k a ha'
      obtain ⟨s, hs, hsP⟩ := issuer_eq e hi k y hy
      refine ⟨s, t, hs, ht, ?_, fun hc => ?_⟩
      · rw [heq, ← (show lvlPrev e p prev k = lvlPrev e p prev (0 + k) by rw [Nat.zero_add]), ← hsP]
        module
      · exact lvlRev_lookup rv _ 0 k a ha (by simpa using hc)

end Level

/-! ## Loops over the levels -/

/-- the odd levels up to `k`, in order -/
def oddsOf (k : Nat) : List Nat := (List.range ((k + 1) / 2)).map (fun j => 2 * j + 1)
/-- the even levels up to `k`, from 2 on -/
def evensOf (k : Nat) : List Nat := (List.range (k / 2)).map (fun j => 2 * j + 2)
/-- the levels up to `k`, from 1 on -/
def levelsOf (k : Nat) : List Nat := (List.range k).map (fun j => j + 1)

theorem oddsOf_succ_odd (k : Nat) (h : (k + 1) % 2 = 1) : oddsOf (k + 1) = oddsOf k ++ [k + 1] ∧ evensOf (k + 1) = evensOf k := by
  unfold oddsOf evensOf
  rw [show (k + 1 + 1) / 2 = (k + 1) / 2 + 1 by omega, List.range_succ, List.map_append, show (k + 1) / 2 = k / 2 by omega]
  refine ⟨?_, rfl⟩
  simp; omega

theorem evensOf_succ_even (k : Nat) (h : (k + 1) % 2 = 0) : oddsOf (k + 1) = oddsOf k ∧ evensOf (k + 1) = evensOf k ++ [k + 1] := by
  unfold oddsOf evensOf
  rw [show (k + 1 + 1) / 2 = (k + 1) / 2 by omega, show (k + 1) / 2 = k / 2 + 1 by omega, List.range_succ, List.map_append]
  refine ⟨rfl, ?_⟩
  simp; omega

theorem levelsOf_succ (k : Nat) : levelsOf (k + 1) = levelsOf k ++ [k + 1] := by
  simp [levelsOf, List.range_succ]

theorem oddsOf_get {α : Type} (f : Nat → α) (L i : Nat) (h : i % 2 = 1) (hi : i ≤ L) : ((oddsOf L).map f)[i / 2]? = some (f i) := by
  unfold oddsOf
  rw [List.map_map, List.getElem?_map, List.getElem?_range (by omega)]
  simp only [Option.map_some, Function.comp]
  rw [show 2 * (i / 2) + 1 = i by omega]

theorem evensOf_get {α : Type} (f : Nat → α) (L i : Nat) (h : i % 2 = 0) (h1 : 1 ≤ i) (hi : i ≤ L) :
    ((evensOf L).map f)[i / 2 - 1]? = some (f i) := by
  unfold evensOf
  rw [List.map_map, List.getElem?_map, List.getElem?_range (by omega)]
  simp only [Option.map_some, Function.comp]
  rw [show 2 * (i / 2 - 1) + 2 = i by omega]

theorem levelsOf_get {α : Type} (f : Nat → α) (L i : Nat) (h1 : 1 ≤ i) (hi : i ≤ L) : ((levelsOf L).map f)[i - 1]? = some (f i) := by
  unfold levelsOf
  rw [List.map_map, List.getElem?_map, List.getElem?_range (by omega)]
  simp only [Option.map_some, Function.comp]
  rw [show i - 1 + 1 = i by omega]

theorem oddsOf_length (k : Nat) : (oddsOf k).length = (k + 1) / 2 := by simp [oddsOf]
theorem evensOf_length (k : Nat) : (evensOf k).length = k / 2 := by simp [evensOf]
theorem levelsOf_length (k : Nat) : (levelsOf k).length = k := by simp [levelsOf]

/-- a loop whose state after level `k` is known -/
theorem forLevels_eq {σ : Type} (step : σ → Nat → Res Error σ) (S : Nat → σ) (L : Nat)
    (h : ∀ k, k < L → step (S k) (k + 1) = .ok (S (k + 1))) : ∀ n, n ≤ L → forLevels step n (L - n + 1) (S (L - n)) = .ok (S L)
  | 0, _ => rfl
  | n + 1, hn => by
    have ih := forLevels_eq step S L h n (by omega)
    rw [show L - n = L - (n + 1) + 1 by omega] at ih
    simp only [forLevels]
    rw [h _ (by omega), Res.ok_bind, ih]

theorem forLevels_ok {σ : Type} (step : σ → Nat → Res Error σ) (S : Nat → σ) (L : Nat)
    (h : ∀ k, k < L → step (S k) (k + 1) = .ok (S (k + 1))) : forLevels step L 1 (S 0) = .ok (S L) := by
  have := forLevels_eq step S L h L (le_refl _)
  rwa [Nat.sub_self] at this

/-- what a pushing loop returns -/
theorem pushLevels_ok_iff {τ : Type} (step : Nat → Res Error τ) : ∀ (n i : Nat) (l : List τ),
    pushLevels step n i = .ok l ↔ l.length = n ∧ ∀ (k : Nat) (x : τ), l[k]? = some x → step (i + k) = .ok x
  | 0, i, l => by
    simp only [pushLevels, Res.ok.injEq]
    constructor
    · rintro rfl; simp
    · rintro ⟨h, -⟩; exact (List.length_eq_zero_iff.mp h).symm
  | n + 1, i, l => by
    simp only [pushLevels, Res.bind_eq_ok, Res.pure_eq, Res.ok.injEq]
    constructor
    · rintro ⟨x, hx, rest, hr, rfl⟩
      obtain ⟨h1, h2⟩ := (pushLevels_ok_iff step n (i + 1) rest).1 hr
      refine ⟨by simp [h1], fun k y hy => ?_⟩
      cases k with
      | zero => have : x = y := by simpa using hy
                rw [← this]; exact hx
      | succ k =>
        rw [show i + (k + 1) = i + 1 + k by omega]
        exact h2 k y (by simpa using hy)
    · rintro ⟨h1, h2⟩
      cases l with
      | nil => simp at h1
      | cons x rest =>
        refine ⟨x, h2 0 x (by simp), rest, (pushLevels_ok_iff step n (i + 1) rest).2 ⟨by simpa using h1, fun k y hy => ?_⟩, rfl⟩
        rw [show i + 1 + k = i + (k + 1) by omega]
        exact h2 (k + 1) y (by simpa using hy)

theorem pushLevels_map {τ : Type} (step : Nat → Res Error τ) (f : Nat → τ) (L : Nat) (h : ∀ i, 1 ≤ i → i ≤ L → step i = .ok (f i)) :
    pushLevels step L 1 = .ok ((levelsOf L).map f) := by
  refine (pushLevels_ok_iff step L 1 _).2 ⟨by simp [levelsOf_length], fun k x hx => ?_⟩
  have hk : k < L := by
    have := (List.getElem?_eq_some_iff.mp hx).1
    simpa [levelsOf_length] using this
  have := levelsOf_get f L (k + 1) (by omega) (by omega)
  rw [Nat.add_sub_cancel] at this
  rw [this] at hx
  rw [h _ (by omega) (by omega), show 1 + k = k + 1 by omega]
  congr 1; simpa using hx

/-! ## Tokens for valid chains -/

section Tok
variable {F G1 G2 GT : Type} [Field F] [AddCommGroup G1] [Module F G1] [AddCommGroup G2] [Module F G2]
  [AddCommGroup GT] [Module F GT] [DecidableEq F] [DecidableEq G1] [DecidableEq G2] [DecidableEq GT]
variable (e : G1 →ₗ[F] G2 →ₗ[F] GT)

/-- What an honest holder of a chain has: a valid chain from the root's key `ipk`, whose signatures have one component for each attribute
and whose last key is the one of `sk` (over the shared generators of the two schemes); and the attributes to reveal leave the last
one, the key, out (by number; indices that are not there are ignored). -/
structure Presentable (c : Chain G1 G2) (ipk : G2) (evenVks : List G2) (oddVks : List G1) (sk : F) (p1 : Setup G1 G2)
    (p2 : Setup G2 G1) (revealed : List (List Nat)) : Prop where
  valid : ChainValid e c (ipk :: evenVks) oddVks p1 p2
  gens : p1.ga = p2.gb ∧ p2.ga = p1.gb
  params : p2.y ≠ []
  oddT : ∀ l ∈ c.odd, l.signature.T.length = l.attributes.length
  evenT : ∀ l ∈ c.even, l.signature.T.length = l.attributes.length
  keyOdd : c.size % 2 = 1 → oddVks.getLast? = some (keygen p2 sk).2
  keyEven : c.size % 2 = 0 → evenVks.getLast? = some (keygen p1 sk).2
  sets : revealed.length = c.size
  revOdd : ∀ i rv l, i % 2 = 1 → revealed[i - 1]? = some rv → c.odd[i / 2]? = some l → rv.length < l.attributes.length
  revEven : ∀ i rv l, i % 2 = 0 → 1 ≤ i → revealed[i - 1]? = some rv → c.even[i / 2 - 1]? = some l → rv.length < l.attributes.length

/-- the link of level `i` -/
def oddLink (c : Chain G1 G2) (i : Nat) : Link G1 G2 := c.odd.getD (i / 2) ⟨0, [], ⟨0, 0, []⟩⟩
def evenLink (c : Chain G1 G2) (i : Nat) : Link G2 G1 := c.even.getD (i / 2 - 1) ⟨0, [], ⟨0, 0, []⟩⟩

/-- the blinding of the key of the issuer of level `i` -/
def prevOf (rnd : Nat → LevelRnd F) (i : Nat) : Option F := if i = 1 then none else some (rnd (i - 1)).vk

/-- the commitment values of level `i` -/
def oddComm (c : Chain G1 G2) (p1 : Setup G1 G2) (revealed : List (List Nat)) (rnd : Nat → LevelRnd F) (i : Nat) : LevelComm F G1 GT :=
  lvlComm e p1 (prevOf rnd i) (oddLink c i) (revealed.getD (i - 1) []) (rnd i)
def evenComm (c : Chain G1 G2) (p2 : Setup G2 G1) (revealed : List (List Nat)) (rnd : Nat → LevelRnd F) (i : Nat) : LevelComm F G2 GT :=
  lvlComm e.flip p2 (prevOf rnd i) (evenLink c i) (revealed.getD (i - 1) []) (rnd i)

/-- the state of the commitment loop after level `k` -/
def commitAt (c : Chain G1 G2) (p1 : Setup G1 G2) (p2 : Setup G2 G1) (revealed : List (List Nat)) (rnd : Nat → LevelRnd F) (k : Nat) :
    CommitState F G1 G2 GT :=
  ⟨⟨(oddsOf k).map (fun i => randomize (oddLink c i).signature (rnd i).sig), (evensOf k).map (fun i => randomize (evenLink c i).signature (rnd i).sig),
    (levelsOf k).map (fun i => (rnd i).vk), (levelsOf k).map (fun i => (rnd i).s),
    (levelsOf k).map (fun i => if i % 2 = 1 then (oddComm e c p1 revealed rnd i).rT else (evenComm e c p2 revealed rnd i).rT),
    (levelsOf k).map (fun i => if i % 2 = 1 then (oddComm e c p1 revealed rnd i).rA else (evenComm e c p2 revealed rnd i).rA)⟩,
   (levelsOf k).map (fun i => if i % 2 = 1 then (oddComm e c p1 revealed rnd i).comS else (evenComm e c p2 revealed rnd i).comS),
   (levelsOf k).map (fun i => if i % 2 = 1 then (oddComm e c p1 revealed rnd i).comT else (evenComm e c p2 revealed rnd i).comT),
   (oddsOf k).map (fun i => (oddComm e c p1 revealed rnd i).rev), (evensOf k).map (fun i => (evenComm e c p2 revealed rnd i).rev)⟩

/-- the commitment -/
def commOf (c : Chain G1 G2) (p1 : Setup G1 G2) (p2 : Setup G2 G1) (revealed : List (List Nat)) (rnd : Nat → LevelRnd F) : Comm G1 G2 GT :=
  ⟨(oddsOf c.size).map (fun i => (randomize (oddLink c i).signature (rnd i).sig).R),
   (evensOf c.size).map (fun i => (randomize (evenLink c i).signature (rnd i).sig).R),
   (commitAt e c p1 p2 revealed rnd c.size).commsS, (commitAt e c p1 p2 revealed rnd c.size).commsT,
   (commitAt e c p1 p2 revealed rnd c.size).oddRev, (commitAt e c p1 p2 revealed rnd c.size).evenRev⟩

variable {e} {c : Chain G1 G2} {ipk : G2} {ev : List G2} {od : List G1} {sk : F} {p1 : Setup G1 G2} {p2 : Setup G2 G1}
  {revealed : List (List Nat)}

theorem pres_odd (h : Presentable e c ipk ev od sk p1 p2 revealed) {i : Nat} (h1 : 1 ≤ i) (hi : i ≤ c.size) (ho : i % 2 = 1) :
    c.odd[i / 2]? = some (oddLink c i) ∧ revealed[i - 1]? = some (revealed.getD (i - 1) []) ∧
    (oddLink c i).signature.T.length = (oddLink c i).attributes.length ∧
    (revealed.getD (i - 1) []).length + 1 ≤ (oddLink c i).attributes.length ∧
    ∃ d k, od[i / 2]? = some d ∧ (ipk :: ev)[i / 2]? = some k ∧ LinkValid e (oddLink c i) d k p1 := by
  obtain ⟨l, d, k, g1, -, g3, g4, g5⟩ := (h.valid.links i h1 hi).1 ho
  have hl : oddLink c i = l := by simp [oddLink, List.getD, g1]
  have hr : revealed[i - 1]? = some (revealed.getD (i - 1) []) := by
    have hlt : i - 1 < revealed.length := by have := h.sets; omega
    simp [List.getD, hlt]
  rw [hl]
  exact ⟨g1, hr, h.oddT l (List.mem_of_getElem? g1), h.revOdd i _ l ho hr g1, d, k, g3, g4, g5⟩

theorem pres_even (h : Presentable e c ipk ev od sk p1 p2 revealed) {i : Nat} (h1 : 1 ≤ i) (hi : i ≤ c.size) (ho : i % 2 = 0) :
    c.even[i / 2 - 1]? = some (evenLink c i) ∧ revealed[i - 1]? = some (revealed.getD (i - 1) []) ∧
    (evenLink c i).signature.T.length = (evenLink c i).attributes.length ∧
    (revealed.getD (i - 1) []).length + 1 ≤ (evenLink c i).attributes.length ∧
    ∃ d k, ev[i / 2 - 1]? = some d ∧ od[i / 2 - 1]? = some k ∧ LinkValid e.flip (evenLink c i) d k p2 := by
  obtain ⟨l, d, k, g1, -, g3, g4, g5⟩ := (h.valid.links i h1 hi).2 ho
  have hl : evenLink c i = l := by simp [evenLink, List.getD, g1]
  have hr : revealed[i - 1]? = some (revealed.getD (i - 1) []) := by
    have hlt : i - 1 < revealed.length := by have := h.sets; omega
    simp [List.getD, hlt]
  rw [hl]
  refine ⟨g1, hr, h.evenT l (List.mem_of_getElem? g1), h.revEven i _ l ho h1 hr g1, d, k, ?_, g4, g5⟩
  rw [show i / 2 = i / 2 - 1 + 1 by omega, List.getElem?_cons_succ] at g3
  exact g3

theorem preChain_eq (h : Presentable e c ipk ev od sk p1 p2 revealed) :
    preChain e c p1 p2 = .ok ((levelsOf c.size).map (fun i =>
      if i % 2 = 1 then e p1.ga (oddLink c i).signature.R else e (evenLink c i).signature.R p2.ga)) := by
  refine pushLevels_map _ _ _ (fun i h1 hi => ?_)
  unfold preChainStep
  rcases Nat.mod_two_eq_zero_or_one i with ho | ho
  · obtain ⟨g1, -⟩ := pres_even h h1 hi ho
    rw [if_neg (by omega), if_neg (by omega)]
    simp only [Chain.getEven, g1, Res.ok_bind, Res.pure_eq]
  · obtain ⟨g1, -⟩ := pres_odd h h1 hi ho
    rw [if_pos ho, if_pos ho]
    simp only [Chain.getOdd, g1, Res.ok_bind, Res.pure_eq]

theorem prevBlinding_eq (rnd : Nat → LevelRnd F) (k : Nat) :
    prevBlinding (commitAt e c p1 p2 revealed rnd k).tok (k + 1) = .ok (prevOf rnd (k + 1)) := by
  unfold prevBlinding prevOf
  by_cases hk : k + 1 = 1
  · rw [if_pos hk, if_pos hk]
  · rw [if_neg hk, if_neg hk]
    have : (commitAt e c p1 p2 revealed rnd k).tok.bVk[k + 1 - 2]? = some (rnd (k + 1 - 1)).vk := by
      have := levelsOf_get (fun i => (rnd i).vk) k k (by omega) (le_refl _)
      rwa [show k + 1 - 2 = k - 1 by omega, Nat.add_sub_cancel]
    rw [this]; rfl

theorem commitStep_eq (h : Presentable e c ipk ev od sk p1 p2 revealed) (rnd : Nat → LevelRnd F) (k : Nat) (hk : k < c.size) :
    commitStep c p1 p2 revealed (preSetup e p1 p2) ((levelsOf c.size).map (fun i =>
      if i % 2 = 1 then e p1.ga (oddLink c i).signature.R else e (evenLink c i).signature.R p2.ga)) rnd
      (commitAt e c p1 p2 revealed rnd k) (k + 1) = .ok (commitAt e c p1 p2 revealed rnd (k + 1)) := by
  unfold commitStep
  have hgr := levelsOf_get (fun i => if i % 2 = 1 then e p1.ga (oddLink c i).signature.R else e (evenLink c i).signature.R p2.ga)
    c.size (k + 1) (by omega) (by omega)
  rcases Nat.mod_two_eq_zero_or_one (k + 1) with ho | ho
  · obtain ⟨g1, g2, g3, g4, d, kk, g5, g6, g7⟩ := pres_even h (show 1 ≤ k + 1 by omega) (by omega) ho
    obtain ⟨o1, o2⟩ := evensOf_succ_even k ho
    rw [if_neg (by omega)] at hgr
    have hl : commitLevel (e (evenLink c (k + 1)).signature.R p2.ga) (preSetup e p1 p2).inv2 (preSetup e p1 p2).negY2
        (prevOf rnd (k + 1)) p2.y (evenLink c (k + 1)) (revealed.getD (k + 1 - 1) []) (rnd (k + 1)) =
        .ok (evenComm e c p2 revealed rnd (k + 1)) := by
      have := commitLevel_eq e.flip p2 (prevOf rnd (k + 1)) (evenLink c (k + 1)) (revealed.getD (k + 1 - 1) []) (rnd (k + 1)) (by omega)
        g7.count (by omega)
      simpa only [evenComm, LinearMap.flip_apply, map_neg, LinearMap.neg_apply] using this
    rw [if_neg (by omega)]
    simp only [Chain.getEven, g1, Res.ok_bind, hgr, Res.unwrap_some, prevBlinding_eq, g2, hl, Res.pure_eq]
    simp only [commitAt, o1, o2, levelsOf_succ, List.map_append, List.map_cons, List.map_nil, ho]
    rfl
  · obtain ⟨g1, g2, g3, g4, d, kk, g5, g6, g7⟩ := pres_odd h (show 1 ≤ k + 1 by omega) (by omega) ho
    obtain ⟨o1, o2⟩ := oddsOf_succ_odd k ho
    rw [if_pos ho] at hgr
    have hl : commitLevel (e p1.ga (oddLink c (k + 1)).signature.R) (preSetup e p1 p2).inv1 (preSetup e p1 p2).negY1
        (prevOf rnd (k + 1)) p1.y (oddLink c (k + 1)) (revealed.getD (k + 1 - 1) []) (rnd (k + 1)) =
        .ok (oddComm e c p1 revealed rnd (k + 1)) := by
      have := commitLevel_eq e p1 (prevOf rnd (k + 1)) (oddLink c (k + 1)) (revealed.getD (k + 1 - 1) []) (rnd (k + 1)) (by omega)
        g7.count (by omega)
      simpa only [oddComm, map_neg, LinearMap.neg_apply] using this
    rw [if_pos ho]
    simp only [Chain.getOdd, g1, Res.ok_bind, hgr, Res.unwrap_some, prevBlinding_eq, g2, hl, Res.pure_eq]
    simp only [commitAt, o1, o2, levelsOf_succ, List.map_append, List.map_cons, List.map_nil, ho]
    rfl

theorem commitment_eq (h : Presentable e c ipk ev od sk p1 p2 revealed) (rnd : Nat → LevelRnd F) :
    commitment e c p1 p2 Token.new revealed rnd =
      .ok ((commitAt e c p1 p2 revealed rnd c.size).tok, commOf e c p1 p2 revealed rnd) := by
  unfold commitment commitWith
  rw [preChain_eq h, Res.ok_bind, if_neg (by rw [h.sets]; simp)]
  have h0 : (⟨Token.new, [], [], [], []⟩ : CommitState F G1 G2 GT) = commitAt e c p1 p2 revealed rnd 0 := rfl
  rw [h0, forLevels_ok _ (commitAt e c p1 p2 revealed rnd) c.size (fun k hk => commitStep_eq h rnd k hk), Res.ok_bind, Res.pure_eq]
  simp only [commOf, commitAt, List.map_map]
  rfl

variable (e c ev od sk p1 p2 revealed)

/-- the response after level `k` -/
def respAt (rnd : Nat → LevelRnd F) (ch : F) (k : Nat) : Resp F G1 G2 :=
  ⟨if k = c.size then (rnd c.size).vk + ch * sk else 0,
   (oddsOf (min k (c.size - 1))).map (fun i => (rnd i).vk • p1.ga + ch • od.getD (i / 2) 0),
   (evensOf (min k (c.size - 1))).map (fun i => (rnd i).vk • p2.ga + ch • ev.getD (i / 2 - 1) 0),
   (oddsOf k).map (fun i => (rnd i).s • p1.ga + ch • (randomize (oddLink c i).signature (rnd i).sig).S),
   (evensOf k).map (fun i => (rnd i).s • p2.ga + ch • (randomize (evenLink c i).signature (rnd i).sig).S),
   (oddsOf k).map (fun i => lvlRespT p1 ch (oddLink c i) (rnd i)),
   (evensOf k).map (fun i => lvlRespT p2 ch (evenLink c i) (rnd i)),
   (oddsOf k).map (fun i => lvlRespA p1.ga ch (revealed.getD (i - 1) []) (rnd i) 0 (oddLink c i).attributes.dropLast),
   (evensOf k).map (fun i => lvlRespA p2.ga ch (revealed.getD (i - 1) []) (rnd i) 0 (evenLink c i).attributes.dropLast)⟩

variable {e c ev od sk p1 p2 revealed}

theorem commOf_validate (rnd : Nat → LevelRnd F) : (commOf e c p1 p2 revealed rnd).validate c.size = .ok () := by
  have hL : (oddsOf c.size).length + (evensOf c.size).length = c.size := by rw [oddsOf_length, evensOf_length]; omega
  have ho : ∀ s, checkOdd (oddsOf c.size).length c.size s = .ok () := by
    intro s
    rw [oddsOf_length]
    unfold checkOdd
    by_cases h : c.size % 2 = 1
    · rw [if_pos h, if_neg (by omega)]
    · rw [if_neg h, if_neg (by omega)]
  have he : ∀ s, checkEven (evensOf c.size).length c.size s = .ok () := by
    intro s
    rw [evensOf_length]
    unfold checkEven
    rw [if_neg (by omega)]
  unfold Comm.validate
  simp only [commOf, commitAt, List.length_map, levelsOf_length, hL, ho, he, ne_eq, not_true_eq_false, if_false, Res.ok_bind]

theorem respStep_eq (h : Presentable e c ipk ev od sk p1 p2 revealed) (rnd : Nat → LevelRnd F) (ch : F) (k : Nat) (hk : k < c.size) :
    respStep c p1 p2 (commitAt e c p1 p2 revealed rnd c.size).tok (commOf e c p1 p2 revealed rnd) sk ch ev od
      (respAt c ev od sk p1 p2 revealed rnd ch k) (k + 1) = .ok (respAt c ev od sk p1 p2 revealed rnd ch (k + 1)) := by
  have hbs : (commitAt e c p1 p2 revealed rnd c.size).tok.bS[k + 1 - 1]? = some (rnd (k + 1)).s :=
    levelsOf_get (fun i => (rnd i).s) c.size (k + 1) (by omega) (by omega)
  have hbv : (commitAt e c p1 p2 revealed rnd c.size).tok.bVk[k + 1 - 1]? = some (rnd (k + 1)).vk :=
    levelsOf_get (fun i => (rnd i).vk) c.size (k + 1) (by omega) (by omega)
  have hbt := levelsOf_get (fun i => if i % 2 = 1 then (oddComm e c p1 revealed rnd i).rT else (evenComm e c p2 revealed rnd i).rT)
    c.size (k + 1) (by omega) (by omega)
  have hba := levelsOf_get (fun i => if i % 2 = 1 then (oddComm e c p1 revealed rnd i).rA else (evenComm e c p2 revealed rnd i).rA)
    c.size (k + 1) (by omega) (by omega)
  unfold respStep
  rcases Nat.mod_two_eq_zero_or_one (k + 1) with ho | ho
  · obtain ⟨g1, g2, g3, g4, d, kk, g5, g6, g7⟩ := pres_even h (show 1 ≤ k + 1 by omega) (by omega) ho
    obtain ⟨o1, o2⟩ := evensOf_succ_even k ho
    simp only [ho] at hbt hba
    have hs : (commitAt e c p1 p2 revealed rnd c.size).tok.evenSigs[(k + 1) / 2 - 1]? =
        some (randomize (evenLink c (k + 1)).signature (rnd (k + 1)).sig) :=
      evensOf_get (fun i => randomize (evenLink c i).signature (rnd i).sig) c.size (k + 1) ho (by omega) (by omega)
    have hrv : (commOf e c p1 p2 revealed rnd).evenRev[(k + 1) / 2 - 1]? = some (evenComm e c p2 revealed rnd (k + 1)).rev :=
      evensOf_get (fun i => (evenComm e c p2 revealed rnd i).rev) c.size (k + 1) ho (by omega) (by omega)
    have hbt' : (commitAt e c p1 p2 revealed rnd c.size).tok.bT[k + 1 - 1]? = some (evenComm e c p2 revealed rnd (k + 1)).rT := hbt
    have hba' : (commitAt e c p1 p2 revealed rnd c.size).tok.bA[k + 1 - 1]? = some (evenComm e c p2 revealed rnd (k + 1)).rA := hba
    have hl := respLevel_eq e.flip p2 ch (prevOf rnd (k + 1)) (evenLink c (k + 1)) (revealed.getD (k + 1 - 1) []) (rnd (k + 1)) (by omega) g3
    have hkey : respKey p2.ga ch (rnd (k + 1)).vk sk ev[(k + 1) / 2 - 1]? (k + 1 == c.size)
        (respAt c ev od sk p1 p2 revealed rnd ch k).csk (respAt c ev od sk p1 p2 revealed rnd ch k).evenVk =
        .ok ((respAt c ev od sk p1 p2 revealed rnd ch (k + 1)).csk, (respAt c ev od sk p1 p2 revealed rnd ch (k + 1)).evenVk) := by
      unfold respKey
      by_cases hL : k + 1 = c.size
      · simp only [respAt, hL, beq_self_eq_true, if_true, min_eq_left (show k ≤ c.size - 1 by omega), min_eq_right (show c.size - 1 ≤ c.size by omega)]
        rw [show c.size - 1 = k by omega]
      · have hb : (k + 1 == c.size) = false := by rw [beq_eq_false_iff_ne]; exact hL
        have hd : ev.getD ((k + 1) / 2 - 1) 0 = d := by simp [List.getD, g5]
        rw [hb, g5]
        simp only [Bool.false_eq_true, if_false, Res.unwrap_some, Res.ok_bind, Res.pure_eq, respAt,
          if_neg (show ¬ k = c.size by omega), if_neg hL, min_eq_left (show k ≤ c.size - 1 by omega),
          min_eq_left (show k + 1 ≤ c.size - 1 by omega), o2, List.map_append, List.map_cons, List.map_nil, hd]
    have hodd : (respAt c ev od sk p1 p2 revealed rnd ch (k + 1)).oddVk = (respAt c ev od sk p1 p2 revealed rnd ch k).oddVk := by
      by_cases hL : k + 1 = c.size
      · simp only [respAt, hL, min_eq_left (show k ≤ c.size - 1 by omega), min_eq_right (show c.size - 1 ≤ c.size by omega)]
        rw [show c.size - 1 = k by omega]
      · simp only [respAt, min_eq_left (show k ≤ c.size - 1 by omega), min_eq_left (show k + 1 ≤ c.size - 1 by omega), o1]
    rw [if_neg (by omega)]
    simp only [Chain.getEven, g1, Res.ok_bind, hs, Res.unwrap_some, hbs, hbv, hrv, hbt', hba', hkey]
    unfold evenComm
    rw [hl, Res.ok_bind, Res.pure_eq, ← hodd]
    simp only [respAt, o1, o2, List.map_append, List.map_cons, List.map_nil]
  · obtain ⟨g1, g2, g3, g4, d, kk, g5, g6, g7⟩ := pres_odd h (show 1 ≤ k + 1 by omega) (by omega) ho
    obtain ⟨o1, o2⟩ := oddsOf_succ_odd k ho
    simp only [ho] at hbt hba
    have hs : (commitAt e c p1 p2 revealed rnd c.size).tok.oddSigs[(k + 1) / 2]? =
        some (randomize (oddLink c (k + 1)).signature (rnd (k + 1)).sig) :=
      oddsOf_get (fun i => randomize (oddLink c i).signature (rnd i).sig) c.size (k + 1) ho (by omega)
    have hrv : (commOf e c p1 p2 revealed rnd).oddRev[(k + 1) / 2]? = some (oddComm e c p1 revealed rnd (k + 1)).rev :=
      oddsOf_get (fun i => (oddComm e c p1 revealed rnd i).rev) c.size (k + 1) ho (by omega)
    have hbt' : (commitAt e c p1 p2 revealed rnd c.size).tok.bT[k + 1 - 1]? = some (oddComm e c p1 revealed rnd (k + 1)).rT := hbt
    have hba' : (commitAt e c p1 p2 revealed rnd c.size).tok.bA[k + 1 - 1]? = some (oddComm e c p1 revealed rnd (k + 1)).rA := hba
    have hl := respLevel_eq e p1 ch (prevOf rnd (k + 1)) (oddLink c (k + 1)) (revealed.getD (k + 1 - 1) []) (rnd (k + 1)) (by omega) g3
    have hkey : respKey p1.ga ch (rnd (k + 1)).vk sk od[(k + 1) / 2]? (k + 1 == c.size)
        (respAt c ev od sk p1 p2 revealed rnd ch k).csk (respAt c ev od sk p1 p2 revealed rnd ch k).oddVk =
        .ok ((respAt c ev od sk p1 p2 revealed rnd ch (k + 1)).csk, (respAt c ev od sk p1 p2 revealed rnd ch (k + 1)).oddVk) := by
      unfold respKey
      by_cases hL : k + 1 = c.size
      · simp only [respAt, hL, beq_self_eq_true, if_true, min_eq_left (show k ≤ c.size - 1 by omega), min_eq_right (show c.size - 1 ≤ c.size by omega)]
        rw [show c.size - 1 = k by omega]
      · have hb : (k + 1 == c.size) = false := by rw [beq_eq_false_iff_ne]; exact hL
        have hd : od.getD ((k + 1) / 2) 0 = d := by simp [List.getD, g5]
        rw [hb, g5]
        simp only [Bool.false_eq_true, if_false, Res.unwrap_some, Res.ok_bind, Res.pure_eq, respAt,
          if_neg (show ¬ k = c.size by omega), if_neg hL, min_eq_left (show k ≤ c.size - 1 by omega),
          min_eq_left (show k + 1 ≤ c.size - 1 by omega), o1, List.map_append, List.map_cons, List.map_nil, hd]
    have hev : (respAt c ev od sk p1 p2 revealed rnd ch (k + 1)).evenVk = (respAt c ev od sk p1 p2 revealed rnd ch k).evenVk := by
      by_cases hL : k + 1 = c.size
      · simp only [respAt, hL, min_eq_left (show k ≤ c.size - 1 by omega), min_eq_right (show c.size - 1 ≤ c.size by omega)]
        rw [show c.size - 1 = k by omega]
      · simp only [respAt, min_eq_left (show k ≤ c.size - 1 by omega), min_eq_left (show k + 1 ≤ c.size - 1 by omega), o2]
    rw [if_pos ho]
    simp only [Chain.getOdd, g1, Res.ok_bind, hs, Res.unwrap_some, hbs, hbv, hrv, hbt', hba', hkey]
    unfold oddComm
    rw [hl, Res.ok_bind, Res.pure_eq, ← hev]
    simp only [respAt, o1, o2, List.map_append, List.map_cons, List.map_nil]

theorem response_eq (h : Presentable e c ipk ev od sk p1 p2 revealed) (rnd : Nat → LevelRnd F) (ch : F) :
    response c p1 p2 (commitAt e c p1 p2 revealed rnd c.size).tok (commOf e c p1 p2 revealed rnd) sk ch ev od =
      .ok (respAt c ev od sk p1 p2 revealed rnd ch c.size) := by
  unfold response
  rw [commOf_validate, Res.ok_bind]
  have h0 : (⟨0, [], [], [], [], [], [], [], []⟩ : Resp F G1 G2) = respAt c ev od sk p1 p2 revealed rnd ch 0 := by
    have := h.valid.nonempty
    simp only [respAt, Nat.zero_min, oddsOf, evensOf]
    rw [if_neg (by omega)]
    rfl
  rw [h0]
  exact forLevels_ok _ (respAt c ev od sk p1 p2 revealed rnd ch) c.size (fun k hk => respStep_eq h rnd ch k hk)

theorem reconStep_eq (h : Presentable e c ipk ev od sk p1 p2 revealed) (rnd : Nat → LevelRnd F) (hσ : ∀ i, (rnd i).sig ≠ 0) (ch : F)
    (v : ReconVals GT) (hv : plainVals e p1 p2 ipk ch (respAt c ev od sk p1 p2 revealed rnd ch c.size).csk = .ok v)
    (i : Nat) (h1 : 1 ≤ i) (hi : i ≤ c.size) :
    reconStep e c.size (commOf e c p1 p2 revealed rnd) (respAt c ev od sk p1 p2 revealed rnd ch c.size) ch revealed p1 p2 v i =
      .ok (if i % 2 = 1 then (oddComm e c p1 revealed rnd i).comS else (evenComm e c p2 revealed rnd i).comS,
        if i % 2 = 1 then (oddComm e c p1 revealed rnd i).comT else (evenComm e c p2 revealed rnd i).comT) := by
  unfold plainVals at hv
  simp only [Res.bind_eq_ok, Res.pure_eq, Res.ok.injEq] at hv
  obtain ⟨y1, hy1, y2, hy2, rfl⟩ := hv
  have hy1' : p1.y.head? = some y1 := by cases hh : p1.y.head? with
    | none => rw [hh] at hy1; cases hy1
    | some y => rw [hh] at hy1; simpa using hy1
  have hy2' : p2.y.head? = some y2 := by cases hh : p2.y.head? with
    | none => rw [hh] at hy2; cases hy2
    | some y => rw [hh] at hy2; simpa using hy2
  have hct := levelsOf_get (fun i => if i % 2 = 1 then (oddComm e c p1 revealed rnd i).comT else (evenComm e c p2 revealed rnd i).comT)
    c.size i (by omega) (by omega)
  have hcsk : (respAt c ev od sk p1 p2 revealed rnd ch c.size).csk = (rnd c.size).vk + ch * sk := by simp [respAt]
  have hmin : min c.size (c.size - 1) = c.size - 1 := by omega
  unfold reconStep
  rcases Nat.mod_two_eq_zero_or_one i with ho | ho
  · obtain ⟨g1, g2, g3, g4, d, kk, g5, g6, g7⟩ := pres_even h h1 hi ho
    simp only [ho] at hct
    have hct' : (commOf e c p1 p2 revealed rnd).commsT[i - 1]? = some (evenComm e c p2 revealed rnd i).comT := hct
    have hA : (respAt c ev od sk p1 p2 revealed rnd ch c.size).evenA[i / 2 - 1]? = _ :=
      evensOf_get (fun i => lvlRespA p2.ga ch (revealed.getD (i - 1) []) (rnd i) 0 (evenLink c i).attributes.dropLast) c.size i ho h1 hi
    have hS : (respAt c ev od sk p1 p2 revealed rnd ch c.size).evenS[i / 2 - 1]? = _ :=
      evensOf_get (fun i => (rnd i).s • p2.ga + ch • (randomize (evenLink c i).signature (rnd i).sig).S) c.size i ho h1 hi
    have hT : (respAt c ev od sk p1 p2 revealed rnd ch c.size).evenT[i / 2 - 1]? = _ :=
      evensOf_get (fun i => lvlRespT p2 ch (evenLink c i) (rnd i)) c.size i ho h1 hi
    have hR : (commOf e c p1 p2 revealed rnd).evenR[i / 2 - 1]? = _ :=
      evensOf_get (fun i => (randomize (evenLink c i).signature (rnd i).sig).R) c.size i ho h1 hi
    have hrv : (commOf e c p1 p2 revealed rnd).evenRev[i / 2 - 1]? = some (evenComm e c p2 revealed rnd i).rev :=
      evensOf_get (fun i => (evenComm e c p2 revealed rnd i).rev) c.size i ho h1 hi
    have hprev : (respAt c ev od sk p1 p2 revealed rnd ch c.size).oddVk[i / 2 - 1]? = some ((rnd (i - 1)).vk • p2.gb + ch • kk) := by
      have := oddsOf_get (fun i => (rnd i).vk • p1.ga + ch • od.getD (i / 2) 0) (c.size - 1) (i - 1) (by omega) (by omega)
      have hd : od.getD ((i - 1) / 2) 0 = kk := by
        rw [show (i - 1) / 2 = i / 2 - 1 by omega]; simp [List.getD, g6]
      rw [show (i - 1) / 2 = i / 2 - 1 by omega] at this hd
      rw [h.gens.1, hd] at this
      simp only [respAt, hmin, h.gens.1]
      exact this
    have hpr : prevOf rnd i = some (rnd (i - 1)).vk := by unfold prevOf; rw [if_neg (by omega)]
    have hown : ∃ o, ownEven e c.size p2 (respAt c ev od sk p1 p2 revealed rnd ch c.size)
        ⟨e p1.ga (-ch • ipk) + e y1 (-ch • p1.gb), e y1 (-ch • p1.gb), e (-ch • p2.gb) y2, p1.y.map (fun y => e y (-ch • ipk)),
          e ((respAt c ev od sk p1 p2 revealed rnd ch c.size).csk • p1.ga) (-p1.gb),
          e ((respAt c ev od sk p1 p2 revealed rnd ch c.size).csk • -p2.gb) p2.ga⟩ i = .ok o ∧
        o = -(e.flip ((rnd i).vk • p2.ga + ch • d) p2.gb) := by
      unfold ownEven
      by_cases hL : i = c.size
      · rw [if_pos hL]
        refine ⟨_, rfl, ?_⟩
        have hd : d = sk • p2.ga := by
          have hk := h.keyEven (by omega)
          rw [List.getLast?_eq_getElem?] at hk
          have := h.valid.evens
          simp only [List.length_cons] at this
          rw [show ev.length - 1 = i / 2 - 1 by omega, g5] at hk
          simp only [keygen, Option.some.injEq] at hk
          rw [hk, h.gens.2]
        rw [hcsk, hd, hL]
        simp only [LinearMap.flip_apply, map_add, map_smul, LinearMap.smul_apply, map_neg, LinearMap.neg_apply, LinearMap.add_apply]
        module
      · rw [if_neg hL]
        have := evensOf_get (fun i => (rnd i).vk • p2.ga + ch • ev.getD (i / 2 - 1) 0) (c.size - 1) i ho h1 (by omega)
        have hd : ev.getD (i / 2 - 1) 0 = d := by simp [List.getD, g5]
        rw [hd] at this
        have hq : (respAt c ev od sk p1 p2 revealed rnd ch c.size).evenVk[i / 2 - 1]? = some ((rnd i).vk • p2.ga + ch • d) := by
          simp only [respAt, hmin]; exact this
        rw [hq]
        refine ⟨_, rfl, ?_⟩
        simp only [LinearMap.flip_apply, map_neg, LinearMap.neg_apply]
    obtain ⟨o, ho1, ho2⟩ := hown
    obtain ⟨r1, r2, r3⟩ := recon_level e.flip p2 ch (prevOf rnd i) (evenLink c i) (revealed.getD (i - 1) []) (rnd i) d kk (hσ i) g7 g3 g4
      (e.flip (-p2.ga) ((rnd (i - 1)).vk • p2.gb + ch • kk)) (p2.y.map (fun y => e.flip (-y) ((rnd (i - 1)).vk • p2.gb + ch • kk)))
      (by rw [hpr]; exact ⟨rfl, rfl⟩) y2 hy2' o ho2
    simp only [LinearMap.flip_apply] at r2 r3
    rw [if_neg (by omega)]
    simp only [hct', g2, Res.unwrap_some, Res.ok_bind, hA, hS, hR, hT, hrv, hprev, ho1]
    unfold evenComm
    rw [r1, Res.ok_bind, r3, Res.ok_bind, Res.pure_eq, r2, if_neg (by omega), if_neg (by omega)]
  · obtain ⟨g1, g2, g3, g4, d, kk, g5, g6, g7⟩ := pres_odd h h1 hi ho
    simp only [ho] at hct
    have hct' : (commOf e c p1 p2 revealed rnd).commsT[i - 1]? = some (oddComm e c p1 revealed rnd i).comT := hct
    have hA : (respAt c ev od sk p1 p2 revealed rnd ch c.size).oddA[i / 2]? = _ :=
      oddsOf_get (fun i => lvlRespA p1.ga ch (revealed.getD (i - 1) []) (rnd i) 0 (oddLink c i).attributes.dropLast) c.size i ho hi
    have hS : (respAt c ev od sk p1 p2 revealed rnd ch c.size).oddS[i / 2]? = _ :=
      oddsOf_get (fun i => (rnd i).s • p1.ga + ch • (randomize (oddLink c i).signature (rnd i).sig).S) c.size i ho hi
    have hT : (respAt c ev od sk p1 p2 revealed rnd ch c.size).oddT[i / 2]? = _ :=
      oddsOf_get (fun i => lvlRespT p1 ch (oddLink c i) (rnd i)) c.size i ho hi
    have hR : (commOf e c p1 p2 revealed rnd).oddR[i / 2]? = _ :=
      oddsOf_get (fun i => (randomize (oddLink c i).signature (rnd i).sig).R) c.size i ho hi
    have hrv : (commOf e c p1 p2 revealed rnd).oddRev[i / 2]? = some (oddComm e c p1 revealed rnd i).rev :=
      oddsOf_get (fun i => (oddComm e c p1 revealed rnd i).rev) c.size i ho hi
    have hiss : ∃ g iss, issuerOdd e p1 (respAt c ev od sk p1 p2 revealed rnd ch c.size)
        ⟨e p1.ga (-ch • ipk) + e y1 (-ch • p1.gb), e y1 (-ch • p1.gb), e (-ch • p2.gb) y2, p1.y.map (fun y => e y (-ch • ipk)),
          e ((respAt c ev od sk p1 p2 revealed rnd ch c.size).csk • p1.ga) (-p1.gb),
          e ((respAt c ev od sk p1 p2 revealed rnd ch c.size).csk • -p2.gb) p2.ga⟩ i = .ok (g + e y1 (-ch • p1.gb), iss) ∧
        IssuerTerms e p1 (prevOf rnd i) ch kk g iss := by
      unfold issuerOdd prevOf
      by_cases hL : i = 1
      · rw [if_pos hL, if_pos hL]
        have hkk : kk = ipk := by
          rw [hL] at g6; simpa using g6.symm
        exact ⟨_, _, rfl, by rw [hkk]; exact ⟨rfl, rfl⟩⟩
      · rw [if_neg hL, if_neg hL]
        have := evensOf_get (fun i => (rnd i).vk • p2.ga + ch • ev.getD (i / 2 - 1) 0) (c.size - 1) (i - 1) (by omega) (by omega) (by omega)
        rw [show i / 2 = i / 2 - 1 + 1 by omega, List.getElem?_cons_succ] at g6
        have hd : ev.getD ((i - 1) / 2 - 1) 0 = kk := by
          rw [show (i - 1) / 2 - 1 = i / 2 - 1 by omega]; simp [List.getD, g6]
        rw [hd, show (i - 1) / 2 - 1 = i / 2 - 1 by omega, h.gens.2] at this
        have hq : (respAt c ev od sk p1 p2 revealed rnd ch c.size).evenVk[i / 2 - 1]? = some ((rnd (i - 1)).vk • p1.gb + ch • kk) := by
          simp only [respAt, hmin, h.gens.2]; exact this
        rw [hq]
        exact ⟨_, _, rfl, rfl, rfl⟩
    have hown : ∃ o, ownOdd e c.size p1 (respAt c ev od sk p1 p2 revealed rnd ch c.size)
        ⟨e p1.ga (-ch • ipk) + e y1 (-ch • p1.gb), e y1 (-ch • p1.gb), e (-ch • p2.gb) y2, p1.y.map (fun y => e y (-ch • ipk)),
          e ((respAt c ev od sk p1 p2 revealed rnd ch c.size).csk • p1.ga) (-p1.gb),
          e ((respAt c ev od sk p1 p2 revealed rnd ch c.size).csk • -p2.gb) p2.ga⟩ i = .ok o ∧
        o = -(e ((rnd i).vk • p1.ga + ch • d) p1.gb) := by
      unfold ownOdd
      by_cases hL : i = c.size
      · rw [if_pos hL]
        refine ⟨_, rfl, ?_⟩
        have hd : d = sk • p1.ga := by
          have hk := h.keyOdd (by omega)
          rw [List.getLast?_eq_getElem?] at hk
          have := h.valid.odds
          rw [show od.length - 1 = i / 2 by omega, g5] at hk
          simp only [keygen, Option.some.injEq] at hk
          rw [hk, h.gens.1]
        rw [hcsk, hd, hL]
        simp only [map_add, map_smul, LinearMap.smul_apply, map_neg, LinearMap.neg_apply, LinearMap.add_apply]
        module
      · rw [if_neg hL]
        have := oddsOf_get (fun i => (rnd i).vk • p1.ga + ch • od.getD (i / 2) 0) (c.size - 1) i ho (by omega)
        have hd : od.getD (i / 2) 0 = d := by simp [List.getD, g5]
        rw [hd] at this
        have hq : (respAt c ev od sk p1 p2 revealed rnd ch c.size).oddVk[i / 2]? = some ((rnd i).vk • p1.ga + ch • d) := by
          simp only [respAt, hmin]; exact this
        rw [hq]
        refine ⟨_, rfl, ?_⟩
        simp only [map_neg, LinearMap.neg_apply]
    obtain ⟨o, ho1, ho2⟩ := hown
    obtain ⟨g, iss, hi1, hi2⟩ := hiss
    obtain ⟨r1, r2, r3⟩ := recon_level e p1 ch (prevOf rnd i) (oddLink c i) (revealed.getD (i - 1) []) (rnd i) d kk (hσ i) g7 g3 g4
      g iss hi2 y1 hy1' o ho2
    rw [if_pos ho]
    simp only [hct', g2, Res.unwrap_some, Res.ok_bind, hA, hS, hR, hT, hrv, hi1, ho1]
    unfold oddComm
    rw [r1, Res.ok_bind, r3, Res.ok_bind, Res.pure_eq, r2, if_pos ho, if_pos ho]

/-- **C95** For every valid chain of one level or more, all sets of attributes to reveal, all random values (with non-zero factors for the
signatures) and every challenge: the token is made, the response is made, and the verifier reconstructs the commitment that
was made, so that both compute the same challenge. -/
theorem token_complete (h : Presentable e c ipk ev od sk p1 p2 revealed) (rnd : Nat → LevelRnd F) (hσ : ∀ i, (rnd i).sig ≠ 0) (ch : F) :
    ∃ tok k q, commitment e c p1 p2 Token.new revealed rnd = .ok (tok, k) ∧ response c p1 p2 tok k sk ch ev od = .ok q ∧
      reconstruct e c.size k q ch revealed ipk p1 p2 = .ok k := by
  refine ⟨_, _, _, commitment_eq h rnd, response_eq h rnd ch, ?_⟩
  have hv1 : (respAt c ev od sk p1 p2 revealed rnd ch c.size).validate c.size = .ok () := by
    have hL : (oddsOf c.size).length + (evensOf c.size).length = c.size := by rw [oddsOf_length, evensOf_length]; omega
    unfold Resp.validate
    simp only [respAt, List.length_map, hL, ne_eq, not_true_eq_false, if_false]
  have hp : ∃ v, plainVals e p1 p2 ipk ch (respAt c ev od sk p1 p2 revealed rnd ch c.size).csk = .ok v := by
    obtain ⟨-, -, -, -, d, kk, -, -, g7⟩ := pres_odd h (le_refl 1) h.valid.nonempty rfl
    obtain ⟨y0, hy0, -⟩ := g7.signature.first
    have h1 : p1.y.head? = some y0 := by rw [List.head?_eq_getElem?]; exact hy0
    obtain ⟨y2, ys, hy2⟩ := List.exists_cons_of_ne_nil h.params
    unfold plainVals
    rw [h1, hy2]
    exact ⟨_, rfl⟩
  obtain ⟨v, hv⟩ := hp
  unfold reconstruct reconFrom
  rw [commOf_validate, Res.ok_bind, hv1, Res.ok_bind, hv, Res.ok_bind,
    pushLevels_map _ _ c.size (fun i h1 hi => reconStep_eq h rnd hσ ch v hv i h1 hi), Res.ok_bind, Res.pure_eq]
  simp only [List.map_map]
  rfl

end Tok
end Verif.Groth
