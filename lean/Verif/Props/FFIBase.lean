import Verif.FFI.Spec
import Mathlib.Data.List.Basic
import Mathlib.Tactic.Tauto

/-!
# Lemmas about the C interface: checks, references, boxes

`Guards` relates the declaration of a function to the macros at its beginning; `runChecks_guarded`
says what those macros do for a correct call.
-/

set_option linter.unusedVariables false
set_option linter.unusedSimpArgs false

namespace Verif.FFI

/-! ## The macros match the declaration -/

/-- The macros `cs` check the parameters `ps` (numbered from `i`) one by one; `code` gives the code
used for each, parameters in `unch` are not checked, and handles in `own` are only compared with
null. -/
inductive Guards (own : List (Nat × Ty)) (unch : List Nat) (code : Nat → Code) :
    Nat → List Param → List Check → Prop
  | nil (i : Nat) : Guards own unch code i [] []
  | ref (i t c ps cs) : code (i + 1) = c → Guards own unch code (i + 1) ps cs →
      Guards own unch code i (.handle t :: ps) (.ref i t c :: cs)
  | mutRef (i t c ps cs) : code (i + 1) = c → Guards own unch code (i + 1) ps cs →
      Guards own unch code i (.handle t :: ps) (.mutRef i t c :: cs)
  | own (i t c ps cs) : (i, t) ∈ own → code (i + 1) = c → Guards own unch code (i + 1) ps cs →
      Guards own unch code i (.handle t :: ps) (.ptr i c :: cs)
  | optRef (i t ps cs) : Guards own unch code (i + 1) ps cs →
      Guards own unch code i (.optHandle t :: ps) (.optRef i t :: cs)
  | outH (i t c ps cs) : code (i + 1) = c → i + 1 ∉ unch → Guards own unch code (i + 1) ps cs →
      Guards own unch code i (.outHandle t :: ps) (.ptr i c :: cs)
  | outV (i c ps cs) : code (i + 1) = c → i + 1 ∉ unch → Guards own unch code (i + 1) ps cs →
      Guards own unch code i (.outValue :: ps) (.ptr i c :: cs)
  | outHN (i t ps cs) : i + 1 ∈ unch → Guards own unch code (i + 1) ps cs →
      Guards own unch code i (.outHandle t :: ps) cs
  | outVN (i ps cs) : i + 1 ∈ unch → Guards own unch code (i + 1) ps cs →
      Guards own unch code i (.outValue :: ps) cs
  | str (i c ps cs) : code (i + 1) = c → Guards own unch code (i + 1) ps cs →
      Guards own unch code i (.cstr :: ps) (.str i c :: cs)
  | bytes (i j c1 c2 ps cs) : j = i + 1 → code (i + 1) = c1 → code (i + 2) = c2 →
      Guards own unch code (i + 2) ps cs →
      Guards own unch code i (.bytes :: .bytesLen :: ps) (.bytes i j c1 c2 :: cs)
  | optBytes (i j c2 ps cs) : j = i + 1 → code (i + 2) = c2 → Guards own unch code (i + 2) ps cs →
      Guards own unch code i (.optBytes :: .optBytesLen :: ps) (.optBytes i j c2 :: cs)
  | refArray (i j t c1 c2 ps cs) : j = i + 1 → code (i + 1) = c1 → code (i + 2) = c2 →
      Guards own unch code (i + 2) ps cs →
      Guards own unch code i (.handles t :: .handlesLen :: ps) (.refArray i j t c1 c2 :: cs)
  | hashset (i j c1 c2 ps cs) : j = i + 1 → code (i + 1) = c1 → code (i + 2) = c2 →
      Guards own unch code (i + 2) ps cs →
      Guards own unch code i (.u32s :: .u32sLen :: ps) (.hashset i j c1 c2 :: cs)
  | scalar (i ps cs) : Guards own unch code (i + 1) ps cs →
      Guards own unch code i (.scalar :: ps) cs
  | ctx (i ps cs) : Guards own unch code (i + 1) ps cs → Guards own unch code i (.ctx :: ps) cs
  | callback (i ps cs) : Guards own unch code (i + 1) ps cs →
      Guards own unch code i (.callback :: ps) cs

/-- The kind stored for the missing parameter `j`: that of its own code, but for an array that of
the code of its length. -/
def kindOk (ps : List Param) (i : Nat) (code : Nat → Code) (j : Nat) (k : Kind) : Prop :=
  k = .ofCode (code j) ∨
    (k = .ofCode (code (j + 1)) ∧
      ∃ n, j = i + n + 1 ∧ (ps[n]? = some .u32s ∨ ∃ t, ps[n]? = some (.handles t)))

theorem kindOk_cons {ps : List Param} {i : Nat} {code : Nat → Code} {j : Nat} {k : Kind}
    (p : Param) (h : kindOk ps (i + 1) code j k) : kindOk (p :: ps) i code j k := by
  rcases h with h | ⟨h, n, hn, h'⟩
  · exact Or.inl h
  · exact Or.inr ⟨h, n + 1, by omega, by simpa using h'⟩

/-- `kindOk` under two more parameters. -/
theorem kindOk_cons2 {ps : List Param} {i : Nat} {code : Nat → Code} {j : Nat} {k : Kind}
    (p q : Param) (h : kindOk ps (i + 2) code j k) : kindOk (p :: q :: ps) i code j k :=
  kindOk_cons p (kindOk_cons q h)

/-- The missing arguments that are checked. -/
def missed (unch : List Nat) (l : List Nat) : List Nat := l.filter (fun j => decide (j ∉ unch))

/-- What the macros do for a correct call: they pass when nothing that they check is missing, and
refuse with the code of the first missing parameter otherwise. -/
def CheckedAs (heap : Nat → Option Ty) (args : List Arg) (unch : List Nat) (code : Nat → Code)
    (i : Nat) (ps : List Param) (as : List Arg) (cs : List Check) : Prop :=
  (missed unch (missing (i + 1) ps as) = [] ∧ ∃ bs, runChecks heap args cs = .pass bs) ∨
  ∃ j js k, missed unch (missing (i + 1) ps as) = j :: js ∧ kindOk ps i code j k ∧
    runChecks heap args cs = .refused (code j) k

theorem derefAll_pass {heap : Nat → Option Ty} {t : Ty} :
    ∀ {l : List (Option Nat)}, (∀ x ∈ l, ∃ a, x = some a ∧ heap a = some t) →
      ∃ bs, derefAll heap t l = .pass bs
  | [], _ => ⟨[], rfl⟩
  | x :: l, h => by
    obtain ⟨a, rfl, ha⟩ := h x (by simp)
    obtain ⟨bs, hbs⟩ := derefAll_pass (l := l) (fun y hy => h y (by simp [hy]))
    exact ⟨(a, false) :: bs, by simp [derefAll, ha, hbs]⟩

/-- A check that passes does not change what happens next. -/
theorem CheckedAs.cons {heap : Nat → Option Ty} {args : List Arg} {unch : List Nat}
    {code : Nat → Code} {i i' : Nat} {ps ps' : List Param} {as as' : List Arg} {cs : List Check}
    {c : Check} {bs0 : List (Nat × Bool)}
    (hc : c.run heap args = .pass bs0)
    (hm : missed unch (missing (i + 1) ps as) = missed unch (missing (i' + 1) ps' as'))
    (hk : ∀ j k, kindOk ps' i' code j k → kindOk ps i code j k)
    (h : CheckedAs heap args unch code i' ps' as' cs) :
    CheckedAs heap args unch code i ps as (c :: cs) := by
  rcases h with ⟨h1, bs, h2⟩ | ⟨j, js, k, h1, h2, h3⟩
  · exact Or.inl ⟨by rw [hm, h1], bs0 ++ bs, by simp [runChecks, hc, h2]⟩
  · exact Or.inr ⟨j, js, k, by rw [hm, h1], hk _ _ h2, by simp [runChecks, hc, h3]⟩

/-- A parameter without a check. -/
theorem CheckedAs.skip {heap : Nat → Option Ty} {args : List Arg} {unch : List Nat}
    {code : Nat → Code} {i i' : Nat} {ps ps' : List Param} {as as' : List Arg} {cs : List Check}
    (hm : missed unch (missing (i + 1) ps as) = missed unch (missing (i' + 1) ps' as'))
    (hk : ∀ j k, kindOk ps' i' code j k → kindOk ps i code j k)
    (h : CheckedAs heap args unch code i' ps' as' cs) :
    CheckedAs heap args unch code i ps as cs := by
  rcases h with ⟨h1, bs, h2⟩ | ⟨j, js, k, h1, h2, h3⟩
  · exact Or.inl ⟨by rw [hm, h1], bs, h2⟩
  · exact Or.inr ⟨j, js, k, by rw [hm, h1], hk _ _ h2, h3⟩

/-- A check that refuses. -/
theorem CheckedAs.stop {heap : Nat → Option Ty} {args : List Arg} {unch : List Nat}
    {code : Nat → Code} {i : Nat} {ps : List Param} {as : List Arg} {cs : List Check}
    {c : Check} {j : Nat} {js : List Nat} {k : Kind}
    (hm : missed unch (missing (i + 1) ps as) = j :: js) (hk : kindOk ps i code j k)
    (hc : c.run heap args = .refused (code j) k) :
    CheckedAs heap args unch code i ps as (c :: cs) :=
  Or.inr ⟨j, js, k, hm, hk, by simp [runChecks, hc]⟩

theorem getElem?_pre {α : Type} (pre : List α) (x : α) (l : List α) {i : Nat}
    (h : pre.length = i) : (pre ++ x :: l)[i]? = some x := by
  subst h; simp

theorem getElem?_pre2 {α : Type} (pre : List α) (x y : α) (l : List α) {i : Nat}
    (h : pre.length = i) : (pre ++ x :: y :: l)[i + 1]? = some y := by
  subst h; simp

/-- The parameters that may be unchecked are out pointers only. -/
def OutsOnly (unch : List Nat) (i : Nat) (ps : List Param) : Prop :=
  ∀ j ∈ unch, ∀ n, j = i + n + 1 →
    ps[n]? = none ∨ (∃ t, ps[n]? = some (.outHandle t)) ∨ ps[n]? = some .outValue

theorem OutsOnly.tail {unch : List Nat} {i : Nat} {p : Param} {ps : List Param}
    (h : OutsOnly unch i (p :: ps)) : OutsOnly unch (i + 1) ps := by
  intro j hj n hn
  have := h j hj (n + 1) (by omega)
  simpa using this

theorem OutsOnly.head {unch : List Nat} {i : Nat} {p : Param} {ps : List Param}
    (h : OutsOnly unch i (p :: ps)) (hp : p ≠ .outValue) (hp' : ∀ t, p ≠ .outHandle t) :
    i + 1 ∉ unch := by
  intro hm
  have := h _ hm 0 (by omega)
  simp [hp, hp'] at this

theorem missed_cons {unch : List Nat} {j : Nat} {l : List Nat} (h : j ∉ unch) :
    missed unch (j :: l) = j :: missed unch l := by
  simp [missed, h]

theorem missed_cons' {unch : List Nat} {j : Nat} {l : List Nat} (h : j ∈ unch) :
    missed unch (j :: l) = missed unch l := by
  simp [missed, h]

/-- The macros of a function whose macros match its declaration, in a correct call. -/
theorem runChecks_guarded {heap : Nat → Option Ty} {own : List (Nat × Ty)} {unch : List Nat}
    {code : Nat → Code} {i : Nat} {ps : List Param} {cs : List Check}
    (hg : Guards own unch code i ps cs) :
    ∀ (pre as : List Arg), pre.length = i → Valid heap ps as → OutsOnly unch i ps →
      CheckedAs heap (pre ++ as) unch code i ps as cs := by
  induction hg with
  | nil i =>
    intro pre as _ hv _
    match as, hv with
    | [], _ => exact Or.inl ⟨rfl, [], rfl⟩
  | ref i t c ps cs hc _ ih =>
    intro pre as hl hv ho
    match as, hv with
    | .handle p :: as, ⟨hp, hv⟩ =>
      have hn := ho.head (by simp) (by simp)
      have ih' := ih (pre ++ [.handle p]) as (by simp [hl]) hv ho.tail
      rw [List.append_assoc] at ih'
      subst hc
      cases p with
      | none =>
        refine CheckedAs.stop (j := i + 1) (js := missed unch (missing (i + 2) ps as)) ?_
          (Or.inl rfl) ?_
        · simp [missing, missed_cons hn]
        · simp [Check.run, getElem?_pre pre _ as hl]
      | some a =>
        refine CheckedAs.cons (bs0 := [(a, false)]) ?_ ?_ (fun _ _ => kindOk_cons _) ih'
        · simp [Check.run, getElem?_pre pre _ as hl, deref, hp a rfl]
        · simp [missing]
  | mutRef i t c ps cs hc _ ih =>
    intro pre as hl hv ho
    match as, hv with
    | .handle p :: as, ⟨hp, hv⟩ =>
      have hn := ho.head (by simp) (by simp)
      have ih' := ih (pre ++ [.handle p]) as (by simp [hl]) hv ho.tail
      rw [List.append_assoc] at ih'
      subst hc
      cases p with
      | none =>
        refine CheckedAs.stop (j := i + 1) (js := missed unch (missing (i + 2) ps as)) ?_
          (Or.inl rfl) ?_
        · simp [missing, missed_cons hn]
        · simp [Check.run, getElem?_pre pre _ as hl]
      | some a =>
        refine CheckedAs.cons (bs0 := [(a, true)]) ?_ ?_ (fun _ _ => kindOk_cons _) ih'
        · simp [Check.run, getElem?_pre pre _ as hl, deref, hp a rfl]
        · simp [missing]
  | own i t c ps cs _ hc _ ih =>
    intro pre as hl hv ho
    match as, hv with
    | .handle p :: as, ⟨hp, hv⟩ =>
      have hn := ho.head (by simp) (by simp)
      have ih' := ih (pre ++ [.handle p]) as (by simp [hl]) hv ho.tail
      rw [List.append_assoc] at ih'
      subst hc
      cases p with
      | none =>
        refine CheckedAs.stop (j := i + 1) (js := missed unch (missing (i + 2) ps as)) ?_
          (Or.inl rfl) ?_
        · simp [missing, missed_cons hn]
        · simp [Check.run, getElem?_pre pre _ as hl, Arg.isNull]
      | some a =>
        refine CheckedAs.cons (bs0 := []) ?_ ?_ (fun _ _ => kindOk_cons _) ih'
        · simp [Check.run, getElem?_pre pre _ as hl, Arg.isNull]
        · simp [missing]
  | optRef i t ps cs _ ih =>
    intro pre as hl hv ho
    match as, hv with
    | .handle p :: as, ⟨hp, hv⟩ =>
      have ih' := ih (pre ++ [.handle p]) as (by simp [hl]) hv ho.tail
      rw [List.append_assoc] at ih'
      cases p with
      | none =>
        refine CheckedAs.cons (bs0 := []) ?_ ?_ (fun _ _ => kindOk_cons _) ih'
        · simp [Check.run, getElem?_pre pre _ as hl]
        · simp [missing]
      | some a =>
        refine CheckedAs.cons (bs0 := [(a, false)]) ?_ ?_ (fun _ _ => kindOk_cons _) ih'
        · simp [Check.run, getElem?_pre pre _ as hl, deref, hp a rfl]
        · simp [missing]
  | outH i t c ps cs hc hn _ ih =>
    intro pre as hl hv ho
    match as, hv with
    | .out b :: as, hv =>
      have hv : Valid heap ps as := hv
      have ih' := ih (pre ++ [.out b]) as (by simp [hl]) hv ho.tail
      rw [List.append_assoc] at ih'
      subst hc
      cases b with
      | false =>
        refine CheckedAs.stop (j := i + 1) (js := missed unch (missing (i + 2) ps as)) ?_
          (Or.inl rfl) ?_
        · simp [missing, missed_cons hn]
        · simp [Check.run, getElem?_pre pre _ as hl, Arg.isNull]
      | true =>
        refine CheckedAs.cons (bs0 := []) ?_ ?_ (fun _ _ => kindOk_cons _) ih'
        · simp [Check.run, getElem?_pre pre _ as hl, Arg.isNull]
        · simp [missing]
  | outV i c ps cs hc hn _ ih =>
    intro pre as hl hv ho
    match as, hv with
    | .out b :: as, hv =>
      have hv : Valid heap ps as := hv
      have ih' := ih (pre ++ [.out b]) as (by simp [hl]) hv ho.tail
      rw [List.append_assoc] at ih'
      subst hc
      cases b with
      | false =>
        refine CheckedAs.stop (j := i + 1) (js := missed unch (missing (i + 2) ps as)) ?_
          (Or.inl rfl) ?_
        · simp [missing, missed_cons hn]
        · simp [Check.run, getElem?_pre pre _ as hl, Arg.isNull]
      | true =>
        refine CheckedAs.cons (bs0 := []) ?_ ?_ (fun _ _ => kindOk_cons _) ih'
        · simp [Check.run, getElem?_pre pre _ as hl, Arg.isNull]
        · simp [missing]
  | outHN i t ps cs hn _ ih =>
    intro pre as hl hv ho
    match as, hv with
    | .out b :: as, hv =>
      have hv : Valid heap ps as := hv
      have ih' := ih (pre ++ [.out b]) as (by simp [hl]) hv ho.tail
      rw [List.append_assoc] at ih'
      refine CheckedAs.skip ?_ (fun _ _ => kindOk_cons _) ih'
      cases b <;> simp [missing, missed_cons' hn]
  | outVN i ps cs hn _ ih =>
    intro pre as hl hv ho
    match as, hv with
    | .out b :: as, hv =>
      have hv : Valid heap ps as := hv
      have ih' := ih (pre ++ [.out b]) as (by simp [hl]) hv ho.tail
      rw [List.append_assoc] at ih'
      refine CheckedAs.skip ?_ (fun _ _ => kindOk_cons _) ih'
      cases b <;> simp [missing, missed_cons' hn]
  | str i c ps cs hc _ ih =>
    intro pre as hl hv ho
    match as, hv with
    | .str s :: as, hv =>
      have hv : Valid heap ps as := hv
      have hn := ho.head (by simp) (by simp)
      have ih' := ih (pre ++ [.str s]) as (by simp [hl]) hv ho.tail
      rw [List.append_assoc] at ih'
      subst hc
      match s with
      | .text (n + 1) =>
        refine CheckedAs.cons (bs0 := []) ?_ ?_ (fun _ _ => kindOk_cons _) ih'
        · simp [Check.run, getElem?_pre pre _ as hl]
        · simp [missing]
      | .null | .notUtf8 | .text 0 =>
        refine CheckedAs.stop (j := i + 1) (js := missed unch (missing (i + 2) ps as)) ?_
          (Or.inl rfl) ?_
        · simp [missing, missed_cons hn]
        · simp [Check.run, getElem?_pre pre _ as hl]
  | bytes i j c1 c2 ps cs hj hc1 hc2 _ ih =>
    intro pre as hl hv ho
    match as, hv with
    | .buf s :: .num n :: as, ⟨hs, hv⟩ =>
      have hn := ho.head (by simp) (by simp)
      have hn2 := ho.tail.head (by simp) (by simp)
      have ih' := ih (pre ++ [.buf s, .num n]) as (by simp [hl]) hv ho.tail.tail
      rw [List.append_assoc] at ih'
      subst hc1 hc2 hj
      cases s with
      | none =>
        refine CheckedAs.stop (j := i + 1) (js := missed unch (missing (i + 3) ps as)) ?_
          (Or.inl rfl) ?_
        · simp [missing, missed_cons hn]
        · simp [Check.run, getElem?_pre pre _ _ hl, getElem?_pre2 pre _ _ as hl]
      | some k =>
        by_cases h0 : n = 0
        · refine CheckedAs.stop (j := i + 2) (js := missed unch (missing (i + 3) ps as)) ?_
            (Or.inl rfl) ?_
          · simp [missing, missed_cons hn2, h0]
          · simp [Check.run, getElem?_pre pre _ _ hl, getElem?_pre2 pre _ _ as hl, h0]
        · refine CheckedAs.cons (bs0 := []) ?_ ?_ (fun _ _ => kindOk_cons2 _ _) ih'
          · simp [Check.run, getElem?_pre pre _ _ hl, getElem?_pre2 pre _ _ as hl, h0, hs k rfl]
          · simp [missing, h0]
  | optBytes i j c2 ps cs hj hc2 _ ih =>
    intro pre as hl hv ho
    match as, hv with
    | .buf s :: .num n :: as, ⟨hs, hv⟩ =>
      have hn2 := ho.tail.head (by simp) (by simp)
      have ih' := ih (pre ++ [.buf s, .num n]) as (by simp [hl]) hv ho.tail.tail
      rw [List.append_assoc] at ih'
      subst hc2 hj
      cases s with
      | none =>
        refine CheckedAs.cons (bs0 := []) ?_ ?_ (fun _ _ => kindOk_cons2 _ _) ih'
        · simp [Check.run, getElem?_pre pre _ _ hl, getElem?_pre2 pre _ _ as hl]
        · simp [missing]
      | some k =>
        by_cases h0 : n = 0
        · refine CheckedAs.stop (j := i + 2) (js := missed unch (missing (i + 3) ps as)) ?_
            (Or.inl rfl) ?_
          · simp [missing, missed_cons hn2, h0]
          · simp [Check.run, getElem?_pre pre _ _ hl, getElem?_pre2 pre _ _ as hl, h0]
        · refine CheckedAs.cons (bs0 := []) ?_ ?_ (fun _ _ => kindOk_cons2 _ _) ih'
          · simp [Check.run, getElem?_pre pre _ _ hl, getElem?_pre2 pre _ _ as hl, h0, hs k rfl]
          · simp [missing, h0]
  | refArray i j t c1 c2 ps cs hj hc1 hc2 _ ih =>
    intro pre as hl hv ho
    match as, hv with
    | .arr xs :: .num n :: as, ⟨hs, hv⟩ =>
      have hn := ho.head (by simp) (by simp)
      have hn2 := ho.tail.head (by simp) (by simp)
      have ih' := ih (pre ++ [.arr xs, .num n]) as (by simp [hl]) hv ho.tail.tail
      rw [List.append_assoc] at ih'
      subst hc1 hc2 hj
      cases xs with
      | none =>
        refine CheckedAs.stop (j := i + 1) (js := missed unch (missing (i + 3) ps as))
          (k := .ofCode (code (i + 2))) ?_
          (Or.inr ⟨rfl, 0, rfl, Or.inr ⟨t, rfl⟩⟩) ?_
        · simp [missing, missed_cons hn]
        · simp [Check.run, getElem?_pre pre _ _ hl, getElem?_pre2 pre _ _ as hl]
      | some l =>
        by_cases h0 : n = 0
        · refine CheckedAs.stop (j := i + 2) (js := missed unch (missing (i + 3) ps as)) ?_
            (Or.inl rfl) ?_
          · simp [missing, missed_cons hn2, h0]
          · simp [Check.run, getElem?_pre pre _ _ hl, getElem?_pre2 pre _ _ as hl, h0]
        · obtain ⟨hle, hall⟩ := hs l rfl
          obtain ⟨bs, hbs⟩ := derefAll_pass hall
          refine CheckedAs.cons (bs0 := bs) ?_ ?_ (fun _ _ => kindOk_cons2 _ _) ih'
          · simp [Check.run, getElem?_pre pre _ _ hl, getElem?_pre2 pre _ _ as hl, h0, hle, hbs]
          · simp [missing, h0]
  | hashset i j c1 c2 ps cs hj hc1 hc2 _ ih =>
    intro pre as hl hv ho
    match as, hv with
    | .buf s :: .num n :: as, ⟨hs, hv⟩ =>
      have hn := ho.head (by simp) (by simp)
      have ih' := ih (pre ++ [.buf s, .num n]) as (by simp [hl]) hv ho.tail.tail
      rw [List.append_assoc] at ih'
      subst hc1 hc2 hj
      cases s with
      | none =>
        refine CheckedAs.stop (j := i + 1) (js := missed unch (missing (i + 3) ps as))
          (k := .ofCode (code (i + 2))) ?_ (Or.inr ⟨rfl, 0, rfl, Or.inl rfl⟩) ?_
        · simp [missing, missed_cons hn]
        · simp [Check.run, getElem?_pre pre _ _ hl, getElem?_pre2 pre _ _ as hl]
      | some k =>
        refine CheckedAs.cons (bs0 := []) ?_ ?_ (fun _ _ => kindOk_cons2 _ _) ih'
        · simp [Check.run, getElem?_pre pre _ _ hl, getElem?_pre2 pre _ _ as hl, hs k rfl]
        · simp [missing]
  | scalar i ps cs _ ih =>
    intro pre as hl hv ho
    match as, hv with
    | .num n :: as, hv =>
      have hv : Valid heap ps as := hv
      have ih' := ih (pre ++ [.num n]) as (by simp [hl]) hv ho.tail
      rw [List.append_assoc] at ih'
      exact CheckedAs.skip (by simp [missing]) (fun _ _ => kindOk_cons _) ih'
  | ctx i ps cs _ ih =>
    intro pre as hl hv ho
    match as, hv with
    | .opaque :: as, hv =>
      have hv : Valid heap ps as := hv
      have ih' := ih (pre ++ [.opaque]) as (by simp [hl]) hv ho.tail
      rw [List.append_assoc] at ih'
      exact CheckedAs.skip (by simp [missing]) (fun _ _ => kindOk_cons _) ih'
  | callback i ps cs _ ih =>
    intro pre as hl hv ho
    match as, hv with
    | .opaque :: as, hv =>
      have hv : Valid heap ps as := hv
      have ih' := ih (pre ++ [.opaque]) as (by simp [hl]) hv ho.tail
      rw [List.append_assoc] at ih'
      exact CheckedAs.skip (by simp [missing]) (fun _ _ => kindOk_cons _) ih'

end Verif.FFI
