import Verif.BN.Text
import Mathlib.Data.Nat.Digits.Lemmas
import Mathlib.Tactic.IntervalCases
import Mathlib.Tactic.Linarith
import Mathlib.Tactic.Ring

/-!
# C158-C160: numbers as text in both `BigNumber` backends
-/

set_option linter.unusedSimpArgs false
set_option linter.unusedVariables false

namespace Verif.BN

/-! ## Specification -/

/-- The value of a text of digits. -/
def value (radix : Nat) (s : Text) : Nat := ofDigits radix (s.map digitVal)

/-- A character is a digit. -/
def IsDigit (radix : Nat) (c : Char) : Prop := digitVal c < radix

instance (radix : Nat) (c : Char) : Decidable (IsDigit radix c) := inferInstanceAs (Decidable (_ < _))

/-- A non-empty text of digits only. -/
def IsNumeral (radix : Nat) (s : Text) : Prop := s ≠ [] ∧ ∀ c ∈ s, IsDigit radix c

/-- Decimal digits are the characters `0` to `9`. -/
theorem isDigit_ten_iff (c : Char) : IsDigit 10 c ↔ '0' ≤ c ∧ c ≤ '9' := by
  unfold IsDigit digitVal
  by_cases h : '0' ≤ c ∧ c ≤ '9'
  · rw [if_pos h]
    simp only [h, and_self, iff_true]
    have h1 : '0'.toNat ≤ c.toNat := h.1
    have h2 : c.toNat ≤ '9'.toNat := h.2
    have e1 : '0'.toNat = 48 := rfl
    have e2 : '9'.toNat = 57 := rfl
    omega
  · rw [if_neg h]
    simp only [h, iff_false, not_lt]
    split_ifs <;> omega

/-- Hexadecimal digits are `0` to `9`, `a` to `f` and `A` to `F`. -/
theorem isDigit_sixteen_iff (c : Char) :
    IsDigit 16 c ↔ ('0' ≤ c ∧ c ≤ '9') ∨ ('a' ≤ c ∧ c ≤ 'f') ∨ ('A' ≤ c ∧ c ≤ 'F') := by
  have le_iff : ∀ a b : Char, a ≤ b ↔ a.toNat ≤ b.toNat := fun a b => Iff.rfl
  unfold IsDigit digitVal
  simp only [le_iff]
  have e1 : '0'.toNat = 48 := rfl
  have e2 : '9'.toNat = 57 := rfl
  have e3 : 'a'.toNat = 97 := rfl
  have e4 : 'z'.toNat = 122 := rfl
  have e5 : 'A'.toNat = 65 := rfl
  have e6 : 'Z'.toNat = 90 := rfl
  have e7 : 'f'.toNat = 102 := rfl
  have e8 : 'F'.toNat = 70 := rfl
  rw [e1, e2, e3, e4, e5, e6, e7, e8]
  split_ifs <;> omega

/-! ## Digits -/

theorem digitVal_digitChar (d : Nat) (h : d < 16) : digitVal (digitChar d) = d := by
  interval_cases d <;> decide

theorem digitChar_ne (d : Nat) : digitChar d ≠ '_' ∧ digitChar d ≠ '+' ∧ digitChar d ≠ '-' ∧ digitChar d ≠ Char.ofNat 0 := by
  unfold digitChar
  split <;> decide

theorem digitVal_underscore : digitVal '_' = 255 := by decide
theorem digitVal_plus : digitVal '+' = 255 := by decide
theorem digitVal_minus : digitVal '-' = 255 := by decide

theorem ofDigits_append (r : Nat) (xs : List Nat) (d : Nat) : ofDigits r (xs ++ [d]) = ofDigits r xs * r + d := by
  simp [ofDigits]

theorem ofDigits_reverse (r : Nat) (l : List Nat) : ofDigits r l.reverse = Nat.ofDigits r l := by
  induction l with
  | nil => rfl
  | cons d l ih =>
    rw [List.reverse_cons, ofDigits_append, ih, Nat.ofDigits_cons]
    ring

theorem ofDigits_digits (r n : Nat) : ofDigits r (Nat.digits r n).reverse = n := by
  rw [ofDigits_reverse, Nat.ofDigits_digits]

theorem map_digitVal_map (l : List Nat) (h : ∀ d ∈ l, d < 16) : (l.map digitChar).map digitVal = l := by
  rw [List.map_map]
  calc l.map (digitVal ∘ digitChar) = l.map id := List.map_congr_left (fun d hd => digitVal_digitChar d (h d hd))
    _ = l := List.map_id l

theorem numeral_isNumeral (r n : Nat) (h1 : 1 < r) (h2 : r ≤ 16) : IsNumeral r (numeral r n) := by
  unfold numeral
  by_cases hn : n = 0
  · rw [if_pos hn]
    refine ⟨by simp, ?_⟩
    intro c hc
    simp only [List.mem_singleton] at hc
    subst hc
    show digitVal '0' < r
    have : digitVal '0' = 0 := by decide
    omega
  · rw [if_neg hn]
    refine ⟨by simp [Nat.digits_eq_nil_iff_eq_zero, hn], ?_⟩
    intro c hc
    simp only [List.mem_map, List.mem_reverse] at hc
    obtain ⟨d, hd, rfl⟩ := hc
    have := Nat.digits_lt_base h1 hd
    show digitVal _ < r
    rw [digitVal_digitChar d (by omega)]
    exact this

theorem value_numeral (r n : Nat) (h1 : 1 < r) (h2 : r ≤ 16) : value r (numeral r n) = n := by
  unfold numeral value
  by_cases hn : n = 0
  · rw [if_pos hn, hn]
    have : digitVal '0' = 0 := by decide
    simp [ofDigits, this]
  · rw [if_neg hn, map_digitVal_map]
    · exact ofDigits_digits r n
    · intro d hd
      have := Nat.digits_lt_base h1 (List.mem_reverse.mp hd)
      omega

/-! ## What the pure build accepts -/

theorem rustDigits_eq_some (r : Nat) (hr : r ≤ 255) (s : Text) (ds : List Nat) :
    rustDigits r s = some ds ↔ (∀ x ∈ s, x = '_' ∨ IsDigit r x) ∧ ds = (s.filter (fun c => decide (c ≠ '_'))).map digitVal := by
  induction s generalizing ds with
  | nil => simp [rustDigits, eq_comm]
  | cons c cs ih =>
    unfold rustDigits
    by_cases hc : c = '_'
    · rw [if_pos hc, ih]
      subst hc
      simp
    · rw [if_neg hc]
      by_cases hd : digitVal c < r
      · rw [if_pos hd, Option.map_eq_some_iff]
        constructor
        · rintro ⟨l, hl, rfl⟩
          obtain ⟨h1, rfl⟩ := (ih l).mp hl
          refine ⟨?_, by simp [hc]⟩
          intro x hx
          rcases List.mem_cons.mp hx with rfl | hx
          · exact Or.inr hd
          · exact h1 x hx
        · rintro ⟨h1, rfl⟩
          refine ⟨_, (ih _).mpr ⟨fun x hx => h1 x (List.mem_cons_of_mem _ hx), rfl⟩, by simp [hc]⟩
      · rw [if_neg hd]
        simp only [reduceCtorEq, false_iff, not_and]
        intro h
        rcases h c (List.mem_cons_self ..) with h | h
        · exact absurd h hc
        · exact absurd h hd

/-- Digits with underscores after the first. -/
def IsLoose (r : Nat) : Text → Prop
  | [] => False
  | c :: rest => IsDigit r c ∧ ∀ x ∈ rest, x = '_' ∨ IsDigit r x

theorem IsLoose.head {r : Nat} {s : Text} (h : IsLoose r s) : ∃ c rest, s = c :: rest ∧ IsDigit r c := by
  cases s with
  | nil => exact h.elim
  | cons c rest => exact ⟨c, rest, rfl, h.1⟩

/-- The body after the signs. -/
def parseBody (r : Nat) (s : Text) : Res Unit Nat :=
  match s with
  | [] => .err ()
  | c :: cs =>
    if c = '_' then .err ()
    else
      match rustDigits r (c :: cs) with
      | some ds => .ok (ofDigits r ds)
      | none => .err ()

theorem parseBody_ok (r : Nat) (hr : r ≤ 255) (s : Text) (n : Nat) :
    parseBody r s = .ok n ↔ IsLoose r s ∧ n = value r (s.filter (fun c => decide (c ≠ '_'))) := by
  cases s with
  | nil => simp [parseBody, IsLoose]
  | cons c cs =>
    unfold parseBody
    simp only
    by_cases hc : c = '_'
    · rw [if_pos hc]
      subst hc
      have : ¬ IsDigit r '_' := by
        unfold IsDigit
        rw [digitVal_underscore]
        omega
      simp [IsLoose, this]
    · rw [if_neg hc]
      cases hd : rustDigits r (c :: cs) with
      | none =>
        simp only [reduceCtorEq, false_iff, not_and]
        intro hl
        have h1 := (rustDigits_eq_some r hr (c :: cs) _).mpr ⟨by
          intro x hx
          rcases List.mem_cons.mp hx with rfl | hx
          · exact Or.inr hl.1
          · exact hl.2 x hx, rfl⟩
        rw [hd] at h1
        cases h1
      | some ds =>
        obtain ⟨h1, rfl⟩ := (rustDigits_eq_some r hr (c :: cs) ds).mp hd
        simp only [Res.ok.injEq]
        constructor
        · rintro rfl
          refine ⟨⟨?_, fun x hx => h1 x (List.mem_cons_of_mem _ hx)⟩, rfl⟩
          rcases h1 c (List.mem_cons_self ..) with h | h
          · exact absurd h hc
          · exact h
        · rintro ⟨-, rfl⟩
          rfl

theorem parseBody_total (r : Nat) (s : Text) : parseBody r s ≠ .panic := by
  unfold parseBody
  split
  · simp
  · split_ifs
    · simp
    · split <;> simp

theorem parseUnsigned_eq (r : Nat) (s : Text) : parseUnsigned r s = parseBody r (dropPlus s) := rfl

theorem not_isDigit_plus (r : Nat) (hr : r ≤ 255) : ¬ IsDigit r '+' := by
  unfold IsDigit
  rw [digitVal_plus]
  omega

theorem not_isDigit_minus (r : Nat) (hr : r ≤ 255) : ¬ IsDigit r '-' := by
  unfold IsDigit
  rw [digitVal_minus]
  omega

theorem parseUnsigned_ok (r : Nat) (hr : r ≤ 255) (s : Text) (n : Nat) :
    parseUnsigned r s = .ok n ↔
      ∃ body, (s = body ∨ s = '+' :: body) ∧ IsLoose r body ∧ n = value r (body.filter (fun c => decide (c ≠ '_'))) := by
  rw [parseUnsigned_eq, parseBody_ok r hr]
  constructor
  · rintro ⟨hl, hn⟩
    refine ⟨dropPlus s, ?_, hl, hn⟩
    unfold dropPlus
    split <;> simp
  · rintro ⟨body, hs, hl, hn⟩
    have hb : dropPlus s = body := by
      obtain ⟨c, rest, rfl, hc⟩ := hl.head
      have hcp : c ≠ '+' := fun h => not_isDigit_plus r hr (h ▸ hc)
      rcases hs with rfl | rfl
      · unfold dropPlus
        split
        · simp_all
        · simp_all
        · rfl
      · unfold dropPlus
        split
        · simp_all
        · simp_all
        · simp_all
    rw [hb]
    exact ⟨hl, hn⟩

/-- C160: what `from_dec` and `from_hex` of the pure build accept: at most one sign, a digit, then digits and underscores;
the value is that of the digits. -/
theorem rust_parse_ok_iff (r : Nat) (hr : r ≤ 255) (s : Text) (a : Int) :
    parseSigned r s = .ok a ↔
      ∃ sign body, (sign = [] ∨ sign = ['+'] ∨ sign = ['-']) ∧ s = sign ++ body ∧ IsLoose r body ∧
        a = (if sign = ['-'] then -1 else 1) * (value r (body.filter (fun c => decide (c ≠ '_'))) : Int) := by
  unfold parseSigned
  split
  · rename_i s
    constructor
    · intro h
      obtain ⟨v, hv, h⟩ := Res.bind_eq_ok.mp h
      obtain ⟨body, hb, hl, -⟩ := (parseUnsigned_ok r hr _ _).mp hv
      obtain ⟨c, rest, rfl, hc⟩ := hl.head
      rcases hb with hb | hb
      · simp only [List.cons.injEq] at hb
        exact absurd (hb.1 ▸ hc) (not_isDigit_minus r hr)
      · simp at hb
    · rintro ⟨sign, body, hs, h, hl, -⟩
      obtain ⟨c, rest, rfl, hc⟩ := hl.head
      rcases hs with rfl | rfl | rfl
      · simp only [List.nil_append, List.cons.injEq] at h
        exact absurd (h.1 ▸ hc) (not_isDigit_minus r hr)
      · simp at h
      · simp only [List.cons_append, List.nil_append, List.cons.injEq] at h
        exact absurd (h.2.1 ▸ hc) (not_isDigit_plus r hr)
  · rename_i s hs'
    constructor
    · intro h
      obtain ⟨v, hv, h⟩ := Res.bind_eq_ok.mp h
      obtain ⟨body, hb, hl, hn⟩ := (parseUnsigned_ok r hr _ _).mp hv
      simp only [Res.ok.injEq] at h
      rcases hb with rfl | rfl
      · refine ⟨['-'], s, by simp, rfl, hl, ?_⟩
        rw [if_pos rfl, ← h, ← hn]
        ring
      · exact absurd rfl (hs' body)
    · rintro ⟨sign, body, hs, h, hl, ha⟩
      obtain ⟨c, rest, rfl, hc⟩ := hl.head
      rcases hs with rfl | rfl | rfl
      · simp only [List.nil_append, List.cons.injEq] at h
        exact absurd (h.1 ▸ hc) (not_isDigit_minus r hr)
      · simp at h
      · simp only [List.cons_append, List.nil_append, List.cons.injEq, true_and] at h
        subst h
        rw [(parseUnsigned_ok r hr _ _).mpr ⟨c :: rest, Or.inl rfl, hl, rfl⟩, Res.ok_bind, ha, if_pos rfl]
        congr 1
        ring
  · rename_i h1 h2
    constructor
    · intro h0
      obtain ⟨v, hv, h⟩ := Res.bind_eq_ok.mp h0
      clear h0
      obtain ⟨body, hb, hl, hn⟩ := (parseUnsigned_ok r hr _ _).mp hv
      simp only [Res.ok.injEq] at h
      rcases hb with rfl | rfl
      · refine ⟨[], s, by simp, rfl, hl, ?_⟩
        rw [if_neg (by simp), ← h, ← hn]
        ring
      · refine ⟨['+'], body, by simp, rfl, hl, ?_⟩
        rw [if_neg (by simp), ← hn, one_mul]
        exact h.symm
    · rintro ⟨sign, body, hs, h, hl, ha⟩
      rcases hs with rfl | rfl | rfl
      · simp only [List.nil_append] at h
        subst h
        rw [(parseUnsigned_ok r hr _ _).mpr ⟨s, Or.inl rfl, hl, rfl⟩, Res.ok_bind, ha, if_neg (by simp)]
        congr 1
        ring
      · subst h
        rw [(parseUnsigned_ok r hr (['+'] ++ body) _).mpr ⟨body, Or.inr rfl, hl, rfl⟩, Res.ok_bind, ha, if_neg (by simp)]
        congr 1
        ring
      · exact absurd h (h2 body)

/-- The pure build returns an error for everything else; it never panics. -/
theorem rust_parse_total (r : Nat) (s : Text) : parseSigned r s ≠ .panic := by
  have key : ∀ (t : Text) (f : Nat → Int), (do let v ← parseUnsigned r t; Res.ok (f v) : Res Unit Int) ≠ .panic := by
    intro t f
    cases h : parseUnsigned r t with
    | ok v => simp [Res.ok_bind]
    | err e => simp [Res.err_bind]
    | panic => exact absurd (by rw [parseUnsigned_eq] at h; exact h) (parseBody_total r _)
  unfold parseSigned
  split
  · exact key _ _
  · exact key _ _
  · exact key _ _

/-! ## What the native build accepts -/

theorem takeWhile_split (p : Char → Bool) (s : Text) :
    ∃ rest, s = s.takeWhile p ++ rest ∧ (∀ c ∈ s.takeWhile p, p c = true) ∧ ∀ x ∈ rest.head?, p x = false := by
  refine ⟨s.dropWhile p, (List.takeWhile_append_dropWhile).symm, ?_, ?_⟩
  · intro c hc
    have := List.all_eq_true.mp (List.all_takeWhile (l := s) (p := p)) c hc
    exact this
  · intro x hx
    have := List.head?_dropWhile_not p s
    cases hd : (s.dropWhile p).head? with
    | none => rw [hd] at hx; cases hx
    | some y =>
      rw [hd] at this hx
      simp only [Option.mem_def, Option.some.injEq] at hx
      subst hx
      simpa using this

theorem takeWhile_of_split (p : Char → Bool) (ds rest : Text) (h1 : ∀ c ∈ ds, p c = true) (h2 : ∀ x ∈ rest.head?, p x = false) :
    (ds ++ rest).takeWhile p = ds := by
  rw [List.takeWhile_append_of_pos h1]
  cases rest with
  | nil => simp
  | cons x rest =>
    have := h2 x (by simp)
    simp [List.takeWhile_cons, this]

theorem osslDigits_ok (r : Nat) (s : Text) (n : Nat) :
    osslDigits r s = .ok n ↔
      ∃ ds rest, s = ds ++ rest ∧ IsNumeral r ds ∧ (∀ x ∈ rest.head?, ¬ IsDigit r x) ∧ n = value r ds := by
  unfold osslDigits
  constructor
  · intro h
    obtain ⟨rest, e1, e2, e3⟩ := takeWhile_split (fun c => decide (digitVal c < r)) s
    generalize ht : s.takeWhile (fun c => decide (digitVal c < r)) = t at *
    cases t with
    | nil => simp at h
    | cons d ds =>
      simp only [Res.ok.injEq] at h
      exact ⟨d :: ds, rest, e1, ⟨by simp, fun c hc => of_decide_eq_true (e2 c hc)⟩,
        fun x hx hx' => absurd hx' (of_decide_eq_false (e3 x hx)), h.symm⟩
  · rintro ⟨ds, rest, rfl, ⟨hne, hd⟩, hx, rfl⟩
    have ht : (ds ++ rest).takeWhile (fun c => decide (digitVal c < r)) = ds :=
      takeWhile_of_split _ ds rest (fun c hc => decide_eq_true (hd c hc)) (fun x h => decide_eq_false (hx x h))
    rw [ht]
    cases ds with
    | nil => exact absurd rfl hne
    | cons d ds => rfl

/-- C160: what `from_dec` and `from_hex` of the native build accept: an optional minus sign and digits, followed by anything
that does not begin with a digit; the value is that of the digits. -/
theorem ossl_parse_ok_iff (r : Nat) (hr : r ≤ 255) (s : Text) (a : Int) :
    osslParse r s = .ok a ↔
      Char.ofNat 0 ∉ s ∧ ∃ sign ds rest, (sign = [] ∨ sign = ['-']) ∧ s = sign ++ ds ++ rest ∧ IsNumeral r ds ∧
        (∀ x ∈ rest.head?, ¬ IsDigit r x) ∧ a = (if sign = ['-'] then -1 else 1) * (value r ds : Int) := by
  unfold osslParse
  by_cases h0 : Char.ofNat 0 ∈ s
  · rw [if_pos h0]
    simp [h0]
  rw [if_neg h0]
  simp only [h0, not_false_eq_true, true_and]
  split
  · rename_i body
    constructor
    · intro h
      obtain ⟨v, hv, h⟩ := Res.bind_eq_ok.mp h
      obtain ⟨ds, rest, rfl, hd, hx, rfl⟩ := (osslDigits_ok r _ _).mp hv
      simp only [Res.ok.injEq] at h
      refine ⟨['-'], ds, rest, Or.inr rfl, rfl, hd, hx, ?_⟩
      rw [if_pos rfl, ← h]
      ring
    · rintro ⟨sign, ds, rest, hs, h, hd, hx, rfl⟩
      rcases hs with rfl | rfl
      · exfalso
        cases ds with
        | nil => exact hd.1 rfl
        | cons c cs =>
          simp only [List.nil_append, List.cons_append, List.cons.injEq] at h
          exact not_isDigit_minus r hr (h.1 ▸ hd.2 c (List.mem_cons_self ..))
      · simp only [List.cons_append, List.nil_append, List.cons.injEq, true_and] at h
        rw [(osslDigits_ok r body _).mpr ⟨ds, rest, h, hd, hx, rfl⟩, Res.ok_bind, if_pos rfl]
        congr 1
        ring
  · rename_i hm
    constructor
    · intro h
      obtain ⟨v, hv, h⟩ := Res.bind_eq_ok.mp h
      obtain ⟨ds, rest, hs, hd, hx, rfl⟩ := (osslDigits_ok r _ _).mp hv
      simp only [Res.ok.injEq] at h
      refine ⟨[], ds, rest, Or.inl rfl, hs, hd, hx, ?_⟩
      rw [if_neg (by simp), ← h]
      ring
    · rintro ⟨sign, ds, rest, hs, h, hd, hx, rfl⟩
      rcases hs with rfl | rfl
      · rw [(osslDigits_ok r s _).mpr ⟨ds, rest, h, hd, hx, rfl⟩, Res.ok_bind, if_neg (by simp)]
        congr 1
        ring
      · exact absurd h (hm (ds ++ rest))

/-- C160: the native build panics exactly for texts with a zero character, and otherwise returns a number or an error. -/
theorem ossl_parse_panic_iff (r : Nat) (s : Text) : osslParse r s = .panic ↔ Char.ofNat 0 ∈ s := by
  unfold osslParse
  by_cases h : Char.ofNat 0 ∈ s
  · simp [h]
  · rw [if_neg h]
    simp only [h, iff_false]
    have key : ∀ (t : Text) (f : Nat → Int), (do let v ← osslDigits r t; Res.ok (f v) : Res Unit Int) ≠ .panic := by
      intro t f
      unfold osslDigits
      split <;> simp
    split
    · exact key _ _
    · exact key _ _

/-! ## Plain texts: both builds agree -/

theorem IsNumeral.loose {r : Nat} {s : Text} (h : IsNumeral r s) : IsLoose r s := by
  cases s with
  | nil => exact h.1 rfl
  | cons c rest => exact ⟨h.2 c (List.mem_cons_self ..), fun x hx => Or.inr (h.2 x (List.mem_cons_of_mem _ hx))⟩

theorem IsNumeral.filter {r : Nat} (hr : r ≤ 255) {s : Text} (h : IsNumeral r s) : s.filter (fun c => decide (c ≠ '_')) = s := by
  rw [List.filter_eq_self]
  intro c hc
  have := h.2 c hc
  simp only [ne_eq, decide_not, Bool.not_eq_eq_eq_not, Bool.not_true, decide_eq_false_iff_not]
  rintro rfl
  unfold IsDigit at this
  rw [digitVal_underscore] at this
  omega

/-- C160: an optional minus sign followed by digits is read by both builds, as the number it denotes. -/
theorem plain_text_agrees (r : Nat) (hr : r ≤ 255) (neg : Bool) (s : Text) (h : IsNumeral r s) :
    parseSigned r ((if neg then ['-'] else []) ++ s) = .ok ((if neg then -1 else 1) * (value r s : Int)) ∧
    (Char.ofNat 0 ∉ s → osslParse r ((if neg then ['-'] else []) ++ s) = .ok ((if neg then -1 else 1) * (value r s : Int))) := by
  constructor
  · rw [rust_parse_ok_iff r hr]
    refine ⟨if neg then ['-'] else [], s, by cases neg <;> simp, rfl, h.loose, ?_⟩
    rw [h.filter hr]
    cases neg <;> simp
  · intro h0
    rw [ossl_parse_ok_iff r hr]
    refine ⟨by cases neg <;> simp [h0], if neg then ['-'] else [], s, [], by cases neg <;> simp, by simp, h, by simp, ?_⟩
    cases neg <;> simp

/-- Zero is no digit up to base 255. -/
theorem zero_char_not_digit (r : Nat) (hr : r ≤ 255) : ¬ IsDigit r (Char.ofNat 0) := by
  unfold IsDigit
  have : digitVal (Char.ofNat 0) = 255 := by decide
  omega

theorem IsNumeral.no_zero {r : Nat} (hr : r ≤ 255) {s : Text} (h : IsNumeral r s) : Char.ofNat 0 ∉ s :=
  fun h0 => zero_char_not_digit r hr (h.2 _ h0)

theorem signed_eq (a : Int) (s : Text) : signed a s = (if decide (a < 0) then ['-'] else []) ++ s := by
  unfold signed
  by_cases h : a < 0
  · simp [h]
  · simp [h]

theorem sign_mul_natAbs (a : Int) : (if decide (a < 0) = true then -1 else 1) * (a.natAbs : Int) = a := by
  by_cases h : a < 0
  · simp only [h, decide_true, if_true]
    omega
  · simp only [h, decide_false, Bool.false_eq_true, if_false]
    omega

/-- C160: if both builds accept a text without underscores they read the same number. -/
theorem accepted_by_both_agrees (r : Nat) (hr : r ≤ 255) (s : Text) (a b : Int) (hs : '_' ∉ s)
    (ha : parseSigned r s = .ok a) (hb : osslParse r s = .ok b) : a = b := by
  obtain ⟨sign, body, hsign, rfl, hl, rfl⟩ := (rust_parse_ok_iff r hr s a).mp ha
  have hnum : IsNumeral r body := by
    obtain ⟨c, rest, rfl, hc⟩ := hl.head
    refine ⟨by simp, ?_⟩
    intro x hx
    rcases List.mem_cons.mp hx with rfl | hx'
    · exact hc
    · rcases hl.2 x hx' with rfl | h
      · exact absurd (by simp [hx']) hs
      · exact h
  rw [hnum.filter hr]
  rcases hsign with rfl | rfl | rfl
  · have h := (plain_text_agrees r hr false body hnum).2 (hnum.no_zero hr)
    simp only [Bool.false_eq_true, if_false] at h
    rw [h] at hb
    simp only [Res.ok.injEq] at hb
    simpa using hb
  · exfalso
    obtain ⟨-, sign, ds, rest, h1, h2, ⟨h3, h4⟩, -⟩ := (ossl_parse_ok_iff r hr _ b).mp hb
    cases ds with
    | nil => exact h3 rfl
    | cons c cs =>
      rcases h1 with rfl | rfl
      · simp only [List.cons_append, List.nil_append, List.cons.injEq] at h2
        exact not_isDigit_plus r hr (h2.1 ▸ h4 c (List.mem_cons_self ..))
      · simp at h2
  · have h := (plain_text_agrees r hr true body hnum).2 (hnum.no_zero hr)
    simp only [if_true] at h
    rw [h] at hb
    simp only [Res.ok.injEq] at hb
    simpa using hb

/-- Negation of C160 as stated: a text that both builds accept as different numbers, texts that only one accepts, and a
text for which the native build panics. -/
theorem builds_read_differently :
    fromDec "1_0".toList = .ok 10 ∧ osslFromDec "1_0".toList = .ok 1 ∧
    fromDec "+1".toList = .ok 1 ∧ osslFromDec "+1".toList = .err () ∧
    fromDec "12 apples".toList = .err () ∧ osslFromDec "12 apples".toList = .ok 12 ∧
    fromDec ['1', Char.ofNat 0] = .err () ∧ osslFromDec ['1', Char.ofNat 0] = .panic ∧
    fromHex "0x1F".toList = .err () ∧ osslFromHex "0x1F".toList = .ok 0 := by
  decide

/-! ## C158: decimal round trip -/

theorem core_digitChar (d : Nat) (h : d < 10) : Nat.digitChar d = digitChar d := by
  interval_cases d <;> rfl

theorem numeral_eq_toDigits (n : Nat) : numeral 10 n = Nat.toDigits 10 n := by
  induction n using Nat.strong_induction_on with
  | _ n ih =>
    by_cases h : n < 10
    · rw [Nat.toDigits_of_lt_base h, core_digitChar n h]
      unfold numeral
      by_cases h0 : n = 0
      · subst h0
        rfl
      · rw [if_neg h0, Nat.digits_def' (by omega) (by omega), Nat.div_eq_of_lt h, Nat.mod_eq_of_lt h]
        rfl
    · rw [Nat.toDigits_of_base_le (by omega) (by omega), ← ih (n / 10) (by omega), core_digitChar _ (Nat.mod_lt _ (by omega))]
      unfold numeral
      rw [if_neg (by omega), if_neg (by omega), Nat.digits_def' (by omega) (by omega : 0 < n)]
      simp

/-- C158: `to_dec` of both builds writes the usual decimal numeral (as Lean prints the integer). -/
theorem to_dec_is_decimal (a : Int) : toDec a = (toString a).toList ∧ osslToDec a = (toString a).toList := by
  have h : signed a (numeral 10 a.natAbs) = (toString a).toList := by
    rw [Int.toString_eq_repr, Int.repr_eq_if, numeral_eq_toDigits]
    unfold signed
    by_cases ha : a < 0
    · rw [if_pos ha, if_neg (by omega), String.toList_append, Nat.toList_repr]
      have : a.natAbs = (-a).toNat := by omega
      rw [this]
      rfl
    · rw [if_neg ha, if_pos (by omega), Nat.toList_repr]
      have : a.natAbs = a.toNat := by omega
      rw [this]
  exact ⟨h, h⟩

/-- C158: reading what either build wrote gives the number back, in either build. -/
theorem dec_round_trip (a : Int) :
    fromDec (toDec a) = .ok a ∧ osslFromDec (osslToDec a) = .ok a ∧
    fromDec (osslToDec a) = .ok a ∧ osslFromDec (toDec a) = .ok a := by
  have hn := numeral_isNumeral 10 a.natAbs (by omega) (by omega)
  obtain ⟨h1, h2⟩ := plain_text_agrees 10 (by omega) (decide (a < 0)) _ hn
  have h2 := h2 (hn.no_zero (by omega))
  rw [value_numeral 10 _ (by omega) (by omega), sign_mul_natAbs, ← signed_eq] at h1 h2
  exact ⟨h1, h2, h1, h2⟩

/-- C158: a number in a document survives serialization and deserialization, also from one build to the other. -/
theorem serde_round_trip (a : Int) :
    deserialize (serialize a) = .ok a ∧ osslDeserialize (osslSerialize a) = .ok a ∧
    deserialize (osslSerialize a) = .ok a ∧ osslDeserialize (serialize a) = .ok a := dec_round_trip a

/-- Different numbers have different texts. -/
theorem to_dec_injective (a b : Int) (h : toDec a = toDec b) : a = b := by
  have h1 := (dec_round_trip a).1
  rw [h, (dec_round_trip b).1] at h1
  simpa using h1.symm

/-! ## C159: hexadecimal round trip -/

theorem hexPairs_value (l : List Nat) (h : ∀ d ∈ l, d < 256) :
    value 16 (l.flatMap (fun b => [digitChar (b / 16), digitChar (b % 16)])) = ofDigits 256 l := by
  induction l using List.reverseRecOn with
  | nil => rfl
  | append_singleton l d ih =>
    have hd : d < 256 := h d (by simp)
    rw [ofDigits_append, ← ih (fun x hx => h x (by simp [hx]))]
    unfold value
    rw [List.flatMap_append, List.map_append]
    simp only [List.flatMap_cons, List.flatMap_nil, List.append_nil, List.map_cons, List.map_nil]
    rw [digitVal_digitChar _ (by omega), digitVal_digitChar _ (by omega), ← List.singleton_append (l := [d % 16]),
      ← List.append_assoc, ofDigits_append, ofDigits_append]
    omega

theorem hexPairs_isNumeral (l : List Nat) (h : ∀ d ∈ l, d < 256) (hl : l ≠ []) :
    IsNumeral 16 (l.flatMap (fun b => [digitChar (b / 16), digitChar (b % 16)])) := by
  refine ⟨?_, ?_⟩
  · cases l with
    | nil => exact absurd rfl hl
    | cons d l => simp
  · intro c hc
    obtain ⟨b, hb, hc⟩ := List.mem_flatMap.mp hc
    have := h b hb
    simp only [List.mem_cons, List.not_mem_nil, or_false] at hc
    rcases hc with rfl | rfl
    · show digitVal _ < 16
      rw [digitVal_digitChar _ (by omega)]
      omega
    · show digitVal _ < 16
      rw [digitVal_digitChar _ (by omega)]
      omega

/-- C159: reading the hexadecimal text of either build gives the number back, in either build. -/
theorem hex_round_trip (a : Int) :
    fromHex (toHex a) = .ok a ∧ osslFromHex (osslToHex a) = .ok a ∧
    fromHex (osslToHex a) = .ok a ∧ osslFromHex (toHex a) = .ok a := by
  have hn := numeral_isNumeral 16 a.natAbs (by omega) (by omega)
  obtain ⟨h1, h2⟩ := plain_text_agrees 16 (by omega) (decide (a < 0)) _ hn
  have h2 := h2 (hn.no_zero (by omega))
  rw [value_numeral 16 _ (by omega) (by omega), sign_mul_natAbs, ← signed_eq] at h1 h2
  by_cases h0 : a = 0
  · subst h0
    decide
  · have hlt : ∀ d ∈ (Nat.digits 256 a.natAbs).reverse, d < 256 := fun d hd =>
      Nat.digits_lt_base (by omega) (List.mem_reverse.mp hd)
    have hp := hexPairs_isNumeral _ hlt (by simp [Nat.digits_eq_nil_iff_eq_zero, h0])
    obtain ⟨h3, h4⟩ := plain_text_agrees 16 (by omega) (decide (a < 0)) _ hp
    have h4 := h4 (hp.no_zero (by omega))
    rw [hexPairs_value _ hlt, ofDigits_digits, sign_mul_natAbs, ← signed_eq] at h3 h4
    have e : osslToHex a = signed a ((Nat.digits 256 a.natAbs).reverse.flatMap (fun b => [digitChar (b / 16), digitChar (b % 16)])) := by
      unfold osslToHex
      rw [if_neg h0]
    rw [← e] at h3 h4
    exact ⟨h1, h4, h3, h2⟩

/-- The texts themselves differ between the builds: OpenSSL writes whole bytes. -/
theorem to_hex_differs : toHex 15 = "F".toList ∧ osslToHex 15 = "0F".toList ∧ toHex (-256) = "-100".toList ∧
    osslToHex (-256) = "-0100".toList ∧ toHex 255 = osslToHex 255 := by
  decide +kernel

/-- The hypotheses of `plain_text_agrees` and `accepted_by_both_agrees` are met. -/
theorem text_hypotheses_met :
    IsNumeral 10 "1234567890".toList ∧ value 10 "1234567890".toList = 1234567890 ∧
    parseSigned 10 "-42".toList = .ok (-42) ∧ osslParse 10 "-42".toList = .ok (-42) ∧ '_' ∉ "-42".toList := by
  refine ⟨⟨by decide, by decide⟩, by decide, by decide, by decide, by decide⟩

end Verif.BN
