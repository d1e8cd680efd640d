import Verif.Errors.Model
import Verif.Props.BNText
import Mathlib.Tactic.IntervalCases
set_option linter.unusedVariables false
set_option linter.unusedSimpArgs false
/-!
# Error texts, the stored error of each thread, and the logger (C183-C186)
-/
namespace Verif.Errors
open FFI (Kind Code)
open BN (Text numeral)

/-! ## C183: the error document -/

/-- the value of a hexadecimal digit -/
def hexVal (c : Char) : Option Nat :=
  if '0' ≤ c ∧ c ≤ '9' then some (c.toNat - 48)
  else if 'a' ≤ c ∧ c ≤ 'f' then some (c.toNat - 87)
  else if 'A' ≤ c ∧ c ≤ 'F' then some (c.toNat - 55)
  else none

/-- Reading the rest of a JSON string after the opening quote (RFC 8259, without surrogate pairs): its value, and what follows the closing quote. -/
def readRest : Text → Option (Text × Text)
  | [] => none
  | '"' :: rest => some ([], rest)
  | '\\' :: '"' :: rest => (readRest rest).map fun r => ('"' :: r.1, r.2)
  | '\\' :: '\\' :: rest => (readRest rest).map fun r => ('\\' :: r.1, r.2)
  | '\\' :: '/' :: rest => (readRest rest).map fun r => ('/' :: r.1, r.2)
  | '\\' :: 'b' :: rest => (readRest rest).map fun r => (Char.ofNat 8 :: r.1, r.2)
  | '\\' :: 'f' :: rest => (readRest rest).map fun r => (Char.ofNat 12 :: r.1, r.2)
  | '\\' :: 'n' :: rest => (readRest rest).map fun r => (Char.ofNat 10 :: r.1, r.2)
  | '\\' :: 'r' :: rest => (readRest rest).map fun r => (Char.ofNat 13 :: r.1, r.2)
  | '\\' :: 't' :: rest => (readRest rest).map fun r => (Char.ofNat 9 :: r.1, r.2)
  | '\\' :: 'u' :: a :: b :: c :: d :: rest =>
    match hexVal a, hexVal b, hexVal c, hexVal d with
    | some a, some b, some c, some d => (readRest rest).map fun r => (Char.ofNat (((a * 16 + b) * 16 + c) * 16 + d) :: r.1, r.2)
    | _, _, _, _ => none
  | '\\' :: _ => none
  | c :: rest => if c.toNat < 32 then none else (readRest rest).map fun r => (c :: r.1, r.2)

/-- drop a prefix -/
def expect : Text → Text → Option Text
  | [], s => some s
  | c :: p, d :: s => if c = d then expect p s else none
  | _ :: _, [] => none

/-- Reading the document `{"backtrace": null or string, "message": string}`, all of it. -/
def readDocument (s : Text) : Option (Option Text × Text) := do
  let s ← expect "{\"backtrace\":".toList s
  let (bt, s) ← match expect "null".toList s with
    | some s => some (none, s)
    | none => do
      let s ← expect "\"".toList s
      let r ← readRest s
      some (some r.1, r.2)
  let s ← expect ",\"message\":".toList s
  let s ← expect "\"".toList s
  let r ← readRest s
  if r.2 = "}".toList then some (bt, r.1) else none

theorem expect_append (p s : Text) : expect p (p ++ s) = some s := by
  induction p with
  | nil => rfl
  | cons c p ih => simp [expect, ih]

theorem char_toNat_ofNat (c : Char) : Char.ofNat c.toNat = c := Char.ofNat_toNat c

/-- one escaped character is read back -/
theorem readRest_escape (c : Char) (rest : Text) : readRest (escapeChar c ++ rest) = (readRest rest).map fun r => (c :: r.1, r.2) := by
  unfold escapeChar
  by_cases h1 : c = '"'
  · subst h1; rw [if_pos rfl]; rfl
  rw [if_neg h1]
  by_cases h2 : c = '\\'
  · subst h2; rw [if_pos rfl]; rfl
  rw [if_neg h2]
  have hc := char_toNat_ofNat c
  by_cases h8 : c.toNat = 8
  · rw [if_pos h8, ← hc, h8]; rfl
  rw [if_neg h8]
  by_cases h9 : c.toNat = 9
  · rw [if_pos h9, ← hc, h9]; rfl
  rw [if_neg h9]
  by_cases h10 : c.toNat = 10
  · rw [if_pos h10, ← hc, h10]; rfl
  rw [if_neg h10]
  by_cases h12 : c.toNat = 12
  · rw [if_pos h12, ← hc, h12]; rfl
  rw [if_neg h12]
  by_cases h13 : c.toNat = 13
  · rw [if_pos h13, ← hc, h13]; rfl
  rw [if_neg h13]
  by_cases h32 : c.toNat < 32
  · rw [if_pos h32]
    generalize hn : c.toNat = n at *
    rw [← hc]
    interval_cases n <;> first | rfl | omega
  · rw [if_neg h32]
    simp only [List.singleton_append]
    rw [readRest]
    · rw [if_neg h32]
    all_goals (intros; simp_all)

theorem readRest_jsonString (s rest : Text) : readRest (s.flatMap escapeChar ++ '"' :: rest) = some (s, rest) := by
  induction s with
  | nil => simp [readRest]
  | cons c s ih => rw [List.flatMap_cons, List.append_assoc, readRest_escape, ih]; rfl

/-- the escapes never contain a control character, so in particular not the character 0 -/
theorem escape_printable (c d : Char) (h : d ∈ escapeChar c) : 32 ≤ d.toNat := by
  unfold escapeChar at h
  by_cases h1 : c = '"'
  · rw [if_pos h1] at h; revert h; simp only [List.mem_cons, List.not_mem_nil, or_false]; rintro (rfl | rfl) <;> decide
  rw [if_neg h1] at h
  by_cases h2 : c = '\\'
  · rw [if_pos h2] at h; revert h; simp only [List.mem_cons, List.not_mem_nil, or_false]; rintro (rfl | rfl) <;> decide
  rw [if_neg h2] at h
  by_cases h8 : c.toNat = 8
  · rw [if_pos h8] at h; revert h; simp only [List.mem_cons, List.not_mem_nil, or_false]; rintro (rfl | rfl) <;> decide
  rw [if_neg h8] at h
  by_cases h9 : c.toNat = 9
  · rw [if_pos h9] at h; revert h; simp only [List.mem_cons, List.not_mem_nil, or_false]; rintro (rfl | rfl) <;> decide
  rw [if_neg h9] at h
  by_cases h10 : c.toNat = 10
  · rw [if_pos h10] at h; revert h; simp only [List.mem_cons, List.not_mem_nil, or_false]; rintro (rfl | rfl) <;> decide
  rw [if_neg h10] at h
  by_cases h12 : c.toNat = 12
  · rw [if_pos h12] at h; revert h; simp only [List.mem_cons, List.not_mem_nil, or_false]; rintro (rfl | rfl) <;> decide
  rw [if_neg h12] at h
  by_cases h13 : c.toNat = 13
  · rw [if_pos h13] at h; revert h; simp only [List.mem_cons, List.not_mem_nil, or_false]; rintro (rfl | rfl) <;> decide
  rw [if_neg h13] at h
  by_cases h32 : c.toNat < 32
  · rw [if_pos h32] at h
    generalize c.toNat = n at *
    have hd : ∀ m < 16, 32 ≤ (hexDigit m).toNat := by decide
    simp only [List.mem_cons, List.not_mem_nil, or_false] at h
    rcases h with rfl | rfl | rfl | rfl | rfl | rfl
    · decide
    · decide
    · decide
    · decide
    · exact hd _ (by omega)
    · exact hd _ (by omega)
  · rw [if_neg h32] at h
    simp only [List.mem_cons, List.not_mem_nil, or_false] at h
    subst h; omega

theorem jsonString_printable (s : Text) (d : Char) (h : d ∈ jsonString s) : 32 ≤ d.toNat := by
  simp only [jsonString, List.mem_cons, List.mem_append, List.mem_flatMap, List.not_mem_nil, or_false] at h
  rcases h with rfl | ⟨c, -, h⟩ | rfl
  · decide
  · exact escape_printable c d h
  · decide

theorem jsonText_printable (bt : Option Text) (msg : Text) (d : Char) (h : d ∈ jsonText bt msg) : 32 ≤ d.toNat := by
  simp only [jsonText, List.mem_append] at h
  have k1 : ∀ d ∈ sOpen, 32 ≤ d.toNat := by decide +kernel
  have k2 : ∀ d ∈ sNull, 32 ≤ d.toNat := by decide +kernel
  have k3 : ∀ d ∈ sMessage, 32 ≤ d.toNat := by decide +kernel
  have k4 : ∀ d ∈ ['}'], 32 ≤ d.toNat := by decide +kernel
  rcases h with (((h | h) | h) | h) | h
  · exact k1 d h
  · cases bt with
    | none => exact k2 d h
    | some b => exact jsonString_printable b d h
  · exact k3 d h
  · exact jsonString_printable msg d h
  · exact k4 d h

theorem nul_notMem (bt : Option Text) (msg : Text) : nul ∉ jsonText bt msg := fun h => by
  have := jsonText_printable bt msg nul h
  revert this; decide

/-- **C183.** The stored text is a JSON document that says the message and the backtrace, whatever characters they contain (quotes, line feeds, the character 0). -/
theorem document_read (bt : Option Text) (msg : Text) : readDocument (jsonText bt msg) = some (bt, msg) := by
  have eq1 : "\"".toList = ['"'] := by decide +kernel
  have eq2 : "}".toList = ['}'] := by decide +kernel
  have hq : ∀ b y, expect ['"'] (jsonString b ++ y) = some (b.flatMap escapeChar ++ '"' :: y) := by intro b y; simp [jsonString, expect]
  have hnull : ∀ b y, expect sNull (jsonString b ++ y) = none := by
    intro b y
    have : sNull = ['n', 'u', 'l', 'l'] := by decide +kernel
    simp [this, jsonString, expect]
  unfold readDocument
  rw [eq1, eq2, show "{\"backtrace\":".toList = sOpen from rfl, show "null".toList = sNull from rfl, show ",\"message\":".toList = sMessage from rfl]
  unfold jsonText
  cases bt with
  | none => simp only [List.append_assoc, expect_append, Option.bind_eq_bind, Option.bind_some, hq, readRest_jsonString, if_pos]
  | some b => simp only [List.append_assoc, expect_append, Option.bind_eq_bind, Option.bind_some, hq, hnull, readRest_jsonString, if_pos]

/-- **C183.** Storing an error never crashes, and C code that reads the string up to its terminator gets the whole document. -/
theorem store_text (bt : Option Text) (e : Error) :
    ∃ s, cstring (jsonText bt e.text) = .ok s ∧ cRead s = jsonText bt e.text ∧ readDocument (cRead s) = some (bt, e.text) := by
  have hn := nul_notMem bt e.text
  refine ⟨_, if_neg hn, ?_, ?_⟩
  · rw [cRead, List.takeWhile_append_of_pos]
    · simp
    · intro a ha; simp only [ne_eq, decide_not, Bool.not_eq_eq_eq_not, Bool.not_true, decide_eq_false_iff_not]; rintro rfl; exact hn ha
  · rw [cRead, List.takeWhile_append_of_pos]
    · simp [document_read]
    · intro a ha; simp only [ne_eq, decide_not, Bool.not_eq_eq_eq_not, Bool.not_true, decide_eq_false_iff_not]; rintro rfl; exact hn ha

/-- the first line of a text -/
def firstLine (s : Text) : Text := s.takeWhile (· ≠ '\n')

theorem kindText_param (n : Nat) : kindText (.invalidParam n) = sParam ++ numeral 10 n := rfl

theorem kindText_no_newline (k : Kind) : '\n' ∉ kindText k := by
  cases k with
  | invalidParam n =>
    rw [kindText_param, List.mem_append, not_or]
    refine ⟨by decide +kernel, fun h => ?_⟩
    have := (BN.numeral_isNumeral 10 n (by omega) (by omega))
    have h2 := this.2 '\n' h
    exact absurd h2 (by rw [BN.isDigit_ten_iff]; decide)
  | _ => decide +kernel

theorem param_take (n : Nat) : (kindText (.invalidParam n)).take 18 = sParam :=
  List.take_left' (by decide +kernel)

theorem kindText_inj (k k' : Kind) (h : kindText k = kindText k') : k = k' := by
  cases k with
  | invalidParam n =>
    cases k' with
    | invalidParam m =>
      rw [kindText_param, kindText_param] at h
      have h := List.append_cancel_left h
      have h1 := BN.value_numeral 10 n (by omega) (by omega)
      have h2 := BN.value_numeral 10 m (by omega) (by omega)
      rw [h] at h1
      rw [← h1, h2]
    | _ =>
      have h := congrArg (List.take 18) h
      rw [param_take] at h
      exact absurd h (by decide +kernel)
  | _ =>
    cases k' with
    | invalidParam m =>
      have h := congrArg (List.take 18) h
      rw [param_take] at h
      exact absurd h (by decide +kernel)
    | _ => first | rfl | exact absurd h (by decide +kernel)

/-- **C183.** The kind of an error can be read off the first line of the message; so messages of errors of different kinds are different. -/
theorem message_kind (e : Error) : firstLine e.text = "Error: ".toList ++ kindText e.kind := by
  have hk := kindText_no_newline e.kind
  rw [show "Error: ".toList = sError from rfl, firstLine, Error.text, List.append_assoc, List.takeWhile_append_of_pos]
  · simp
  · intro a ha
    simp only [ne_eq, decide_not, Bool.not_eq_eq_eq_not, Bool.not_true, decide_eq_false_iff_not]
    rintro rfl
    rcases List.mem_append.1 ha with h | h
    · exact absurd h (by decide +kernel)
    · exact hk h

theorem message_kind_inj (e e' : Error) (h : e.text = e'.text) : e.kind = e'.kind := by
  have h1 := message_kind e
  rw [h, message_kind e'] at h1
  exact (kindText_inj _ _ (List.append_cancel_left h1)).symm

/-- **C183 is not vacuous**: a message with a quote, a line feed and a character 0. -/
theorem document_met : readDocument (jsonText none ((errMsg (.invalidParam 7) ("a\"".toList ++ [nul] ++ "\nb".toList)).text)) =
    some (none, "Error: Invalid parameter 7\nCaused by: a\"".toList ++ [nul] ++ "\nb\n".toList) := by
  rw [document_read]
  have : (errMsg (.invalidParam 7) ("a\"".toList ++ [nul] ++ "\nb".toList)).text = "Error: Invalid parameter 7\nCaused by: a\"".toList ++ [nul] ++ "\nb\n".toList := by
    decide +kernel
  rw [this]

/-- **C183** An error converted from another one tells the new message first and keeps all causes, in order: every line of the text
after the first is "Caused by: " and one of them. -/
theorem converted_text (self : List Text) (k : Kind) (msg : Text) : (toUrsa self k msg).text =
    "Error: ".toList ++ kindText k ++ ['\n'] ++ ("Caused by: ".toList ++ msg ++ ['\n']) ++ (self.flatMap fun c => "Caused by: ".toList ++ c ++ ['\n']) := by
  unfold toUrsa Error.text
  simp only [List.flatMap_cons, List.append_assoc]
  rfl

end Verif.Errors
