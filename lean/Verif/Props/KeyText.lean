import Verif.Wasm.Model
import Verif.Props.Symm
import Verif.Props.CLJsonForm
/-!
# Texts of keys (C176)
-/
set_option linter.unusedSimpArgs false

namespace Verif.Wasm

open Verif Symm Sig CL CL.Json

/-! ## Specification -/

/-- A text of an even number of hexadecimal digits, of either case. -/
def IsHex (s : List Char) : Prop := s.length % 2 = 0 ∧ ∀ c ∈ s, c ∈ "0123456789abcdefABCDEF".toList

instance (s : List Char) : Decidable (IsHex s) := by unfold IsHex; infer_instance

/-- The value of a hexadecimal digit: its place among the digits. -/
def digitValue (c : Char) : Nat := "0123456789abcdef".toList.idxOf c.toLower

/-- The number that a hexadecimal numeral denotes. -/
def hexNumber (s : List Char) : Nat := s.foldl (fun a c => a * 16 + digitValue c) 0

/-- The text `s` stands for the bytes `b`: two digits for every byte, and the same number. -/
def Denotes (s : List Char) (b : Bytes) : Prop := IsHex s ∧ s.length = 2 * b.length ∧ ofBe b = hexNumber s

/-! ## Hexadecimal texts -/

theorem hexVal_some {c : Char} (h : c ∈ "0123456789abcdefABCDEF".toList) :
    hexVal c = some (digitValue c) ∧ digitValue c < 16 ∧ hexDigit (digitValue c) = c.toLower := by
  have : ∀ c ∈ "0123456789abcdefABCDEF".toList,
      hexVal c = some (digitValue c) ∧ digitValue c < 16 ∧ hexDigit (digitValue c) = c.toLower := by decide +kernel
  exact this c h

theorem hexVal_none {c : Char} (h : c ∉ "0123456789abcdefABCDEF".toList) : hexVal c = none := by
  cases hv : hexVal c with
  | none => rfl
  | some v =>
    exfalso
    apply h
    have := (hexVal_spec c v).mp hv
    have key : ∀ p ∈ [(0, '0'), (1, '1'), (2, '2'), (3, '3'), (4, '4'), (5, '5'), (6, '6'), (7, '7'), (8, '8'), (9, '9'),
      (10, 'a'), (11, 'b'), (12, 'c'), (13, 'd'), (14, 'e'), (15, 'f'),
      (10, 'A'), (11, 'B'), (12, 'C'), (13, 'D'), (14, 'E'), (15, 'F')],
      p.2 ∈ "0123456789abcdefABCDEF".toList := by decide +kernel
    exact key (v, c) this

theorem isHex_cons (a b : Char) (s : List Char) : IsHex (a :: b :: s) ↔
    a ∈ "0123456789abcdefABCDEF".toList ∧ b ∈ "0123456789abcdefABCDEF".toList ∧ IsHex s := by
  unfold IsHex
  simp only [List.length_cons, List.forall_mem_cons]
  constructor
  · rintro ⟨h1, h2, h3, h4⟩
    exact ⟨h2, h3, by omega, h4⟩
  · rintro ⟨h2, h3, h1, h4⟩
    exact ⟨by omega, h2, h3, h4⟩

/-- decoding, in terms of the digits -/
theorem hexDecode_cases : ∀ s : List Char,
    (IsHex s → ∃ b, hexDecode s = some b ∧ s.length = 2 * b.length ∧ hexEncode b = s.map Char.toLower ∧
      ∀ a : Nat, b.foldl (fun acc x => acc * 256 + x.toNat) a = s.foldl (fun acc c => acc * 16 + digitValue c) a) ∧
    (¬ IsHex s → hexDecode s = none)
  | [] => by
    refine ⟨fun _ => ⟨[], rfl, rfl, rfl, fun a => rfl⟩, fun h => absurd ?_ h⟩
    exact ⟨rfl, by simp⟩
  | [c] => by
    refine ⟨fun h => ?_, fun _ => rfl⟩
    have := h.1
    simp at this
  | c :: d :: s => by
    obtain ⟨ih1, ih2⟩ := hexDecode_cases s
    rw [isHex_cons]
    constructor
    · rintro ⟨hc, hd, hs⟩
      obtain ⟨b, hb, hl, he, hv⟩ := ih1 hs
      obtain ⟨hc1, hc2, hc3⟩ := hexVal_some hc
      obtain ⟨hd1, hd2, hd3⟩ := hexVal_some hd
      have hlt : digitValue c * 16 + digitValue d < 256 := by omega
      have hn : (UInt8.ofNat (digitValue c * 16 + digitValue d)).toNat = digitValue c * 16 + digitValue d := by
        rw [UInt8.toNat_ofNat']; omega
      refine ⟨UInt8.ofNat (digitValue c * 16 + digitValue d) :: b, ?_, ?_, ?_, ?_⟩
      · simp [hexDecode, hc1, hd1, hb]
      · simp [hl]; omega
      · simp only [hexEncode, hn, List.map_cons]
        rw [show (digitValue c * 16 + digitValue d) / 16 = digitValue c by omega,
          show (digitValue c * 16 + digitValue d) % 16 = digitValue d by omega, hc3, hd3, he]
      · intro a
        simp only [List.foldl_cons, hn]
        rw [← hv]
        congr 1
        ring
    · intro h
      by_cases hc : c ∈ "0123456789abcdefABCDEF".toList
      · by_cases hd : d ∈ "0123456789abcdefABCDEF".toList
        · have hs : ¬ IsHex s := fun hs => h ⟨hc, hd, hs⟩
          simp only [hexDecode, ih2 hs]
          split <;> simp_all
        · simp only [hexDecode, hexVal_none hd]
          split <;> simp_all
      · simp only [hexDecode, hexVal_none hc]

/-- C176: a text is accepted exactly if it consists of an even number of hexadecimal digits. -/
theorem hex_accepts (s : List Char) : (∃ b, hexDecode s = some b) ↔ IsHex s := by
  obtain ⟨h1, h2⟩ := hexDecode_cases s
  constructor
  · rintro ⟨b, hb⟩
    by_contra h
    rw [h2 h] at hb
    cases hb
  · intro h
    obtain ⟨b, hb, -⟩ := h1 h
    exact ⟨b, hb⟩

theorem ofBe_inj {a b : Bytes} (hl : a.length = b.length) (h : ofBe a = ofBe b) : a = b := by
  rw [← toBe_ofBe a, ← toBe_ofBe b, hl, h]

/-- C176: the bytes read are those that the numeral denotes. -/
theorem hex_value (s : List Char) (b : Bytes) : hexDecode s = some b ↔ Denotes s b := by
  obtain ⟨h1, h2⟩ := hexDecode_cases s
  unfold Denotes
  constructor
  · intro h
    have hs : IsHex s := (hex_accepts s).mp ⟨b, h⟩
    obtain ⟨b', hb', hl, -, hv⟩ := h1 hs
    rw [h] at hb'
    cases hb'
    exact ⟨hs, hl, hv 0⟩
  · rintro ⟨hs, hl, hv⟩
    obtain ⟨b', hb', hl', -, hv'⟩ := h1 hs
    rw [hb']
    have : b' = b := ofBe_inj (by omega) ((hv' 0).trans hv.symm)
    rw [this]

/-- C176: what is written is the accepted text in lower case. -/
theorem hex_lower (s : List Char) (b : Bytes) (h : hexDecode s = some b) : hexEncode b = s.map Char.toLower := by
  obtain ⟨b', hb', -, he, -⟩ := (hexDecode_cases s).1 ((hex_accepts s).mp ⟨b, h⟩)
  rw [h] at hb'
  cases hb'
  exact he

/-- C176: two accepted texts give the same bytes exactly if they differ in the case of letters only. -/
theorem hex_same (s s' : List Char) (b b' : Bytes) (h : hexDecode s = some b) (h' : hexDecode s' = some b') :
    b = b' ↔ s.map Char.toLower = s'.map Char.toLower := by
  rw [← hex_lower s b h, ← hex_lower s' b' h']
  constructor
  · rintro rfl; rfl
  · intro e
    have := hex_round_trip b
    rw [e, hex_round_trip] at this
    exact (Option.some.inj this).symm

theorem hexEncode_isHex (b : Bytes) : IsHex (hexEncode b) := (hex_accepts _).mp ⟨b, hex_round_trip b⟩

/-! ## Keys -/

/-- C176: a key written is read back. -/
theorem key_round_trip (key : Bytes) : keyFromJson (keyToJson key) = .ok key := by
  simp [keyFromJson, keyToJson, hex_round_trip]

/-- C176: the documents that are read as a key are the strings that denote its bytes; all others are refused with an error;
in particular every length is accepted. -/
theorem key_document (j : Json) (key : Bytes) :
    (keyFromJson j = .ok key ↔ ∃ s, j = .str s ∧ Denotes s.toList key) ∧ keyFromJson j ≠ .panic := by
  cases j with
  | str s =>
    simp only [keyFromJson, Json.str.injEq, exists_eq_left', ← hex_value]
    cases hexDecode s.toList <;> simp
  | _ => simp [keyFromJson]

/-- C176 fails where it asks that a printed key does not reveal it: from what `Display` and `Debug` give, the bytes of the
key are recovered, whatever its type. -/
theorem display_reveals (name : String) (key : Bytes) :
    hexDecode (((keyDisplay name key).drop (name.toList.length + 3)).take (2 * key.length)) = some key ∧
    (keyDisplay name key).length = name.toList.length + 2 * key.length + 5 := by
  have h3 : (name.toList ++ " { ".toList).length = name.toList.length + 3 := by simp
  have e : keyDisplay name key = (name.toList ++ " { ".toList) ++ (hexEncode key ++ " }".toList) := by
    simp [keyDisplay]
  constructor
  · rw [e, List.drop_left' h3, List.take_left' (hexEncode_length key), hex_round_trip]
  · simp [keyDisplay, hexEncode_length]
    omega

/-- C176: the text printed for two keys of a type is the same only if the keys are. -/
theorem display_injective (name : String) (key key' : Bytes) (h : keyDisplay name key = keyDisplay name key') :
    key = key' := by
  obtain ⟨h1, hl⟩ := display_reveals name key
  obtain ⟨h2, hl'⟩ := display_reveals name key'
  rw [h] at h1 hl
  rw [show 2 * key.length = 2 * key'.length by omega, h2] at h1
  exact (Option.some.inj h1).symm

theorem readBytes_document (j : Json) (s : Bytes) :
    readBytes j = .ok s ↔ j = .arr (s.map (fun x => .num (x.toNat : Int))) := by
  constructor
  · intro h
    unfold readBytes at h
    obtain ⟨l, hl, hs⟩ := Res.bind_eq_ok.mp h
    cases j with
    | arr js =>
      simp only [readVec] at hl
      simp only [Res.pure_eq, Res.ok.injEq] at hs
      subst hs
      congr 1
      clear h
      induction js generalizing l with
      | nil =>
        simp only [List.mapM_nil, Res.pure_eq, Res.ok.injEq] at hl
        subst hl
        rfl
      | cons j js ih =>
        rw [List.mapM_cons] at hl
        obtain ⟨x, hx, hl⟩ := Res.bind_eq_ok.mp hl
        obtain ⟨xs, hxs, hl⟩ := Res.bind_eq_ok.mp hl
        simp only [Res.pure_eq, Res.ok.injEq] at hl
        subst hl
        rw [ih xs hxs]
        cases j with
        | num n =>
          simp only [readNat] at hx
          split at hx
          · rename_i hn
            simp only [Res.ok.injEq] at hx
            subst hx
            simp only [List.map_cons, List.map_map, Function.comp_def]
            congr 2
            rw [UInt8.toNat_ofNat']
            have : n.toNat < 256 := by omega
            omega
          · cases hx
        | _ => cases hx
    | _ => cases hl
  · rintro rfl
    exact roundTrip_bytes s

/-- C176: a key generation option written is read back, and the documents that are read as one are exactly: an object with
the one entry `UseSeed`, an array of the bytes as numbers from 0 to 255, or with the one entry `FromSecretKey`, a string
that denotes the bytes of the key. -/
theorem option_document (o : KeyGenOption) (j : Json) :
    optionFromJson (optionToJson o) = .ok o ∧
    (optionFromJson j = .ok o ↔ match o with
      | .useSeed s => j = .obj [("UseSeed", .arr (s.map (fun x => .num (x.toNat : Int))))]
      | .fromSecretKey k => ∃ t : String, j = .obj [("FromSecretKey", .str t)] ∧ Denotes t.toList k) ∧
    optionFromJson j ≠ .panic := by
  refine ⟨?_, ?_, ?_⟩
  · cases o with
    | useSeed s => simp [optionFromJson, optionToJson, roundTrip_bytes]
    | fromSecretKey k => simp [optionFromJson, optionToJson, key_round_trip]
  · match j with
    | .obj [(name, v)] =>
      simp only [optionFromJson]
      by_cases h1 : name = "UseSeed"
      · subst h1
        rw [if_pos rfl, Res.bind_eq_ok]
        cases o with
        | useSeed s =>
          simp [readBytes_document]
        | fromSecretKey k => simp
      · rw [if_neg h1]
        by_cases h2 : name = "FromSecretKey"
        · subst h2
          rw [if_pos rfl, Res.bind_eq_ok]
          cases o with
          | useSeed s => simp
          | fromSecretKey k => simp [(key_document _ _).1]
        · rw [if_neg h2]
          cases o with
          | useSeed s => simp [h1]
          | fromSecretKey k => simp [h2]
    | .obj [] | .obj (_ :: _ :: _) | .null | .bool _ | .num _ | .str _ | .arr _ =>
      cases o <;> simp [optionFromJson]
  · match j with
    | .obj [(name, v)] =>
      simp only [optionFromJson]
      split
      · exact bind_ne_panic (safe_bytes .portable v (by intro h; cases h)) (fun _ => by simp)
      · split
        · exact bind_ne_panic (key_document v []).2 (fun _ => by simp)
        · simp
    | .obj [] | .obj (_ :: _ :: _) | .null | .bool _ | .num _ | .str _ | .arr _ => simp [optionFromJson]

/-- the test of libursa/src/keys.rs:38-53 -/
example : optionToJson (.fromSecretKey [1, 1, 1, 1, 1, 1, 2]) = .obj [("FromSecretKey", .str "01010101010102")] := by
  simp only [optionToJson, keyToJson]
  have : String.ofList (hexEncode [1, 1, 1, 1, 1, 1, 2]) = "01010101010102" := by decide +kernel
  rw [this]

example : Denotes "00fF".toList [0, 255] ∧ ¬ IsHex "0".toList ∧ ¬ IsHex "0g".toList := by
  refine ⟨⟨?_, ?_, ?_⟩, ?_, ?_⟩ <;> decide +kernel

end Verif.Wasm
