import Verif.Common
import Mathlib.Data.Nat.Digits.Defs

/-!
# Numbers as text: `to_dec`, `from_dec`, `to_hex`, `from_hex` of both `BigNumber` backends

A `&str` is the list of its characters.  The conversions of the crate num-bigint 0.3 (pure build) and of OpenSSL (native
build: `BN_dec2bn`, `BN_hex2bn`, `BN_bn2dec`, `BN_bn2hex` behind the crate openssl) are written out.  Numbers of more than
`INT_MAX / 4` digits, which OpenSSL refuses, and exhaustion of memory are not modelled.
-/

namespace Verif.BN

/-- A text: the characters of a `&str`. -/
abbrev Text := List Char

/-- The value of a character as a digit, 255 if it is none; as in `BigUint::from_str_radix` (num-bigint), used by
libursa/src/bn/rust.rs:170-180. -/
def digitVal (c : Char) : Nat :=
  if '0' ≤ c ∧ c ≤ '9' then c.toNat - '0'.toNat
  else if 'a' ≤ c ∧ c ≤ 'z' then c.toNat - 'a'.toNat + 10
  else if 'A' ≤ c ∧ c ≤ 'Z' then c.toNat - 'A'.toNat + 10
  else 255

/-- Upper-case digit of a value below 16 (`to_str_radix(..).to_uppercase()`, libursa/src/bn/rust.rs:188-194; `BN_bn2hex`
and `BN_bn2dec`, libursa/src/bn/openssl.rs:161-169). -/
def digitChar (d : Nat) : Char :=
  match d with
  | 0 => '0' | 1 => '1' | 2 => '2' | 3 => '3' | 4 => '4' | 5 => '5' | 6 => '6' | 7 => '7' | 8 => '8' | 9 => '9'
  | 10 => 'A' | 11 => 'B' | 12 => 'C' | 13 => 'D' | 14 => 'E' | _ => 'F'

/-- The number with the given digits, most significant first. -/
def ofDigits (radix : Nat) (ds : List Nat) : Nat := ds.foldl (fun a d => a * radix + d) 0

/-! ## The pure build -/

/-- The loop of `BigUint::from_str_radix` (num-bigint) over the characters: underscores are skipped. -/
def rustDigits (radix : Nat) : Text → Option (List Nat)
  | [] => some []
  | c :: cs =>
    if c = '_' then rustDigits radix cs
    else if digitVal c < radix then (rustDigits radix cs).map (digitVal c :: ·)
    else none

/-- One leading plus sign is dropped, unless a second one follows (`BigUint::from_str_radix`). -/
def dropPlus : Text → Text
  | '+' :: '+' :: s => '+' :: '+' :: s
  | '+' :: s => s
  | s => s

/-- `BigUint::from_str_radix` (num-bigint). -/
def parseUnsigned (radix : Nat) (s : Text) : Res Unit Nat :=
  match dropPlus s with
  | [] => .err ()
  | c :: cs =>
    if c = '_' then .err ()
    else
      match rustDigits radix (c :: cs) with
      | some ds => .ok (ofDigits radix ds)
      | none => .err ()

/-- `BigInt::from_str_radix` (num-bigint): a minus sign is dropped unless a plus sign follows. -/
def parseSigned (radix : Nat) : Text → Res Unit Int
  | '-' :: '+' :: s => do let v ← parseUnsigned radix ('-' :: '+' :: s); .ok (-(v : Int))
  | '-' :: s => do let v ← parseUnsigned radix s; .ok (-(v : Int))
  | s => do let v ← parseUnsigned radix s; .ok (v : Int)

/-- libursa/src/bn/rust.rs:170-174 `from_dec` -/
def fromDec (s : Text) : Res Unit Int := parseSigned 10 s

/-- libursa/src/bn/rust.rs:176-180 `from_hex` -/
def fromHex (s : Text) : Res Unit Int := parseSigned 16 s

/-- The digits of a number, `0` for zero. -/
def numeral (radix n : Nat) : Text :=
  if n = 0 then ['0'] else (Nat.digits radix n).reverse.map digitChar

/-- A minus sign for negative numbers. -/
def signed (a : Int) (s : Text) : Text := if a < 0 then '-' :: s else s

/-- libursa/src/bn/rust.rs:188-190 `to_dec` -/
def toDec (a : Int) : Text := signed a (numeral 10 a.natAbs)

/-- libursa/src/bn/rust.rs:192-194 `to_hex` -/
def toHex (a : Int) : Text := signed a (numeral 16 a.natAbs)

/-! ## The native build -/

/-- The longest run of digits at the beginning; an error if there is none (`BN_dec2bn`, `BN_hex2bn`). -/
def osslDigits (radix : Nat) (body : Text) : Res Unit Nat :=
  match body.takeWhile (fun c => decide (digitVal c < radix)) with
  | [] => .err ()
  | d :: ds => .ok (ofDigits radix ((d :: ds).map digitVal))

/-- `BN_dec2bn` and `BN_hex2bn` behind `BigNum::from_dec_str` and `BigNum::from_hex_str`: `CString::new(..).unwrap()` panics
for a text with a zero character; then an optional minus sign and the longest run of digits are read and the rest is
ignored; without digits it is an error. -/
def osslParse (radix : Nat) (s : Text) : Res Unit Int :=
  if Char.ofNat 0 ∈ s then .panic
  else
    match s with
    | '-' :: body => do let v ← osslDigits radix body; .ok (-(v : Int))
    | body => do let v ← osslDigits radix body; .ok (v : Int)

/-- libursa/src/bn/openssl.rs:146-149 `from_dec` -/
def osslFromDec (s : Text) : Res Unit Int := osslParse 10 s

/-- libursa/src/bn/openssl.rs:151-154 `from_hex` -/
def osslFromHex (s : Text) : Res Unit Int := osslParse 16 s

/-- libursa/src/bn/openssl.rs:161-164 `to_dec` (`BN_bn2dec`) -/
def osslToDec (a : Int) : Text := signed a (numeral 10 a.natAbs)

/-- libursa/src/bn/openssl.rs:166-169 `to_hex` (`BN_bn2hex`): two digits for every byte, `0` for zero -/
def osslToHex (a : Int) : Text :=
  if a = 0 then ['0']
  else signed a ((Nat.digits 256 a.natAbs).reverse.flatMap (fun b => [digitChar (b / 16), digitChar (b % 16)]))

/-- libursa/src/bn/rust.rs:534-574 `Serialize` and `Deserialize`: a string with the decimal digits; the pure build -/
def serialize (a : Int) : Text := toDec a
/-- libursa/src/bn/rust.rs:547-574 -/
def deserialize (s : Text) : Res Unit Int := fromDec s
/-- libursa/src/bn/openssl.rs:609-647 `Serialize` and `Deserialize`, the native build -/
def osslSerialize (a : Int) : Text := osslToDec a
/-- libursa/src/bn/openssl.rs:622-647 -/
def osslDeserialize (s : Text) : Res Unit Int := osslFromDec s

end Verif.BN
