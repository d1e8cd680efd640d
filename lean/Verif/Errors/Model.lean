import Verif.FFI.Model
import Verif.BN.Text
/-!
# Error texts, the stored error of each thread, and the logger

Model of libursa/src/errors/mod.rs (texts and the thread-local error), libursa/src/utils/logger.rs and libursa/src/ffi/logger.rs.  A `String` is the list of its
characters; a C string is one followed by the character 0 (a byte 0 occurs in UTF-8 exactly for that character).  The crates `failure` (the chain of contexts),
`serde_json` (`json!(..).to_string()`), `log` (`set_boxed_logger`, the level test of the macros) and `env_logger` (`try_init`) are written out as far as they matter.
-/
namespace Verif.Errors
open FFI (Kind Code)
open BN (Text numeral)

/-! ## Texts -/

/-- the fixed parts of the texts: libursa/src/errors/mod.rs:36-56, 88-103, 227-231 -/
def sParam : Text := "Invalid parameter ".toList
/-- libursa/src/errors/mod.rs:88-103 -/
def sError : Text := "Error: ".toList
/-- libursa/src/errors/mod.rs:88-103 -/
def sCaused : Text := "Caused by: ".toList
/-- libursa/src/errors/mod.rs:227-231 -/
def sOpen : Text := "{\"backtrace\":".toList
/-- libursa/src/errors/mod.rs:227-231 -/
def sNull : Text := "null".toList
/-- libursa/src/errors/mod.rs:227-231 -/
def sMessage : Text := ",\"message\":".toList

/-- the display text of a kind: libursa/src/errors/mod.rs:36-56 -/
def kindText : Kind → Text
  | .invalidState => "Invalid library state".toList
  | .invalidStructure => "Invalid structure".toList
  | .invalidParam n => sParam ++ numeral 10 n
  | .ioError => "IO error".toList
  | .proofRejected => "Proof rejected".toList
  | .revocationAccumulatorIsFull => "Revocation accumulator is full".toList
  | .invalidRevocationAccumulatorIndex => "Invalid revocation id".toList
  | .credentialRevoked => "Credential revoked".toList

/-- `UrsaCryptoError`: its kind, and the display texts of the chain of causes below it (`Context::new(msg).context(kind)` has one, `self.context(msg).context(kind)`
those of `self` too): libursa/src/errors/mod.rs:58-61, 74-81, 207-218 -/
structure Error where
  kind : Kind
  causes : List Text

/-- `err_msg` and `UrsaCryptoError::from_msg`: libursa/src/errors/mod.rs:74-81, 105-110 -/
def errMsg (k : Kind) (msg : Text) : Error := ⟨k, [msg]⟩

/-- `to_ursa`: libursa/src/errors/mod.rs:200-218; `self` is the chain of the error converted -/
def toUrsa (self : List Text) (k : Kind) (msg : Text) : Error := ⟨k, msg :: self⟩

/-- `Display for UrsaCryptoError`: libursa/src/errors/mod.rs:88-103 -/
def Error.text (e : Error) : Text :=
  sError ++ kindText e.kind ++ ['\n'] ++ (e.causes.flatMap fun c => sCaused ++ c ++ ['\n'])

/-- a hexadecimal digit, lower case -/
def hexDigit (d : Nat) : Char := if d < 10 then Char.ofNat (48 + d) else Char.ofNat (87 + d)

/-- serde_json's escape of one character, as in `json!(..).to_string()`: libursa/src/errors/mod.rs:227-231 -/
def escapeChar (c : Char) : Text :=
  if c = '"' then ['\\', '"']
  else if c = '\\' then ['\\', '\\']
  else if c.toNat = 8 then ['\\', 'b']
  else if c.toNat = 9 then ['\\', 't']
  else if c.toNat = 10 then ['\\', 'n']
  else if c.toNat = 12 then ['\\', 'f']
  else if c.toNat = 13 then ['\\', 'r']
  else if c.toNat < 32 then ['\\', 'u', '0', '0', hexDigit (c.toNat / 16), hexDigit (c.toNat % 16)]
  else [c]

/-- a JSON string -/
def jsonString (s : Text) : Text := '"' :: (s.flatMap escapeChar ++ ['"'])

/-- the text of `json!({"message": .., "backtrace": ..})` (keys in alphabetical order): libursa/src/errors/mod.rs:227-231 -/
def jsonText (bt : Option Text) (msg : Text) : Text :=
  sOpen ++ (match bt with | none => sNull | some b => jsonString b) ++ sMessage ++ jsonString msg ++ ['}']

/-- the terminator of a C string -/
def nul : Char := Char.ofNat 0

/-- `string_to_cstring`: panics if the text contains the character 0: libursa/src/utils/ctypes.rs:20-22 -/
def cstring (s : Text) : Res Unit Text := if nul ∈ s then .panic else .ok (s ++ [nul])

/-- what C code reads at a pointer to a string -/
def cRead (s : Text) : Text := s.takeWhile (· ≠ nul)

/-! ## The stored error of each thread -/

/-- `CURRENT_ERROR_C_JSON` of each thread (a pointer to a string of the heap), and the live strings: libursa/src/errors/mod.rs:220-222 -/
structure Mem where
  slot : Nat → Option Nat
  heap : Nat → Option Text

/-- at the start no thread has an error -/
def Mem.empty : Mem := ⟨fun _ => none, fun _ => none⟩

/-- the string of the slot is dropped -/
def Mem.dropOld (m : Mem) (t : Nat) : Nat → Option Text := fun a => if m.slot t = some a then none else m.heap a

/-- `set_current_error` by thread `t`; `a` is the address that the allocator gives to the new string, which is allocated before the old one is freed:
libursa/src/errors/mod.rs:224-234 -/
def Mem.setError (m : Mem) (t : Nat) (bt : Option Text) (e : Error) (a : Nat) : Res Unit Mem := do
  let s ← cstring (jsonText bt e.text)
  pure { slot := fun x => if x = t then some a else m.slot x, heap := fun x => if x = a then some s else m.dropOld t x }

/-- `get_current_error_c_json`: libursa/src/errors/mod.rs:236-243; `ursa_get_current_error`: libursa/src/ffi/mod.rs:178-189 -/
def Mem.getError (m : Mem) (t : Nat) : Option Nat := m.slot t

/-- the end of a thread: its thread-local values are dropped: libursa/src/errors/mod.rs:220-222 -/
def Mem.exit (m : Mem) (t : Nat) : Mem := { slot := fun x => if x = t then none else m.slot x, heap := m.dropOld t }

/-! ## The logger -/

/-- a record as the macros of the crate `log` make it; levels: 1 error, 2 warn, 3 info, 4 debug, 5 trace -/
structure Record where
  level : Nat
  target : Text
  message : Text
  modulePath : Option Text
  file : Option Text
  line : Option Nat

/-- the arguments that a `LogCB` is called with: libursa/src/utils/logger.rs:19-27; strings as C reads them -/
structure CRecord where
  context : Nat
  level : Nat
  target : Text
  message : Text
  modulePath : Option Text
  file : Option Text
  line : Nat
deriving DecidableEq

/-- `map(|a| CString::new(a).unwrap())` of an optional text -/
def cstringOpt : Option Text → Res Unit (Option Text)
  | none => .ok none
  | some s => do pure (some (← cstring s))

/-- a custom logger (`HLCryptoLogger`, libursa/src/utils/logger.rs:31-36) or the default one (libursa/src/utils/logger.rs:118-142): the level filter and the filter of
the directives of env_logger.  `id` stands for the callbacks, `enabled` is what the caller's callback of that name answers. -/
inductive Logger where
  | custom (id context : Nat) (enabled : Option (Nat → Text → Bool))
  | default (filter : Nat) (directives : Nat → Text → Bool)

/-- `HLCryptoLogger::log`: libursa/src/utils/logger.rs:66-90: the call of the callback -/
def customLog (context : Nat) (r : Record) : Res Unit CRecord := do
  let target ← cstring r.target
  let message ← cstring r.message
  let modulePath ← cstringOpt r.modulePath
  let file ← cstringOpt r.file
  pure ⟨context, r.level, cRead target, cRead message, modulePath.map cRead, file.map cRead, r.line.getD 0⟩

/-- `HLCryptoLogger::enabled`: libursa/src/utils/logger.rs:55-64 -/
def customEnabled (enabled : Option (Nat → Text → Bool)) (level : Nat) (target : Text) : Res Unit Bool :=
  match enabled with
  | some cb => do
    let t ← cstring target
    pure (cb level (cRead t))
  | none => .ok true

/-- where a record goes -/
inductive Delivery where
  /-- dropped: no logger, or filtered out -/
  | dropped
  /-- the callback of logger `id` is called -/
  | callback (id : Nat) (r : CRecord)
  /-- written by the default logger -/
  | written (r : Record)

/-- the level that `init` sets: libursa/src/utils/logger.rs:111-112 (`Trace`), 137-138 (the filter of env_logger) -/
def Logger.maxLevel : Logger → Nat
  | .custom _ _ _ => 5
  | .default f _ => f

/-- the method `log` of a logger: libursa/src/utils/logger.rs:66-90, 118-142 -/
def Logger.log : Logger → Record → Res Unit Delivery
  | .custom id context _, r => do
    let c ← customLog context r
    pure (.callback id c)
  | .default _ d, r => .ok (if d r.level r.target then .written r else .dropped)

/-- the state of the crate `log`: `UNINITIALIZED`, `INITIALIZING` or `INITIALIZED` -/
inductive Global where
  | uninit
  | initializing
  | init (l : Logger)

/-- where a thread is in `ursa_set_logger` or `ursa_set_default_logger`: libursa/src/ffi/logger.rs:24-50, 63-82, libursa/src/utils/logger.rs:102-115, 121-142.
`set_boxed_logger` is two steps (compare-and-exchange, store), `set_max_level` is a third. -/
inductive Pc where
  | idle
  | trying (l : Logger)
  | claimed (l : Logger)
  | published (l : Logger)

/-- all threads -/
structure World where
  global : Global
  maxLevel : Nat
  pc : Nat → Pc

/-- at the start there is no logger and the level is `Off` -/
def World.start : World := ⟨.uninit, 0, fun _ => .idle⟩

/-- what can be observed: a call begins, a call returns a code, a record is logged -/
inductive Event where
  | call (t : Nat) (l : Option Logger)
  | returned (t : Nat) (l : Option Logger) (c : Code)
  | logged (t : Nat) (r : Record) (d : Res Unit Delivery)

/-- set the position of one thread -/
def World.at (w : World) (t : Nat) (p : Pc) : World := { w with pc := fun x => if x = t then p else w.pc x }

/-- the macros of the crate `log`: the level test, then `logger().log(record)`; `enabled` is not asked -/
def World.log (w : World) (r : Record) : Res Unit Delivery :=
  if r.level ≤ w.maxLevel then
    match w.global with
    | .init l => l.log r
    | _ => .ok .dropped
  else .ok .dropped

/-- one step of one thread.  A call without `log` callback (libursa/src/ffi/logger.rs:39-39) or with a pattern that
is not UTF-8 (libursa/src/ffi/logger.rs:67-67) is refused at once; an error of `set_boxed_logger` is `InvalidState` (libursa/src/errors/mod.rs:118-123).  A thread that finds the state `INITIALIZING` waits. -/
inductive Step : World → List Event → World → Prop
  | call (w : World) (t : Nat) (l : Logger) (h : w.pc t = .idle) : Step w [.call t (some l)] (w.at t (.trying l))
  | refused (w : World) (t : Nat) (h : w.pc t = .idle) (c : Code) (hc : c = .param3 ∨ c = .param1) : Step w [.call t none, .returned t none c] w
  | claim (w : World) (t : Nat) (l : Logger) (h : w.pc t = .trying l) (hg : w.global = .uninit) :
      Step w [] ({ w with global := .initializing }.at t (.claimed l))
  | refuse (w : World) (t : Nat) (l l' : Logger) (h : w.pc t = .trying l) (hg : w.global = .init l') :
      Step w [.returned t (some l) .invalidState] (w.at t .idle)
  | publish (w : World) (t : Nat) (l : Logger) (h : w.pc t = .claimed l) : Step w [] ({ w with global := .init l }.at t (.published l))
  | level (w : World) (t : Nat) (l : Logger) (h : w.pc t = .published l) :
      Step w [.returned t (some l) .success] ({ w with maxLevel := l.maxLevel }.at t .idle)
  | log (w : World) (t : Nat) (r : Record) : Step w [.logged t r (w.log r)] w

/-- any number of steps, and what was observed -/
inductive Steps : World → List Event → World → Prop
  | refl (w : World) : Steps w [] w
  | snoc {w w1 w2 : World} {h e : List Event} (s : Steps w h w1) (st : Step w1 e w2) : Steps w (h ++ e) w2

end Verif.Errors
