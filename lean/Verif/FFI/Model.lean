/-!
# The C interface: opaque pointers, checks, error codes

Model of the part of `libursa/src/ffi` that works on opaque pointers: the 121 functions of
`libursa/src/ffi/bls.rs` and `libursa/src/ffi/cl/{mod,issuer,prover,verifier}.rs`, the checking
macros of `libursa/src/utils/ctypes.rs` and the error codes and the stored error of
`libursa/src/errors/mod.rs` and `libursa/src/ffi/mod.rs`.

Every function of the code has the same shape: a sequence of checking macros, then possibly
`Box::from_raw` on an argument, then one call of the Rust library, then writes through the out
pointers.  `Sig` records that sequence and `call` executes it.  The table `sig` (in
`Verif/FFI/Table.lean`) lists the sequence of each function, as it is in the code.

Simplifications: what the library call does to the content of the objects is not modelled here
(other modules do that), only whether it succeeds, and `trace!` output is dropped.  Memory is a map
from addresses to the type of the live object.  Anything that Rust leaves undefined (dereferencing
a null or dangling pointer, or a pointer to an object of another type, reading past the end of an
array, two references to one object of which one is mutable) has the outcome `undefined`.
-/

namespace Verif.FFI

/-- `UrsaCryptoErrorKind`: libursa/src/errors/mod.rs:36-56. -/
inductive Kind where
  | invalidState | invalidStructure | invalidParam (n : Nat) | ioError
  | proofRejected | revocationAccumulatorIsFull | invalidRevocationAccumulatorIndex
  | credentialRevoked
  deriving DecidableEq, Repr

/-- `ErrorCode`: libursa/src/ffi/mod.rs:91-157. -/
inductive Code where
  | success
  | param1 | param2 | param3 | param4 | param5 | param6
  | param7 | param8 | param9 | param10 | param11 | param12
  | invalidState | invalidStructure | ioError
  | revocationAccumulatorIsFull | invalidRevocationAccumulatorIndex | credentialRevoked
  | proofRejected
  deriving DecidableEq, Repr

/-- The number a C caller sees: libursa/src/ffi/mod.rs:91-157. -/
def Code.toNat : Code → Nat
  | .success => 0
  | .param1 => 100 | .param2 => 101 | .param3 => 102 | .param4 => 103
  | .param5 => 104 | .param6 => 105 | .param7 => 106 | .param8 => 107
  | .param9 => 108 | .param10 => 109 | .param11 => 110 | .param12 => 111
  | .invalidState => 112 | .invalidStructure => 113 | .ioError => 114
  | .revocationAccumulatorIsFull => 115 | .invalidRevocationAccumulatorIndex => 116
  | .credentialRevoked => 117 | .proofRejected => 118

/-- `impl From<UrsaCryptoErrorKind> for ErrorCode`: libursa/src/errors/mod.rs:125-157. -/
def Code.ofKind : Kind → Code
  | .invalidState => .invalidState
  | .invalidStructure => .invalidStructure
  | .invalidParam 1 => .param1 | .invalidParam 2 => .param2 | .invalidParam 3 => .param3
  | .invalidParam 4 => .param4 | .invalidParam 5 => .param5 | .invalidParam 6 => .param6
  | .invalidParam 7 => .param7 | .invalidParam 8 => .param8 | .invalidParam 9 => .param9
  | .invalidParam 10 => .param10 | .invalidParam 11 => .param11 | .invalidParam 12 => .param12
  | .invalidParam _ => .invalidState
  | .ioError => .ioError
  | .proofRejected => .proofRejected
  | .revocationAccumulatorIsFull => .revocationAccumulatorIsFull
  | .invalidRevocationAccumulatorIndex => .invalidRevocationAccumulatorIndex
  | .credentialRevoked => .credentialRevoked

/-- `impl From<ErrorCode> for UrsaCryptoErrorKind`: libursa/src/errors/mod.rs:159-189. -/
def Kind.ofCode : Code → Kind
  | .invalidState => .invalidState
  | .invalidStructure => .invalidStructure
  | .param1 => .invalidParam 1 | .param2 => .invalidParam 2 | .param3 => .invalidParam 3
  | .param4 => .invalidParam 4 | .param5 => .invalidParam 5 | .param6 => .invalidParam 6
  | .param7 => .invalidParam 7 | .param8 => .invalidParam 8 | .param9 => .invalidParam 9
  | .param10 => .invalidParam 10 | .param11 => .invalidParam 11 | .param12 => .invalidParam 12
  | .ioError => .ioError
  | .proofRejected => .proofRejected
  | .revocationAccumulatorIsFull => .revocationAccumulatorIsFull
  | .invalidRevocationAccumulatorIndex => .invalidRevocationAccumulatorIndex
  | .credentialRevoked => .credentialRevoked
  | .success => .invalidState

/-- The Rust types of the objects that the C interface boxes and hands out as opaque pointers.
The constructors are named after the types (libursa/src/ffi/bls.rs:1-1, libursa/src/ffi/cl/mod.rs:1-13);
`unit` is the type `()`, boxed in libursa/src/ffi/cl/issuer.rs:1996-1996 (such a box has an address but
no memory; here it is an object like the others). -/
inductive Ty where
  | blindedCredentialSecrets | blindedCredentialSecretsCorrectnessProof
  | credentialKeyCorrectnessProof | credentialPrivateKey
  | credentialPublicKey | credentialSchema
  | credentialSchemaBuilder | credentialSecretsBlindingFactors
  | credentialSignature | credentialValues
  | credentialValuesBuilder | generator
  | masterSecret | multiSignature
  | nonCredentialSchema | nonCredentialSchemaBuilder
  | nonce | proof
  | proofBuilder | proofOfPossession
  | proofVerifier | revocationKeyPrivate
  | revocationKeyPublic | revocationRegistry
  | revocationRegistryDelta | revocationTailsGenerator
  | signKey | signature
  | signatureCorrectnessProof | subProofRequest
  | subProofRequestBuilder | tail
  | unit | verKey
  | witness
  deriving DecidableEq, Repr


/-- What a parameter of a C function is, by its C type, its name and its documentation.  These are
the declarations of the functions, e.g. libursa/src/ffi/bls.rs:999-1007. -/
inductive Param where
  /-- `*const c_void`: pointer to an instance of the given type -/
  | handle (t : Ty)
  /-- the same, documented as optional -/
  | optHandle (t : Ty)
  /-- `*mut *const c_void`: cell that receives a pointer to a new instance -/
  | outHandle (t : Ty)
  /-- `*mut bool`, `*mut u32`, `*mut usize`, `*mut *const u8`, `*mut *const c_char` -/
  | outValue
  /-- `*const c_char` -/
  | cstr
  /-- `*const u8` and its length -/
  | bytes | bytesLen
  /-- `*const u8`, documented as optional, and its length -/
  | optBytes | optBytesLen
  /-- `*const *const c_void`: array of pointers to instances, and its length -/
  | handles (t : Ty) | handlesLen
  /-- `*const u32` and its length -/
  | u32s | u32sLen
  /-- `u32`, `i32`, `bool` -/
  | scalar
  /-- `ctx_tails`, passed to the callbacks and not used otherwise -/
  | ctx
  /-- `FFITailTake`, `FFITailPut` -/
  | callback
  deriving DecidableEq, Repr

/-- A call of a checking macro; numbers are positions of parameters, counted from 0.
libursa/src/utils/ctypes.rs:24-190. -/
inductive Check where
  /-- `check_useful_c_ptr!`: libursa/src/utils/ctypes.rs:141-148 -/
  | ptr (i : Nat) (c : Code)
  /-- `check_useful_c_reference!`: libursa/src/utils/ctypes.rs:66-75 -/
  | ref (i : Nat) (t : Ty) (c : Code)
  /-- `check_useful_mut_c_reference!`: libursa/src/utils/ctypes.rs:78-87 -/
  | mutRef (i : Nat) (t : Ty) (c : Code)
  /-- `check_useful_opt_c_reference!`: libursa/src/utils/ctypes.rs:90-98 -/
  | optRef (i : Nat) (t : Ty)
  /-- `check_useful_c_byte_array!`: libursa/src/utils/ctypes.rs:25-42 -/
  | bytes (i j : Nat) (c1 c2 : Code)
  /-- `check_useful_opt_c_byte_array!` (its first code is not used):
  libursa/src/utils/ctypes.rs:45-58 -/
  | optBytes (i j : Nat) (c2 : Code)
  /-- `check_useful_c_reference_array!`: libursa/src/utils/ctypes.rs:101-121 -/
  | refArray (i j : Nat) (t : Ty) (c1 c2 : Code)
  /-- `check_useful_hashset!`: libursa/src/utils/ctypes.rs:124-133 -/
  | hashset (i j : Nat) (c1 c2 : Code)
  /-- `check_useful_c_str!`: libursa/src/utils/ctypes.rs:151-166 -/
  | str (i : Nat) (c : Code)
  deriving DecidableEq, Repr

/-- What is written through an out pointer when the library call succeeds. -/
inductive Out where
  /-- `Box::into_raw(Box::new(x))` with `x` of the given Rust type -/
  | box (t : Ty)
  /-- the same for an optional result, null for `None`: libursa/src/ffi/cl/mod.rs:41-47 -/
  | boxOrNull (t : Ty)
  /-- a number, a truth value, a byte slice of the object or a new C string -/
  | value
  deriving DecidableEq, Repr

/-- The declaration and the body of one function. -/
structure Sig where
  params : List Param
  checks : List Check
  /-- `Box::from_raw(arg as *mut T)`: the object is dropped when the function returns -/
  takes : List (Nat × Ty) := []
  /-- `&*(arg as *const T)` outside the macros: libursa/src/ffi/bls.rs:836-836 -/
  derefs : List (Nat × Ty) := []
  /-- whether the library call returns a `Result` -/
  fallible : Bool := true
  outs : List (Nat × Out) := []
  deriving DecidableEq, Repr

/-- A C string argument as `c_str_to_string` sees it: libursa/src/utils/ctypes.rs:7-18. -/
inductive CStr where
  | null | notUtf8 | text (length : Nat)
  deriving DecidableEq, Repr

/-- The arguments of a call.  A handle is an address or null; an array is null or has elements. -/
inductive Arg where
  | handle (p : Option Nat)
  | out (nonNull : Bool)
  | str (s : CStr)
  /-- pointer to so many bytes or words, or null -/
  | buf (size : Option Nat)
  | arr (xs : Option (List (Option Nat)))
  | num (n : Nat)
  | opaque
  deriving DecidableEq, Repr

/-- The objects that are alive, by address, and the error stored for the calling thread
(`CURRENT_ERROR_C_JSON`): libursa/src/errors/mod.rs:220-222. -/
structure State where
  heap : Nat → Option Ty
  lastErr : Option Kind

/-- The result of one check: the addresses borrowed (with `true` for a mutable reference), or the
code returned together with the kind stored by `set_current_error`, or undefined behaviour. -/
inductive Checked where
  | pass (borrows : List (Nat × Bool))
  | refused (c : Code) (k : Kind)
  | undefined
  deriving DecidableEq, Repr

/-- `ptr.is_null()` for any pointer argument. -/
def Arg.isNull : Arg → Bool
  | .handle none => true
  | .out false => true
  | .str .null => true
  | .buf none => true
  | .arr none => true
  | _ => false

/-- `&*(p as *const T)`. -/
def deref (heap : Nat → Option Ty) (t : Ty) (m : Bool) (a : Nat) : Checked :=
  if heap a = some t then .pass [(a, m)] else .undefined

/-- The elements of an array of pointers are dereferenced without a check:
libursa/src/utils/ctypes.rs:116-119. -/
def derefAll (heap : Nat → Option Ty) (t : Ty) : List (Option Nat) → Checked
  | [] => .pass []
  | none :: _ => .undefined
  | some a :: xs =>
    if heap a = some t then
      match derefAll heap t xs with
      | .pass bs => .pass ((a, false) :: bs)
      | r => r
    else .undefined

/-- One checking macro: libursa/src/utils/ctypes.rs:24-190.  For a null array the message is stored
for the second code although the first is returned (lines 104-105 and 127-128). -/
def Check.run (heap : Nat → Option Ty) (args : List Arg) : Check → Checked
  | .ptr i c =>
    match args[i]? with
    | some a => if a.isNull then .refused c (.ofCode c) else .pass []
    | none => .undefined
  | .ref i t c =>
    match args[i]? with
    | some (.handle none) => .refused c (.ofCode c)
    | some (.handle (some a)) => deref heap t false a
    | _ => .undefined
  | .mutRef i t c =>
    match args[i]? with
    | some (.handle none) => .refused c (.ofCode c)
    | some (.handle (some a)) => deref heap t true a
    | _ => .undefined
  | .optRef i t =>
    match args[i]? with
    | some (.handle none) => .pass []
    | some (.handle (some a)) => deref heap t false a
    | _ => .undefined
  | .bytes i j c1 c2 =>
    match args[i]?, args[j]? with
    | some (.buf none), some (.num _) => .refused c1 (.ofCode c1)
    | some (.buf (some size)), some (.num n) =>
      if n = 0 then .refused c2 (.ofCode c2) else if n ≤ size then .pass [] else .undefined
    | _, _ => .undefined
  | .optBytes i j c2 =>
    match args[i]?, args[j]? with
    | some (.buf none), some (.num _) => .pass []
    | some (.buf (some size)), some (.num n) =>
      if n = 0 then .refused c2 (.ofCode c2) else if n ≤ size then .pass [] else .undefined
    | _, _ => .undefined
  | .refArray i j t c1 c2 =>
    match args[i]?, args[j]? with
    | some (.arr none), some (.num _) => .refused c1 (.ofCode c2)
    | some (.arr (some xs)), some (.num n) =>
      if n = 0 then .refused c2 (.ofCode c2)
      else if n ≤ xs.length then derefAll heap t (xs.take n) else .undefined
    | _, _ => .undefined
  | .hashset i j c1 c2 =>
    match args[i]?, args[j]? with
    | some (.buf none), some (.num _) => .refused c1 (.ofCode c2)
    | some (.buf (some size)), some (.num n) => if n ≤ size then .pass [] else .undefined
    | _, _ => .undefined
  | .str i c =>
    match args[i]? with
    | some (.str (.text (_ + 1))) => .pass []
    | some (.str _) => .refused c (.ofCode c)
    | _ => .undefined

/-- The macros run one after the other; each returns from the function when it refuses. -/
def runChecks (heap : Nat → Option Ty) (args : List Arg) : List Check → Checked
  | [] => .pass []
  | c :: cs =>
    match c.run heap args with
    | .pass bs =>
      match runChecks heap args cs with
      | .pass bs' => .pass (bs ++ bs')
      | r => r
    | r => r

/-- Dereferences outside the macros: libursa/src/ffi/bls.rs:836-836. -/
def runDerefs (heap : Nat → Option Ty) (args : List Arg) : List (Nat × Ty) → Checked
  | [] => .pass []
  | (i, t) :: ds =>
    match args[i]? with
    | some (.handle (some a)) =>
      match deref heap t false a, runDerefs heap args ds with
      | .pass bs, .pass bs' => .pass (bs ++ bs')
      | _, _ => .undefined
    | _ => .undefined

/-- Two references to one object, at least one of them mutable. -/
def aliased : List (Nat × Bool) → Bool
  | [] => false
  | (a, m) :: bs => bs.any (fun x => x.1 == a && (m || x.2)) || aliased bs

/-- `Box::from_raw`, and the drop of the box at the end of the function: undefined unless the
address is that of a live object of that type to which no reference exists. -/
def runTakes (args : List Arg) (bs : List (Nat × Bool)) :
    List (Nat × Ty) → (Nat → Option Ty) → Option (Nat → Option Ty)
  | [], heap => some heap
  | (i, t) :: ts, heap =>
    match args[i]? with
    | some (.handle (some a)) =>
      if heap a = some t ∧ bs.all (fun x => x.1 != a) then
        runTakes args bs ts (fun x => if x = a then none else heap x)
      else none
    | _ => none

/-- Writes through the out pointers, in order.  `addr i` is the address that the allocator gives
for the object written to parameter `i`, and `present` says whether optional results are `Some`.
Undefined for a null pointer.  The result lists the handles written. -/
def runOuts (args : List Arg) (addr : Nat → Nat) (present : Bool) :
    List (Nat × Out) → (Nat → Option Ty) → Option (List (Nat × Option Nat) × (Nat → Option Ty))
  | [], heap => some ([], heap)
  | (i, o) :: os, heap =>
    match args[i]? with
    | some (.out true) =>
      match o with
      | .value => runOuts args addr present os heap
      | .box t =>
        (runOuts args addr present os (fun x => if x = addr i then some t else heap x)).map
          (fun r => ((i, some (addr i)) :: r.1, r.2))
      | .boxOrNull t =>
        if present then
          (runOuts args addr present os (fun x => if x = addr i then some t else heap x)).map
            (fun r => ((i, some (addr i)) :: r.1, r.2))
        else
          (runOuts args addr present os heap).map (fun r => ((i, none) :: r.1, r.2))
    | _ => none

/-- The result of the library call: success (with `true` when optional results are `Some`), an
error, or a panic. -/
inductive Core where
  | ok (present : Bool)
  | err (k : Kind)
  | panic
  deriving DecidableEq, Repr

/-- The outcome of a call: it returns a code, having written handles through out pointers, or the
program is stopped by a panic, or the behaviour is undefined. -/
inductive Outcome where
  | returned (c : Code) (writes : List (Nat × Option Nat)) (st : State)
  | aborted
  | undefined

/-- One call, e.g. libursa/src/ffi/cl/prover.rs:1111-1148.  An error of the library is stored and
translated by `impl From<UrsaCryptoError> for ErrorCode` (libursa/src/errors/mod.rs:191-197). -/
def Sig.call (f : Sig) (args : List Arg) (core : Core) (addr : Nat → Nat) (st : State) : Outcome :=
  match runChecks st.heap args f.checks with
  | .refused c k => .returned c [] { st with lastErr := some k }
  | .undefined => .undefined
  | .pass bs1 =>
    match runDerefs st.heap args f.derefs with
    | .pass bs2 =>
      if aliased (bs1 ++ bs2) then .undefined
      else
        match runTakes args (bs1 ++ bs2) f.takes st.heap with
        | none => .undefined
        | some heap =>
          match (if f.fallible then core else .ok true) with
          | .panic => .aborted
          | .err k => .returned (.ofKind k) [] { heap := heap, lastErr := some k }
          | .ok present =>
            match runOuts args addr present f.outs heap with
            | none => .undefined
            | some (ws, heap') => .returned .success ws { st with heap := heap' }
    | _ => .undefined

end Verif.FFI
