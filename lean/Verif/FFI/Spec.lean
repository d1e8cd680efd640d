import Verif.FFI.Table

/-!
# What a caller of the C interface knows

The rules a caller follows and what he may conclude, stated with the declarations of the functions
only (`(sig f).params`), not with their bodies.
-/

namespace Verif.FFI

/-- The caller's notes: the handles he holds, and what they are handles of. -/
abbrev View := Nat → Option Ty

/-- A correct call: the arguments have the declared kinds, every handle that is not null is one the
caller holds, of the documented type, arrays are at least as long as announced and contain such
handles.  Null pointers, empty strings and lengths 0 are allowed everywhere. -/
def Valid (view : View) : List Param → List Arg → Prop
  | [], [] => True
  | .handle t :: ps, .handle p :: as => (∀ a, p = some a → view a = some t) ∧ Valid view ps as
  | .optHandle t :: ps, .handle p :: as => (∀ a, p = some a → view a = some t) ∧ Valid view ps as
  | .outHandle _ :: ps, .out _ :: as => Valid view ps as
  | .outValue :: ps, .out _ :: as => Valid view ps as
  | .cstr :: ps, .str _ :: as => Valid view ps as
  | .bytes :: .bytesLen :: ps, .buf s :: .num n :: as => (∀ k, s = some k → n ≤ k) ∧ Valid view ps as
  | .optBytes :: .optBytesLen :: ps, .buf s :: .num n :: as =>
    (∀ k, s = some k → n ≤ k) ∧ Valid view ps as
  | .handles t :: .handlesLen :: ps, .arr xs :: .num n :: as =>
    (∀ l, xs = some l → n ≤ l.length ∧ ∀ x ∈ l.take n, ∃ a, x = some a ∧ view a = some t) ∧
      Valid view ps as
  | .u32s :: .u32sLen :: ps, .buf s :: .num n :: as => (∀ k, s = some k → n ≤ k) ∧ Valid view ps as
  | .scalar :: ps, .num _ :: as => Valid view ps as
  | .ctx :: ps, .opaque :: as => Valid view ps as
  | .callback :: ps, .opaque :: as => Valid view ps as
  | _, _ => False

/-- The positions (the first parameter has number `i`) of the required arguments that are missing:
null pointers, strings that are empty or not UTF-8, lengths 0 of byte arrays and of arrays of
handles. -/
def missing : Nat → List Param → List Arg → List Nat
  | i, .handle _ :: ps, .handle p :: as =>
    (if p = none then [i] else []) ++ missing (i + 1) ps as
  | i, .outHandle _ :: ps, .out b :: as => (if b then [] else [i]) ++ missing (i + 1) ps as
  | i, .outValue :: ps, .out b :: as => (if b then [] else [i]) ++ missing (i + 1) ps as
  | i, .cstr :: ps, .str s :: as =>
    (match s with
      | .text (_ + 1) => []
      | _ => [i]) ++ missing (i + 1) ps as
  | i, .bytes :: .bytesLen :: ps, .buf s :: .num n :: as =>
    (if s = none then [i] else if n = 0 then [i + 1] else []) ++ missing (i + 2) ps as
  | i, .optBytes :: .optBytesLen :: ps, .buf s :: .num n :: as =>
    (if s = none then [] else if n = 0 then [i + 1] else []) ++ missing (i + 2) ps as
  | i, .handles _ :: .handlesLen :: ps, .arr xs :: .num n :: as =>
    (if xs = none then [i] else if n = 0 then [i + 1] else []) ++ missing (i + 2) ps as
  | i, .u32s :: .u32sLen :: ps, .buf s :: .num _ :: as =>
    (if s = none then [i] else []) ++ missing (i + 2) ps as
  | i, _ :: ps, _ :: as => missing (i + 1) ps as
  | _, _, _ => []

/-- No required argument is missing. -/
def Complete (f : Fn) (args : List Arg) : Prop := missing 1 (sig f).params args = []

instance (f : Fn) (args : List Arg) : Decidable (Complete f args) :=
  inferInstanceAs (Decidable (_ = _))

/-- The code for a missing parameter, by its number: 100 for the first, ..., 111 for the twelfth;
there is no code for further ones, for which `CommonInvalidState` is used. -/
def codeOfParam : Nat → Code
  | 1 => .param1 | 2 => .param2 | 3 => .param3 | 4 => .param4 | 5 => .param5 | 6 => .param6
  | 7 => .param7 | 8 => .param8 | 9 => .param9 | 10 => .param10 | 11 => .param11 | 12 => .param12
  | _ => .invalidState

/-- Exceptions: out pointers (numbers of parameters) that are written through without a check. -/
def unguarded : Fn → List Nat
  | .ursa_bls_sign_key_new => [3]
  | .ursa_bls_ver_key_new => [3]
  | .ursa_bls_pop_new => [3]
  | .ursa_cl_witness_new => [8]
  | .ursa_revocation_registry_delta_from_parts => [7]
  | .ursa_cl_issuer_revoke_credential => [7]
  | .ursa_cl_issuer_recovery_credential => [7]
  | .ursa_cl_issuer_merge_revocation_registry_deltas => [3]
  | .ursa_cl_prover_get_credential_revocation_index => [2]
  | _ => []

/-- Exceptions: the code of another parameter is returned. -/
def misnamed : Fn → Nat → Option Code
  | .ursa_bls_generator_from_bytes, 3 => some .param1
  | .ursa_bls_sign_key_from_bytes, 3 => some .param1
  | .ursa_bls_ver_key_from_bytes, 3 => some .param1
  | .ursa_bls_signature_from_bytes, 3 => some .param1
  | .ursa_bls_multi_signature_from_bytes, 3 => some .param1
  | .ursa_bls_sign, 4 => some .param5
  | .ursa_cl_witness_new, 4 => some .param3
  | .ursa_cl_issuer_new_credential_def, 4 => some .param3
  | .ursa_cl_issuer_new_credential_def, 5 => some .param4
  | .ursa_cl_issuer_new_credential_def, 6 => some .param5
  | .ursa_cl_issuer_sign_credential, 9 => some .param10
  | .ursa_cl_issuer_sign_credential, 10 => some .param11
  | _, _ => none

/-- Exceptions: functions that treat a pointer as one to an object of another type. -/
def mistyped : Fn → Bool
  | .ursa_cl_revocation_registry_delta_to_json => true
  | .ursa_cl_revocation_registry_delta_from_json => true
  | .ursa_cl_issuer_merge_revocation_registry_deltas => true
  | _ => false

/-- The functions documented to deallocate the instance given as first argument. -/
def releases : Fn → Bool
  | .ursa_bls_generator_free | .ursa_bls_sign_key_free | .ursa_bls_ver_key_free
  | .ursa_bls_pop_free | .ursa_bls_signature_free | .ursa_bls_multi_signature_free
  | .ursa_cl_tail_free | .ursa_cl_witness_free | .ursa_cl_credential_schema_builder_finalize
  | .ursa_cl_credential_schema_free | .ursa_cl_non_credential_schema_builder_finalize
  | .ursa_cl_non_credential_schema_free | .ursa_cl_credential_values_builder_finalize
  | .ursa_cl_credential_values_free | .ursa_cl_sub_proof_request_builder_finalize
  | .ursa_cl_sub_proof_request_free | .ursa_cl_nonce_free | .ursa_cl_credential_public_key_free
  | .ursa_cl_credential_private_key_free | .ursa_cl_credential_key_correctness_proof_free
  | .ursa_cl_revocation_key_public_free | .ursa_cl_revocation_key_private_free
  | .ursa_cl_revocation_registry_free | .ursa_cl_revocation_tails_generator_free
  | .ursa_cl_credential_signature_free | .ursa_cl_signature_correctness_proof_free
  | .ursa_cl_revocation_registry_delta_free | .ursa_cl_master_secret_free
  | .ursa_cl_blinded_credential_secrets_free | .ursa_cl_credential_secrets_blinding_factors_free
  | .ursa_cl_blinded_credential_secrets_correctness_proof_free
  | .ursa_cl_proof_builder_finalize | .ursa_cl_proof_free | .ursa_cl_proof_verifier_verify => true
  | _ => false

/-- The caller notes the handles he received: for each one the type that is documented for the
parameter. -/
def noteWrites (ps : List Param) : List (Nat × Option Nat) → View → View
  | [], view => view
  | (i, some a) :: ws, view =>
    match ps[i]? with
    | some (.outHandle t) => noteWrites ps ws (fun x => if x = a then some t else view x)
    | _ => noteWrites ps ws view
  | (_, none) :: ws, view => noteWrites ps ws view

/-- The caller strikes out the handle he gave to a function that deallocates it, unless the call
was incomplete. -/
def noteRelease (f : Fn) (args : List Arg) (view : View) : View :=
  if releases f = true ∧ Complete f args then
    match (args[0]? : Option Arg) with
    | some (.handle (some a)) => fun x => if x = a then none else view x
    | _ => view
  else view

/-- The caller's notes after a call that returned. -/
def noted (f : Fn) (args : List Arg) (ws : List (Nat × Option Nat)) (view : View) : View :=
  noteWrites (sig f).params ws (noteRelease f args view)

/-- One call of a program that uses the interface, with the result of the library and the choice of
the allocator. -/
structure Call where
  f : Fn
  args : List Arg
  core : Core
  addr : Nat → Nat

/-- What happens in a call. -/
def Call.outcome (c : Call) (st : State) : Outcome := (sig c.f).call c.args c.core c.addr st

/-- A program makes correct calls one after the other, keeping notes: from one state and notes to
another, all calls returning. -/
inductive Run : State → View → List Call → State → View → Prop
  | nil (st : State) (view : View) : Run st view [] st view
  | step (st st1 st2 : State) (view view2 : View) (c : Call) (cs : List Call) (code : Code)
      (ws : List (Nat × Option Nat)) :
      Valid view (sig c.f).params c.args → c.outcome st = .returned code ws st1 →
      Run st1 (noted c.f c.args ws view) cs st2 view2 → Run st view (c :: cs) st2 view2

end Verif.FFI
