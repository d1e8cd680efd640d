import Verif.CL.Revocation

/-!
# Access to the tails through callbacks of the caller

`Verif/CL/Revocation.lean` models the operations on a revocation registry with `SimpleTailsAccessor`, whose
`access_tail` returns the element of a list.  Here the tails come from a general `RevocationTailsAccessor`, such as the
one of the C interface, which asks the caller's functions `take_tail` and `put_tail`.  These may fail at any access.
The operations change the registry in place, so the model returns the registry also when the operation fails.
-/

namespace Verif.CL.Rev

open Verif

/-- a call of one of the caller's functions: libursa/src/ffi/cl/mod.rs:1092-1092 (`take`) and
libursa/src/ffi/cl/mod.rs:1102-1102 (`put`); a `put` is given the pointer received for the identifier -/
inductive Event where
  | take (id : Nat)
  | put (id : Nat)
  deriving DecidableEq

/-- what the caller's functions do in one access -/
inductive Reply (G2 : Type) where
  /-- `take_tail` returns an error code, or a null pointer -/
  | refused
  /-- `take_tail` gives a tail; `put_tail` returns success or not -/
  | given (tail : G2) (putOk : Bool)
  /-- `SimpleTailsAccessor` panics when the identifier is out of range -/
  | panics

/-- The caller's functions: what they do may depend on all calls made so far.
libursa/src/ffi/cl/mod.rs:1076-1080 -/
abbrev Env (G2 : Type) := List Event → Nat → Reply G2

/-- what an operation leaves: the calls made, the registry (changed in place), the result -/
structure Done (S α : Type) where
  events : List Event
  state : S
  result : Res String α

variable {G2 S : Type}

/-- `FFITailsAccessor::access_tail`: libursa/src/ffi/cl/mod.rs:1089-1110.  `f` is the closure given by the operation;
it changes `s`. -/
def accessTailWith (env : Env G2) (h : List Event) (id : Nat) (f : S → G2 → S) (s : S) : Done S Unit :=
  match env h id with
  | .refused => ⟨h ++ [.take id], s, .err "take_tail failed"⟩
  | .panics => ⟨h ++ [.take id], s, .panic⟩
  | .given tail ok =>
    ⟨h ++ [.take id, .put id], f s tail, if ok then .ok () else .err "put_tail failed"⟩

/-- A loop over identifiers that stops at the first error: issuer.rs:746-757, mod.rs:702-707, mod.rs:735-757.
`idx` computes the identifier. -/
def accessLoop (env : Env G2) (idx : Nat → Res String Nat) (f : S → G2 → S) :
    List Nat → List Event → S → Done S Unit
  | [], h, s => ⟨h, s, .ok ()⟩
  | i :: is, h, s =>
    match idx i with
    | .panic => ⟨h, s, .panic⟩
    | .err e => ⟨h, s, .err e⟩
    | .ok id =>
      let d := accessTailWith env h id f s
      match d.result with
      | .ok () => accessLoop env idx f is d.events d.state
      | .err e => ⟨d.events, d.state, .err e⟩
      | .panic => ⟨d.events, d.state, .panic⟩

/-- what an operation returns after its loop of accesses: the last `?` and the construction of the delta, for instance
issuer.rs:541-556 -/
def Done.finish {α : Type} (d : Done S Unit) (mk : S → α) : Done S α :=
  ⟨d.events, d.state, do d.result; pure (mk d.state)⟩

variable [AddCommGroup G2]

/-- issuer.rs:522-559 `revoke_credential` -/
def revokeWith (m : Overflow) (env : Env G2) (h : List Event) (reg : G2) (maxCredNum revIdx : Nat) :
    Done G2 (Delta G2) :=
  (accessLoop env (getIndex m maxCredNum) (fun a t => a - t) [revIdx] h reg).finish fun a =>
    { prevAccum := some reg, accum := a, issued := ∅, revoked := {revIdx} }

/-- issuer.rs:623-661 `recovery_credential` -/
def recoverWith (m : Overflow) (env : Env G2) (h : List Event) (reg : G2) (maxCredNum revIdx : Nat) :
    Done G2 (Delta G2) :=
  (accessLoop env (getIndex m maxCredNum) (fun a t => a + t) [revIdx] h reg).finish fun a =>
    { prevAccum := some reg, accum := a, issued := {revIdx}, revoked := ∅ }

/-- issuer.rs:1371-1390, the part of `_new_non_revocation_credential` that touches the registry -/
def registerWith (m : Overflow) (env : Env G2) (h : List Event) (reg : G2) (maxCredNum revIdx : Nat)
    (byDefault : Bool) : Done G2 (Option (Delta G2)) :=
  if byDefault then ⟨h, reg, do let _ ← getIndex m maxCredNum revIdx; pure none⟩
  else
    (accessLoop env (getIndex m maxCredNum) (fun a t => a + t) [revIdx] h reg).finish fun a =>
      some { prevAccum := some reg, accum := a, issued := {revIdx}, revoked := ∅ }

/-- issuer.rs:727-772 `update_revocation_registry` -/
def updateWith (m : Overflow) (env : Env G2) (h : List Event) (reg : G2) (maxCredNum : Nat)
    (issued revoked : Finset Nat) : Done G2 (Delta G2) :=
  let d := accessLoop env (getIndex m maxCredNum) (fun a t => a + t) (issued.sort (· ≤ ·)) h reg
  match d.result with
  | .err e => ⟨d.events, d.state, .err e⟩
  | .panic => ⟨d.events, d.state, .panic⟩
  | .ok () =>
    (accessLoop env (getIndex m maxCredNum) (fun a t => a - t) (revoked.sort (· ≤ ·)) d.events d.state).finish fun a =>
      { prevAccum := some reg, accum := a, issued := issued, revoked := revoked }

/-- mod.rs:678-714 `Witness::new`; the state is the local variable `omega`, nothing is changed in place -/
def witnessNewWith (m : Overflow) (env : Env G2) (h : List Event) (revIdx maxCredNum : Nat) (byDefault : Bool)
    (delta : Delta G2) : Done G2 G2 :=
  let issued := if byDefault then (Finset.Icc 1 maxCredNum).filter (fun i => i ∉ delta.revoked) else delta.issued
  (accessLoop env (fun j => witnessIndex m maxCredNum j revIdx) (fun (a : G2) t => a + t)
    ((issued.erase revIdx).sort (· ≤ ·)) h 0).finish fun a => a

/-- mod.rs:716-764 `Witness::update` with the witness as it is left.  The order of the sets (`HashSet`) is not
specified: `rs` and `is` list their elements other than `revIdx` in any order. -/
def witnessUpdateWith (m : Overflow) (env : Env G2) (h : List Event) (omega : G2) (revIdx maxCredNum : Nat)
    (rs is : List Nat) : Done G2 Unit :=
  let d := accessLoop env (fun j => witnessIndex m maxCredNum j revIdx) (fun (a : G2) t => a + t) rs h 0
  match d.result with
  | .err e => ⟨d.events, omega, .err e⟩
  | .panic => ⟨d.events, omega, .panic⟩
  | .ok () =>
    let d' := accessLoop env (fun j => witnessIndex m maxCredNum j revIdx) (fun (a : G2) t => a + t) is d.events 0
    match d'.result with
    | .err e => ⟨d'.events, omega, .err e⟩
    | .panic => ⟨d'.events, omega, .panic⟩
    | .ok () => ⟨d'.events, omega + (d'.state - d.state), .ok ()⟩

/-- `SimpleTailsAccessor`, mod.rs:581-586, as such functions: it gives the element of the list -/
def simpleEnv (tails : List G2) : Env G2 := fun _ i =>
  match tails[i]? with
  | some t => .given t true
  | none => .panics

end Verif.CL.Rev
