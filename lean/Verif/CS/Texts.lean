import Verif.CS.Model
/-!
# The texts of the errors of Camenisch–Shoup decryption (libzmix/src/verifiable_encryption/cs_verifiable_encryption.rs)

`Verif.CS.decrypt` leaves out the numbers that the error texts print; here they are kept.
-/
namespace Verif.CS
open Verif.BN

/-- What the error of `decrypt` says: cs_verifiable_encryption.rs:197-205 (counts), 211-216 (`v`), 222-227 (both sides of the check), 247-250 (the place), and the
errors of the functions for numbers. -/
inductive DecErr where
  | tooMany (messages keys : Nat)
  | abs (v : Int)
  | square (us vs : Int)
  | failed (place : Nat)
  | number (text : String)
  deriving DecidableEq

/-- the text without its numbers, as `Verif.CS.decrypt` gives it (cs_verifiable_encryption.rs:197-250) -/
def DecErr.text : DecErr → String
  | .tooMany _ _ => "number of messages is more than supported by public key"
  | .abs _ => "absolute check failed for v"
  | .square _ _ => "u^2 != v^2"
  | .failed i => s!"Decryption failed for message {i}"
  | .number t => t

/-- an error of a function for numbers is passed on by `?` (cs_verifiable_encryption.rs:211-243) -/
def ofNumber {α : Type} : Res String α → Res DecErr α
  | .ok a => .ok a
  | .err t => .err (.number t)
  | .panic => .panic

/-- leaves out the numbers of the texts (not in the code) -/
def forget {α : Type} : Res DecErr α → Res String α
  | .ok a => .ok a
  | .err e => .err e.text
  | .panic => .panic

/-- cs_verifiable_encryption.rs:229-252, with the errors as they are -/
def decryptLoopText (pk : PubKey) (u : Int) : Nat → List Int → List Int → Res DecErr (List Int)
  | _, [], _ => .ok []
  | _, _ :: _, [] => .panic
  | i, e :: es, x :: xs => do
    let ux ← ofNumber (pk.group.exp u x)
    let inv ← ofNumber (inverse ux pk.group.modulus)
    let w ← ofNumber (modMul e inv pk.group.modulus)
    let mHat ← ofNumber (pk.group.exp w pk.twoInvTimes2)
    let one ← ofNumber (BN.modulus mHat pk.n)
    if one = 1 then do
      let m ← ofNumber (BN.modulus mHat pk.group.modulus)
      let m ← ofNumber (div (m - 1) pk.n)
      let rest ← decryptLoopText pk u (i + 1) es xs
      pure (m :: rest)
    else .err (.failed (i + 1))

/-- cs_verifiable_encryption.rs:190-255 `decrypt`, with the errors as they are -/
def decryptText (H : Bytes → Int) (label : Bytes) (c : Cipher) (pk : PubKey) (sk : PriKey) : Res DecErr (List Int) :=
  if c.e.length > sk.x1.length then .err (.tooMany c.e.length sk.x1.length)
  else do
    let a ← ofNumber (pk.group.abs c.v)
    if c.v ≠ a then .err (.abs c.v)
    else do
      let us ← ofNumber (pk.group.exp c.u (lshift1 (H (hashInput c.u c.e label) * sk.x3 + sk.x2)))
      let vs ← ofNumber (pk.group.sqr c.v)
      if vs ≠ us then .err (.square us vs)
      else decryptLoopText pk c.u 0 c.e sk.x1

theorem forget_bind {α β : Type} (x : Res String α) (f : α → Res DecErr β) : forget (ofNumber x >>= f) = (x >>= fun a => forget (f a)) := by
  cases x <;> rfl

theorem forget_loop (pk : PubKey) (u : Int) : ∀ (i : Nat) (es xs : List Int), forget (decryptLoopText pk u i es xs) = decryptLoop pk u i es xs
  | _, [], _ => by unfold decryptLoopText decryptLoop; rfl
  | _, _ :: _, [] => by unfold decryptLoopText decryptLoop; rfl
  | i, e :: es, x :: xs => by
    have ih := forget_loop pk u (i + 1) es xs
    have hf : ∀ (m : Int), forget (decryptLoopText pk u (i + 1) es xs >>= fun rest => (pure (m :: rest) : Res DecErr (List Int))) =
        (decryptLoop pk u (i + 1) es xs >>= fun rest => (pure (m :: rest) : Res String (List Int))) := by
      intro m
      rw [← ih]
      cases decryptLoopText pk u (i + 1) es xs <;> rfl
    unfold decryptLoopText decryptLoop
    simp only [forget_bind]
    refine congrArg _ (funext fun _ => congrArg _ (funext fun _ => congrArg _ (funext fun _ => congrArg _ (funext fun _ => congrArg _ (funext fun one => ?_)))))
    split
    · simp only [forget_bind, hf]
    · rfl

/-- the two models of decryption agree, up to the numbers in the texts -/
theorem forget_decrypt (H : Bytes → Int) (label : Bytes) (c : Cipher) (pk : PubKey) (sk : PriKey) :
    forget (decryptText H label c pk sk) = decrypt H label c pk sk := by
  unfold decryptText decrypt
  split
  · rfl
  · rw [forget_bind]
    refine congrArg _ (funext fun a => ?_)
    split
    · rfl
    · rw [forget_bind]
      refine congrArg _ (funext fun us => ?_)
      rw [forget_bind]
      refine congrArg _ (funext fun vs => ?_)
      split
      · rfl
      · exact forget_loop pk c.u 0 c.e sk.x1

theorem decryptText_ok {H : Bytes → Int} {label : Bytes} {c : Cipher} {pk : PubKey} {sk : PriKey} {ms : List Int} (h : decrypt H label c pk sk = .ok ms) :
    decryptText H label c pk sk = .ok ms := by
  rw [← forget_decrypt] at h
  revert h
  cases decryptText H label c pk sk <;> simp [forget]

end Verif.CS
