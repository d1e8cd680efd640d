import Verif.Sig.Handle
/-!
# C221: serialising the handle of the ECDSA scheme does not return
-/
namespace Verif.Sig.Handle

/-- **C221 (negation)** no amount of stack is enough, for any format; while a key is written at once, and reading a handle never fails on a text -/
theorem serialize_never_returns {Out : Type} (S : Serializer Out) :
    (∀ stack, serialize S stack = none) ∧
      (∀ name key stack, serializeKey S name key (stack + 1) = some (S.newtype name (S.str (Symm.hexEncode key)))) ∧
      (∀ s, deserialize (some s) = .ok ()) := by
  refine ⟨fun n => ?_, fun _ _ _ => rfl, fun _ => rfl⟩
  induction n with
  | zero => rfl
  | succ n ih => unfold serialize; rw [ih]; rfl

/-- the same calls on a key give the text of the key -/
example : serializeKey json "PublicKey" [255, 1] 1 = some "ff01".toList ∧ serialize json 1000 = none :=
  ⟨by decide +kernel, (serialize_never_returns json).1 1000⟩

end Verif.Sig.Handle
