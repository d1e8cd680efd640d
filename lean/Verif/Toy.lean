import Verif.Common
import Mathlib.Data.ZMod.Basic
import Mathlib.Algebra.Field.ZMod
import Mathlib.Tactic.NormNum.Prime
import Mathlib.Algebra.Algebra.Bilinear
/-!
# Concrete instances used only in non-vacuity examples and counterexample witnesses
-/
namespace Verif.Toy

instance fact101 : Fact (Nat.Prime 101) := ⟨by norm_num⟩

/-- one-byte encoding of the field with 101 elements -/
def codec101 : Codec (ZMod 101) where
  size := 1
  enc r := [UInt8.ofNat r.val]
  dec
    | [b] => if b.toNat < 101 then some (b.toNat : ZMod 101) else none
    | _ => none
  enc_length _ := rfl
  dec_enc := by decide

/-- multiplication as a (non-degenerate) pairing -/
def toyE : ZMod 101 →ₗ[ZMod 101] ZMod 101 →ₗ[ZMod 101] ZMod 101 := LinearMap.mul (ZMod 101) (ZMod 101)

theorem toyE_apply (a b : ZMod 101) : toyE a b = a * b := rfl

end Verif.Toy
