import Verif.Model.FastFloat
import Verif.Spec.Decimal
/-!
# What is assumed of the machine's arithmetic on doubles

IEEE 754: in the rounding mode "to nearest" a product or a quotient is the nearest double; in every mode a product that is a double is
that double.
-/
namespace Verif

/-- The double that is not negative and has these bits. -/
def Dbl.ofNat (bits : Nat) : Dbl := BitVec.ofNat 64 bits

/-- The bits of a finite double that is not negative. -/
def FiniteBits (n : Nat) : Prop := n ≤ 0x7FEFFFFFFFFFFFFF

/-- Products and quotients of finite doubles that are not negative are as IEEE 754 has them. -/
structure Ieee (fpu : FF.Fpu) : Prop where
  mul_nearest : fpu.nearest = true → ∀ a b, FiniteBits a → FiniteBits b → (Dbl.ofNat a).magnitude * (Dbl.ofNat b).magnitude < 2 ^ 1024 - 2 ^ 970 →
    FiniteBits (fpu.mul a b) ∧ Nearest ((Dbl.ofNat a).magnitude * (Dbl.ofNat b).magnitude) (Dbl.ofNat (fpu.mul a b))
  div_nearest : fpu.nearest = true → ∀ a b, FiniteBits a → FiniteBits b → b ≠ 0 → (Dbl.ofNat a).magnitude / (Dbl.ofNat b).magnitude < 2 ^ 1024 - 2 ^ 970 →
    FiniteBits (fpu.div a b) ∧ Nearest ((Dbl.ofNat a).magnitude / (Dbl.ofNat b).magnitude) (Dbl.ofNat (fpu.div a b))
  mul_exact : ∀ a b c, FiniteBits a → FiniteBits b → FiniteBits c →
    (Dbl.ofNat a).magnitude * (Dbl.ofNat b).magnitude = (Dbl.ofNat c).magnitude → fpu.mul a b = c

end Verif
