import Verif.Spec.Wkb
/-!
# Specification: type codes of ISO well-known binary
-/
namespace Verif.Spec

/-- A code of one of the seven geometry types, without or with Z and M: 1 to 7, 1001 to 1007, 2001 to 2007, 3001 to 3007. -/
def IsoCode (c : Nat) : Prop := ∃ k t, k ≤ 3 ∧ 1 ≤ t ∧ t ≤ 7 ∧ c = 1000 * k + t

/-- Z of a type word: by the EWKB flag or by the thousands digit of the code. -/
def WordHasZ (w : Nat) : Bool := w.testBit 31 || w % 2 ^ 16 / 1000 == 1 || w % 2 ^ 16 / 1000 == 3

/-- M of a type word: by the EWKB flag or by the thousands digit of the code. -/
def WordHasM (w : Nat) : Bool := w.testBit 30 || w % 2 ^ 16 / 1000 == 2 || w % 2 ^ 16 / 1000 == 3

/-- The dimensions of a type word. -/
def wordDims (w : Nat) : Dims :=
  match WordHasZ w, WordHasM w with
  | false, false => .xy
  | true, false => .xyz
  | false, true => .xym
  | true, true => .xyzm

end Verif.Spec
