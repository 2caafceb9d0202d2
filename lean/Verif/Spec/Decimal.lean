import Verif.Model.ArrayView
import Mathlib.Algebra.Order.Field.Rat
import Mathlib.Data.Rat.Cast.Order
import Mathlib.Tactic.Linarith
import Mathlib.Tactic.Ring
import Mathlib.Tactic.FieldSimp
import Mathlib.Tactic.Positivity
import Mathlib.Tactic.NormNum
/-!
# Doubles as numbers, decimal texts, and what a correct parser does

Independent of the printing code: the value of an IEEE 754 double, the value of a decimal text, and "the nearest double, ties to the
even one" as the contract of a parser.
-/
namespace Verif

/-- The stored exponent. -/
def Dbl.biased (f : Dbl) : Nat := f.toNat / 2 ^ 52 % 2 ^ 11
/-- The stored fraction. -/
def Dbl.fraction (f : Dbl) : Nat := f.toNat % 2 ^ 52
/-- The sign bit is set. -/
def Dbl.negative (f : Dbl) : Bool := decide (2 ^ 63 ≤ f.toNat)
/-- Neither an infinity nor a NaN. -/
def Dbl.Finite (f : Dbl) : Prop := f.biased < 2047
/-- The significand as an integer. -/
def Dbl.significand (f : Dbl) : Nat := if f.biased = 0 then f.fraction else 2 ^ 52 + f.fraction
/-- The weight of the last bit of the significand. -/
def Dbl.ulp (f : Dbl) : ℚ := 2 ^ ((max f.biased 1 : Nat) - 1075 : Int)
/-- The absolute value of a finite double. -/
def Dbl.magnitude (f : Dbl) : ℚ := f.significand * f.ulp

/-- The number with the given decimal digits. -/
def digitsValue (l : List Byte) : Nat := l.foldl (fun n b => 10 * n + (b.toNat - 48)) 0
/-- All characters are decimal digits. -/
def AllDigits (l : List Byte) : Prop := ∀ b ∈ l, 48 ≤ b.toNat ∧ b.toNat ≤ 57

/-- `t` is a decimal: a minus sign if `neg`, digits, perhaps a point and more digits, perhaps an exponent. Its absolute value is `x`. -/
def DecimalText (t : List Byte) (neg : Bool) (x : ℚ) : Prop :=
  ∃ (int frac exp : List Byte) (e : Int), AllDigits int ∧ int ≠ [] ∧ AllDigits frac ∧
    t = (if neg then str "-" else []) ++ int ++ (if frac = [] then [] else str "." ++ frac) ++ exp ∧
    ((exp = [] ∧ e = 0) ∨ ∃ ds, AllDigits ds ∧ ds ≠ [] ∧
      ((exp = str "e+" ++ ds ∧ e = digitsValue ds) ∨ (exp = str "e-" ++ ds ∧ e = -(digitsValue ds : Int)))) ∧
    x = digitsValue (int ++ frac) * 10 ^ (e - frac.length)

/-- `y` is `x` rounded to `p` decimals, ties to even. -/
def RoundedTo (p : Nat) (x y : ℚ) : Prop :=
  ∃ k : Nat, y = k / 10 ^ p ∧ |k - x * 10 ^ p| ≤ 1 / 2 ∧ (|k - x * 10 ^ p| = 1 / 2 → k % 2 = 0)

/-- `f` is the finite double nearest to `x` in absolute value; if another is as near, `f` is the one with the even significand. -/
def Nearest (x : ℚ) (f : Dbl) : Prop :=
  f.Finite ∧ ∀ g : Dbl, g.Finite → |x - f.magnitude| ≤ |x - g.magnitude| ∧
    (|x - f.magnitude| = |x - g.magnitude| → g.magnitude ≠ f.magnitude → f.significand % 2 = 0)

/-- `x` does not overflow and is nearer to `f` than to every other finite double, in absolute value. -/
def StrictlyNearest (x : ℚ) (f : Dbl) : Prop :=
  f.Finite ∧ x < 2 ^ 1024 - 2 ^ 970 ∧ ∀ g : Dbl, g.Finite → g.magnitude ≠ f.magnitude → |x - f.magnitude| < |x - g.magnitude|

/-- A parser that rounds correctly: every decimal text of less than 2^27 characters is read as the nearest double with the sign of the text,
unless it overflows or, although it is not zero, rounds to zero. -/
def CorrectParser (parse : List Byte → Option Dbl) : Prop :=
  ∀ t neg x, t.length < 2 ^ 27 → DecimalText t neg x → x < 2 ^ 1024 - 2 ^ 970 → (x = 0 ∨ 2 ^ (-1075 : Int) < x) →
    ∃ f, parse t = some f ∧ f.negative = neg ∧ Nearest x f

end Verif
