import Verif.Spec.Decimal
/-!
# Texts that are numbers

The grammar of numbers accepted in well-known text by the default build, and their values; independent of the code that reads them.
-/
namespace Verif

/-- An exponent: nothing, or `e` or `E`, perhaps a sign, and digits. -/
def ExponentText (l : List Byte) (e : Int) : Prop :=
  (l = [] ∧ e = 0) ∨ ∃ (c : Byte) (sign ds : List Byte), (c = 101 ∨ c = 69) ∧ AllDigits ds ∧ ds ≠ [] ∧ l = c :: (sign ++ ds) ∧
    (((sign = [] ∨ sign = str "+") ∧ e = digitsValue ds) ∨ (sign = str "-" ∧ e = -(digitsValue ds : Int)))

/-- A number: a minus sign if `neg`, digits, perhaps a point and more digits, perhaps an exponent; there is at least one digit before or
after the point. Its absolute value is `x`. -/
def FloatText (t : List Byte) (neg : Bool) (x : ℚ) : Prop :=
  ∃ (int point frac exp : List Byte) (e : Int), AllDigits int ∧ AllDigits frac ∧ int ++ frac ≠ [] ∧
    ((point = [] ∧ frac = []) ∨ point = str ".") ∧ ExponentText exp e ∧
    t = (if neg then str "-" else []) ++ (int ++ (point ++ (frac ++ (exp)))) ∧
    x = digitsValue (int ++ frac) * 10 ^ (e - frac.length)

/-- `t` begins with a number whose absolute value is `x`, no longer part of `t` at its beginning is a number, and `rest` is what follows it. -/
def LongestNumber (t : List Byte) (neg : Bool) (x : ℚ) (rest : List Byte) : Prop :=
  ∃ s, t = s ++ rest ∧ FloatText s neg x ∧ ∀ s' neg' x', FloatText s' neg' x' → s' <+: t → s'.length ≤ s.length

/-- The small letter for a capital one. -/
def lowerCase (b : Byte) : Byte := if 65 ≤ b.toNat ∧ b.toNat ≤ 90 then b + 32 else b

/-- `t` begins with the word `w` in small or capital letters, after a minus sign if `neg`. -/
def BeginsWord (t : List Byte) (neg : Bool) (w : List Byte) : Prop :=
  ∃ a rest, t = (if neg then str "-" else []) ++ (a ++ rest) ∧ a.map lowerCase = w

/-- `t` does not begin with a number. -/
def NoNumber (t : List Byte) : Prop := ∀ s neg x, FloatText s neg x → ¬ s <+: t

end Verif
