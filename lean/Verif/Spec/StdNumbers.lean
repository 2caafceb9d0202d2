import Verif.Spec.Number
import Verif.Model.StdNumbers
/-!
# What the C standard says about the functions used

`strtod` (C11 7.22.1.3, with the recommended practice of correct rounding) and `snprintf` with `%f` and `%e` (C11 7.21.6.1) in the "C" locale.
Independent of the code that calls them.
-/
namespace Verif.Spec

/-- An infinity. -/
def IsInfinite (f : Dbl) : Prop := f.biased = 2047 ∧ f.fraction = 0

/-- White space in the "C" locale. -/
def isBlank (b : Byte) : Bool := b = 32 || (9 ≤ b.toNat && b.toNat ≤ 13)

/-- A hexadecimal digit. -/
def isHex (b : Byte) : Bool := (48 ≤ b.toNat && b.toNat ≤ 57) || (97 ≤ (lowerCase b).toNat && (lowerCase b).toNat ≤ 102)

/-- A hexadecimal number. -/
def HexText (t : List Byte) : Prop :=
  ∃ (x : Byte) (int point frac exp : List Byte), (x = 120 ∨ x = 88) ∧ int.all isHex ∧ frac.all isHex ∧ int ++ frac ≠ [] ∧
    ((point = [] ∧ frac = []) ∨ point = str ".") ∧
    (exp = [] ∨ ∃ (c : Byte) (sign ds : List Byte), (c = 112 ∨ c = 80) ∧ (sign = [] ∨ sign = str "+" ∨ sign = str "-") ∧ AllDigits ds ∧ ds ≠ [] ∧
      exp = c :: (sign ++ ds)) ∧
    t = str "0" ++ (x :: (int ++ (point ++ (frac ++ exp))))

/-- A word for infinity. -/
def InfText (t : List Byte) : Prop := t.map lowerCase = str "inf" ∨ t.map lowerCase = str "infinity"

/-- A word for not-a-number: `nan`, perhaps with letters, digits and underscores in parentheses. -/
def NanText (t : List Byte) : Prop :=
  t.map lowerCase = str "nan" ∨ ∃ w cs : List Byte, w.map lowerCase = str "nan" ∧ t = w ++ (str "(" ++ (cs ++ str ")")) ∧
    ∀ c ∈ cs, (48 ≤ c.toNat ∧ c.toNat ≤ 57) ∨ (97 ≤ (lowerCase c).toNat ∧ (lowerCase c).toNat ≤ 122) ∨ c = 95

/-- What `strtod` reads after white space: perhaps a sign, and a number in decimal or hexadecimal notation or a word. -/
def Subject (s : List Byte) : Prop :=
  ∃ sign body, s = sign ++ body ∧ (sign = [] ∨ sign = str "+" ∨ sign = str "-") ∧
    ((∃ x, FloatText body false x) ∨ HexText body ∨ InfText body ∨ NanText body)

/-- The value of what was read: a decimal number is the nearest double, or infinite if it overflows, and the words for infinity are infinite.
Nothing is said of hexadecimal numbers and of the words for not-a-number. -/
def HasValue (s : List Byte) (f : Dbl) : Prop :=
  ∀ sign body, s = sign ++ body → (sign = [] ∨ sign = str "+" ∨ sign = str "-") →
    (∀ x, FloatText body false x → f.negative = decide (sign = str "-") ∧ (x < 2 ^ 1024 - 2 ^ 970 → Nearest x f) ∧ (2 ^ 1024 - 2 ^ 970 ≤ x → IsInfinite f)) ∧
    (InfText body → f.negative = decide (sign = str "-") ∧ IsInfinite f)

/-- `strtod` reads the longest part at the beginning, after white space, that has the expected form, and nothing if there is none. Only texts
of less than 64 characters matter. -/
structure StrtodOk (strtod : List Byte → Nat × Dbl) : Prop where
  longest : ∀ t s, t.length < 64 → (0 : Byte) ∉ t → Subject s → s <+: t.dropWhile isBlank →
    (∀ s', Subject s' → s' <+: t.dropWhile isBlank → s'.length ≤ s.length) →
    (strtod t).1 = (t.takeWhile isBlank).length + s.length ∧ HasValue s (strtod t).2
  none : ∀ t, t.length < 64 → (0 : Byte) ∉ t → (∀ s, Subject s → ¬ s <+: t.dropWhile isBlank) → (strtod t).1 = 0

/-- A decimal with `p` digits after the point and no needless zeros before it; with `p` zero there is no point. Its digits are those of `k`. -/
def PlainText (p : Nat) (t : List Byte) (neg : Bool) (k : Nat) : Prop :=
  ∃ int frac, AllDigits int ∧ int ≠ [] ∧ (∀ r, int = 48 :: r → r = []) ∧ AllDigits frac ∧ frac.length = p ∧
    t = (if neg then str "-" else []) ++ int ++ (if p = 0 then [] else str "." ++ frac) ∧ digitsValue (int ++ frac) = k

/-- A decimal with one digit, not zero, before the point and `p` digits after it, and an exponent of at least two digits. -/
def SciText (p : Nat) (t : List Byte) (neg : Bool) (k e : Nat) : Prop :=
  ∃ (d : Byte) (frac ds : List Byte), AllDigits (d :: frac) ∧ d ≠ 48 ∧ frac.length = p ∧ AllDigits ds ∧ 2 ≤ ds.length ∧
    (∀ r, ds = 48 :: r → ds.length = 2) ∧
    t = (if neg then str "-" else []) ++ [d] ++ str "." ++ frac ++ str "e+" ++ ds ∧ digitsValue (d :: frac) = k ∧ digitsValue ds = e

/-- `snprintf` rounds correctly. Nothing is said of not-a-number. -/
structure SnprintfOk (L : Libc) : Prop where
  fixed : ∀ p f, f.Finite → ∃ k : Nat, PlainText p (L.fixed p f) f.negative k ∧ RoundedTo p f.magnitude (k / 10 ^ p)
  sci : ∀ f, f.Finite → 10 ^ 17 < f.magnitude → ∃ k e : Nat, SciText 16 (L.sci 16 f) f.negative k e ∧
    |(k : ℚ) - f.magnitude * 10 ^ (16 - (e : Int))| ≤ 1 / 2
  infinite : ∀ f, IsInfinite f → ∃ w, L.sci 16 f = (if f.negative then str "-" else []) ++ w ∧ (w = str "inf" ∨ w = str "infinity")

/-- The C library works as the standard says. -/
structure LibcOk (L : Libc) : Prop extends SnprintfOk L where
  strtod : StrtodOk L.strtod

end Verif.Spec
