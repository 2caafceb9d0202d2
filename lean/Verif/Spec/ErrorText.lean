import Verif.Model.ErrorText
import Verif.Spec.WktError
import Verif.Spec.Schema
/-!
# Specification: what a caller finds in an error structure
-/
namespace Verif.Spec
open Verif

/-- The bytes are a C string with this text: the bytes before the first NUL. -/
def ShownText (message text : List Byte) : Prop := ∃ rest, message = text ++ 0 :: rest ∧ (0 : Byte) ∉ text

/-- The error structure of a caller: 1024 bytes. -/
def IsError (message : List Byte) : Prop := message.length = 1024

/-- Messages set one after the other. -/
def setAll (junk : List Byte) : List (List Piece) → Option (List Byte) → Option (List Byte)
  | [], e => e
  | ps :: l, e => setAll junk l (errorSet junk ps e).2

/-- A number in decimal notation: digits without leading zeros, after a minus sign if the number is negative. -/
def IsDecimal (n : Int) (t : List Byte) : Prop :=
  ∃ sign digits, t = sign ++ digits ∧ digits ≠ [] ∧ (∀ c ∈ digits, 48 ≤ c.toNat ∧ c.toNat ≤ 57) ∧
    (digits.head? = some 48 → digits = [48]) ∧
    ((0 ≤ n ∧ sign = [] ∧ n = decimal digits) ∨ (n < 0 ∧ sign = [45] ∧ n = -(decimal digits : Int)))

/-- What one directive stands for: text of the format, a C string, a number, or a C string of which at most so many bytes
are shown. -/
def PieceSays (p : Piece) (t : List Byte) : Prop :=
  match p with
  | .lit a => a = t
  | .cstr a => ShownText a t
  | .dec n => IsDecimal n t
  | .sized size a => (size < 0 ∧ ShownText a t) ∨ ∃ k : Nat, size = k ∧
      ((ShownText (a.take k) t) ∨ (t = a.take k ∧ (0 : Byte) ∉ t))

/-- What a format and its arguments say. -/
def PiecesSay : List Piece → List Byte → Prop
  | [], t => t = []
  | p :: ps, t => ∃ a b, t = a ++ b ∧ PieceSays p a ∧ PiecesSay ps b

/-- `c` begins with what these words call for. -/
def BeginsAsTold (parse : List Byte → Option Dbl) (words c : List Byte) : Prop :=
  (∃ x, words = [39, x, 39] ∧ c.head? = some x) ∨
  (words = str "whitespace" ∧ ∃ x tl, c = x :: tl ∧ isSpace x = true) ∨
  (words = str "'(' or 'EMPTY'" ∧ c.head? = some 40) ∨
  (words = str "number" ∧ ∃ n tl, c = n ++ tl ∧ n ≠ [] ∧ (parse n).isSome ∧ (tl = [] ∨ ∃ x, tl.head? = some x ∧ isBreak x = true)) ∨
  (words = str "geometry type" ∧ ∃ tl, c = str "POINT" ++ tl) ∨
  (words = str "end of input" ∧ c = [])

end Verif.Spec
