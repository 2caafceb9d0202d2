import Verif.Spec.WktGrammar
import Verif.Model.WktError
/-!
# Specification: what an error message about well-known text says

Independent of the reader, apart from the names of the messages.
-/
namespace Verif.Spec
open Verif

/-- `c` begins with what the message says was expected. -/
def BeginsAsWanted (parse : List Byte → Option Dbl) (w : WkWant) (c : List Byte) : Prop :=
  match w with
  | .char x => c.head? = some x
  | .whitespace => ∃ x tl, c = x :: tl ∧ isSpace x = true
  | .openingOrEmpty => c.head? = some 40
  | .number => ∃ n tl, c = n ++ tl ∧ n ≠ [] ∧ (parse n).isSome ∧ (tl = [] ∨ ∃ x, tl.head? = some x ∧ isBreak x = true)
  | .geometryType => ∃ tl, c = str "POINT" ++ tl
  | .endOfInput => c = []
  | .internal => False

/-- The end, in `text`, of the first token at or after byte `k`; a parenthesis or comma ends where it begins. -/
def tokenEnd (text : List Byte) (k : Nat) : Nat :=
  let rest := (text.drop k).dropWhile isSpace
  k + ((text.drop k).takeWhile isSpace).length + (rest.takeWhile fun c => !(c = 0 || isBreak c)).length

end Verif.Spec
