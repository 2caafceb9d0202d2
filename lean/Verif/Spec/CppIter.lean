import Verif.Spec.CppArray
import Verif.Model.CppIter
/-!
# Specification: iterators as positions, sequences of unaligned coordinates

Of the model only the data types and the kinds of moves are used.
-/
namespace Verif.Spec
open Verif

/-- How far a series of moves goes. -/
def net : List CppMove → Int
  | [] => 0
  | .inc :: ms => 1 + net ms
  | .dec :: ms => -1 + net ms
  | .add n :: ms => n + net ms
  | .sub n :: ms => -n + net ms

/-- The double stored in the eight bytes from `p` on, in the machine's (little endian) order or reversed. -/
def StoredAt (swapped : Bool) (bytes : List Byte) (p : Int) (x : Dbl) : Prop :=
  0 ≤ p ∧ (bytes.drop p.toNat).take 8 = if swapped then x.bytes.reverse else x.bytes

/-- An unaligned sequence holds the given coordinates: ordinate `j` of coordinate `i` is stored at `values[j] + (offset + i) * stride`. -/
def UnContents (mem : CppBytes) (s : CppUnSq) (cs : List Coord) : Prop :=
  s.length = cs.length ∧ ∀ (i : Nat) c, cs[i]? = some c → c.length = s.values.length ∧
    ∀ (j : Nat) x v, c[j]? = some x → s.values[j]? = some v → StoredAt s.swapped (mem v.1) (v.2 + (s.offset + i) * s.stride) x

end Verif.Spec
