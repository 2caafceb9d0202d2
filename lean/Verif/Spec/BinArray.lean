import Verif.Model.ArrowArray
/-!
# Specification: what a binary array contains
-/
namespace Verif.Spec
open Verif

/-- The bytes of the elements before element `i`, concatenated (nulls contribute nothing). -/
def elemBytes (els : List (Option (List Byte))) : List Byte := els.flatMap fun e => e.getD []

/-- The array represents the list of elements (`none` = null). -/
structure Represents (a : BinArray) (els : List (Option (List Byte))) : Prop where
  length : a.length = els.length
  nulls : a.nullCount = (els.filter Option.isNone).length
  offsetsLength : a.offsets.length = els.length + 1
  first : a.offsets[0]? = some 0
  last : a.offsets[els.length]? = some (a.data.length : Int)
  /-- every element is delimited by consecutive offsets -/
  element : ∀ (i : Nat) (e : Option (List Byte)), els[i]? = some e → ∃ lo hi : Nat,
    a.offsets[i]? = some (lo : Int) ∧ a.offsets[i + 1]? = some (hi : Int) ∧ lo ≤ hi ∧ hi ≤ a.data.length ∧
    (a.data.drop lo).take (hi - lo) = e.getD []
  /-- bit `i` of the validity buffer is clear exactly for nulls; an absent buffer means no nulls -/
  validity : match a.validity with
    | none => ∀ e ∈ els, e.isSome
    | some l => l = els.map Option.isSome

end Verif.Spec
