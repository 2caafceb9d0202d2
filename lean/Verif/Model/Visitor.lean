import Verif.Model.Basic
/-!
# The visitor interface (`struct GeoArrowVisitor`)
-/
namespace Verif

/-- One call of a visitor callback with its arguments (`struct GeoArrowVisitor`, src/geoarrow/geoarrow_type.h:814-862).
`coords nv cs` is a call of `coords` with a `GeoArrowCoordView` having `n_values = nv` and whose coordinates, in
order, are `cs` (`n_coords = cs.length`; every element of `cs` has `nv` ordinates). The strides/pointers of the view
are abstracted: a callee can only observe the values through `GEOARROW_COORD_VIEW_VALUE`. -/
inductive Event where
  | featStart
  | nullFeat
  | geomStart (gt dims : Nat)
  | ringStart
  | coords (nv : Nat) (cs : List (List Dbl))
  | ringEnd
  | geomEnd
  | featEnd
  deriving DecidableEq, Repr

/-- A visitor: callbacks sharing private state `σ`, each returning a `GeoArrowErrorCode`. -/
abbrev Handler (σ : Type) := Event → M σ Unit

/-- The visitor that records every callback it receives and always succeeds. -/
def recorder : Handler (List Event) := fun e s => .ok () (s ++ [e])

end Verif
