import Verif.Spec.Axes
import Verif.Model.Coords
/-! # Specification: coordinate views over memory of doubles -/
namespace Verif.Spec
open Verif

/-- Rows `off, off+1, …` of the view hold exactly the coordinates `cs` (with dimensions `d`). -/
def Holds (mem : DMem) (v : CoordView) (off : Nat) (d : Dims) (cs : List Coord) : Prop :=
  ∀ t c, cs[t]? = some c → c.length = d.n ∧ ∀ j x, c[j]? = some x → v.get mem (off + t) j = some x

/-- Rows `off..off+n-1`, columns `0..nv-1` of a view are allocated and do not overlap each other. -/
def Writable (mem : DMem) (v : CoordView) (off n nv : Nat) : Prop :=
  (∀ t, t < n → ∀ j, j < nv → (v.get mem (off + t) j).isSome) ∧
  (∀ t, t < n → ∀ j, j < nv → ∀ t', t' < n → ∀ j', j' < nv →
    v.cell (off + t) j = v.cell (off + t') j' → t = t' ∧ j = j')

end Verif.Spec
