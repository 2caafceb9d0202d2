import Verif.Model.CppReader
import Verif.Spec.SerializedArray
/-!
# Specification: who releases the arrays given to C++ readers

Of the model the calls, their outcomes and the events are used.
-/
namespace Verif.Spec
open Verif

/-- No reader is copied in this history. -/
def NoCopies (h : List Rdr.Call) : Prop := ∀ c ∈ h, ∀ k, c ≠ .copy k

/-- The arrays moved into the reader `k`, in order -/
def movedInto (k : Nat) (h : List Rdr.Call) : List Nat :=
  h.filterMap fun c => match c with | .set k' t _ => if k' = k then some t else none | _ => none

/-- The array a call gives to the reader `k`, moved or not: its number and contents -/
def gives (k : Nat) : Rdr.Call → Option (Nat × AArray)
  | .set k' t a => if k' = k then some (t, a) else none
  | .borrow k' t a => if k' = k then some (t, a) else none
  | _ => none

/-- The arrays released by the client -/
def clientReleases (h : List Rdr.Call) : List Nat := h.filterMap fun c => match c with | .clientRelease t => some t | _ => none

/-- There is a reader `k`: it was made and not destroyed. -/
def Alive (s : Rdr.Sys) (k : Nat) : Prop := ∃ o, s.objs[k]? = some (some o)

/-- The reader `k` was made and destroyed. -/
def Destroyed (s : Rdr.Sys) (k : Nat) : Prop := s.objs[k]? = some none

end Verif.Spec
