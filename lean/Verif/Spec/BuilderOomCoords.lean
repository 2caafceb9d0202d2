import Verif.Spec.BuilderOom
/-!
# What a client of a builder may expect of coordinates when memory runs out
-/
namespace Verif.Spec
open Verif.Oom

/-- The first buffer of coordinates; those of coordinates are the last ones. -/
def firstCoord (s : Sys) : Nat :=
  match s.kind with
  | some .separate => s.n - s.nValues
  | some .interleaved => s.n - 1
  | none => s.n

/-- The bytes that coordinates add to the `i`-th buffer: one dimension of each, or all dimensions of each -/
def coordPart (s : Sys) (i : Nat) (cs : List (List Dbl)) : List Byte :=
  match s.kind with
  | some .separate => if firstCoord s ≤ i ∧ i < s.n then cs.flatMap fun c => Dbl.bytes (c.getD (i - firstCoord s) 0) else []
  | some .interleaved => if firstCoord s ≤ i ∧ i < s.n then cs.flatMap fun c => c.flatMap Dbl.bytes else []
  | none => []

/-- One call and the value returned, coordinates included -/
def Ledger.noteAll (s : Sys) (l : Ledger) (c : Call) (rc : Code) : Ledger :=
  match c with
  | .coords _ cs => if rc = 0 then { l with bytes := fun i => l.bytes i ++ coordPart s i cs } else l
  | .coordsReserve _ _ => l
  | c => l.note c rc

/-- A history of calls and the values returned, coordinates included -/
def Ledger.noteAlls (s : Sys) (l : Ledger) : List (Call × Code) → Ledger
  | [] => l
  | (c, rc) :: cs => (l.noteAll s c rc).noteAlls s cs

/-- What the client knows after the calls `h` on the new builder `s`, which returned `rcs` -/
def coordLedger (s : Sys) (h : List Call) (rcs : List Code) : Ledger := Ledger.empty.noteAlls s (h.zip rcs)

/-- The calls of a client who adds coordinates only by the functions for coordinates, with as many ordinates as the builder has -/
def Tidy (s : Sys) : Call → Prop
  | .append _ i _ => i < firstCoord s
  | .reserve _ i _ => i < firstCoord s
  | .coords _ cs => ∀ c ∈ cs, c.length = s.nValues
  | _ => True

/-- No call on coordinates failed. -/
def CoordsFine : List Call → List Code → Prop
  | c :: h, rc :: rcs => (¬ IsRaw c → rc = 0) ∧ CoordsFine h rcs
  | _, _ => True

/-- Some allocation fails in this call, if it comes to one. -/
def StarvedAny : Call → Prop
  | .coords mem _ => ∃ j, mem j = false
  | .coordsReserve mem _ => ∃ j, mem j = false
  | c => Starved c

/-- Every call of the history is one the client may make when its turn comes. -/
def AllowedAll (junk : Nat → Nat → Byte) : List Call → Sys → Prop
  | [], _ => True
  | c :: h, s => Allowed s c ∧ ∀ rc s', c.run junk s = some (rc, s') → AllowedAll junk h s'

end Verif.Spec
