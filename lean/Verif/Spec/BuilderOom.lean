import Verif.Model.BuilderOom
/-!
# What a client of a builder may expect when memory runs out
-/
namespace Verif.Spec
open Verif.Oom

/-- What a client knows from the calls they made and the values returned: the bytes accepted for every buffer of the array being built; the buffers for
which a call returned an error ("hurt") since that array was begun; and both for every array that was finished. -/
structure Ledger where
  bytes : Nat → List Byte
  hurt : Nat → Bool
  done : List (Nat → List Byte × Bool)

/-- Nothing yet -/
def Ledger.empty : Ledger := ⟨fun _ => [], fun _ => false, []⟩

/-- One call and the value returned -/
def Ledger.note (l : Ledger) (c : Call) (rc : Code) : Ledger :=
  match c with
  | .append _ i bs =>
    if rc = 0 then { l with bytes := fun j => if j = i then l.bytes j ++ bs else l.bytes j }
    else { l with hurt := fun j => if j = i then true else l.hurt j }
  | .reserve _ i _ => if rc = 0 then l else { l with hurt := fun j => if j = i then true else l.hurt j }
  | .finish _ _ => if rc = 0 then ⟨fun _ => [], fun _ => false, l.done ++ [fun i => (l.bytes i, l.hurt i)]⟩ else l
  | .reset => { l with bytes := fun _ => [], hurt := fun _ => false }
  | _ => l

/-- A history of calls and the values returned -/
def Ledger.notes (l : Ledger) : List (Call × Code) → Ledger
  | [] => l
  | (c, rc) :: cs => (l.note c rc).notes cs

/-- What the client knows after the calls `h` on a new builder, which returned `rcs` -/
def ledger (h : List Call) (rcs : List Code) : Ledger := Ledger.empty.notes (h.zip rcs)

/-- Calls on buffers and on the builder as a whole, as opposed to calls on coordinates -/
def IsRaw : Call → Prop
  | .coords _ _ => False
  | .coordsReserve _ _ => False
  | _ => True

/-- What a client may do: use buffers the builder has, not use a builder after it was reset, and release an array once. -/
def Allowed (s : Sys) : Call → Prop
  | .append _ i _ => s.alive = true ∧ i < s.n
  | .reserve _ i _ => s.alive = true ∧ i < s.n
  | .coords _ _ => s.alive = true
  | .coordsReserve _ _ => s.alive = true
  | .finish _ _ => s.alive = true
  | .release k => ∃ a, s.arrays[k]? = some (some a)
  | .reset => True

/-- Some allocation fails in this call, if it comes to one. -/
def Starved : Call → Prop
  | .append mem _ _ => mem = false
  | .reserve mem _ _ => mem = false
  | .finish mem _ => ∃ j, mem j = false
  | _ => False

/-- The call adds to the `i`-th buffer, or reserves memory for it. -/
def Touches (i : Nat) : Call → Prop
  | .append _ j _ => j = i
  | .reserve _ j _ => j = i
  | _ => False

/-- What can be read at an address: the first `size` bytes of an allocated block that has so many; nothing is read if there is nothing to read. -/
def readable (s : Sys) (data : Option Nat) (size : Nat) : Option (List Byte) :=
  if size = 0 then some []
  else
    match data with
    | none => none
    | some a => (s.heap a).bind fun m => if size ≤ m.length then some (m.take size) else none

/-- What the `i`-th buffer of the builder's view shows -/
def shows (s : Sys) (i : Nat) : Option (List Byte) := readable s (s.views i).data (s.views i).size

/-- What the `i`-th buffer of the `k`-th finished array shows, if that was not released -/
def arrayShows (s : Sys) (k i : Nat) : Option (List Byte) :=
  match s.arrays[k]? with
  | some (some a) => readable s (a i).data (a i).size
  | _ => none

end Verif.Spec
