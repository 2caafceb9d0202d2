import Verif.Model.Ownership
/-!
# Specification: memory is given back exactly once

Of the model the calls and the events are used (`Own.Call`, `Own.MemEvent`) and, to say who holds a buffer, the state.
-/
namespace Verif.Spec
open Verif Own

/-- The calls of `custom_free` for the owner `t`, in order -/
def customFrees (t : Nat) (log : List MemEvent) : List MemEvent :=
  log.filter fun e => match e with | .custom t' _ _ => decide (t' = t) | _ => false

/-- How often the object `t` of C++ is destroyed: by `custom_free`, or by its maker. -/
def timesDestroyed (t : Nat) (log : List MemEvent) : Nat := (customFrees t log).length + log.count (.deleted t)

/-- The owner named in a call that hands over memory: pointer, size and index of the buffer -/
def Call.hands : Call → Option (Nat × Option Nat × Nat × Int)
  | .setOwned i d n t => some (t, d, n, i)
  | .wrap i d n t => some (t, d, n, i)
  | _ => none

/-- The owners named in a history -/
def owners (h : List Call) : List Nat := (h.filterMap Call.hands).map (·.1)

/-- Nothing is left: the builder was reset and all arrays were released. -/
def AllGone (s : Sys) : Prop := s.builder = none ∧ ∀ a ∈ s.arrays, a = none

/-- The buffer of the builder with flat index `i` is the memory of `t`, at `d`, of `n` bytes. -/
def BuilderHolds (s : Sys) (t : Nat) (d : Option Nat) (n : Nat) (i : Nat) : Prop :=
  ∃ b p, s.builder = some b ∧ i < b.nBuffers ∧ b.slot i = some p ∧ (b.arr.bufs p).owner = some t ∧ (b.arr.bufs p).data = d ∧ (b.arr.bufs p).cap = n

/-- So is a buffer of the `k`-th finished array, which was not released. -/
def ArrayHolds (s : Sys) (t : Nat) (d : Option Nat) (n : Nat) (k : Nat) : Prop :=
  ∃ a p, s.arrays[k]? = some (some a) ∧ p ∈ slotsOf [] a.tree ∧ (a.bufs p).owner = some t ∧ (a.bufs p).data = d ∧ (a.bufs p).cap = n

/-- The reasons for which memory handed over by `t` (at `d`, of `n` bytes) may be given back in a call made in the state `s`: the builder that holds it
is reset; the array that holds it is released; other memory is handed over for the same buffer; the buffer is asked to grow; or it is `NULL` and
the builder is finished. -/
inductive MayFree (s : Sys) (t : Nat) (d : Option Nat) (n : Nat) : Call → Prop where
  | reset (i : Nat) : BuilderHolds s t d n i → MayFree s t d n .reset
  | release (k : Nat) : ArrayHolds s t d n k → MayFree s t d n (.release k)
  | replaced (i : Nat) (d' : Option Nat) (n' t' : Nat) : BuilderHolds s t d n i → MayFree s t d n (.setOwned i d' n' t')
  | rewrapped (i : Nat) (d' : Option Nat) (n' t' : Nat) : BuilderHolds s t d n i → MayFree s t d n (.wrap i d' n' t')
  | grown (i m : Nat) (b : Bld) : BuilderHolds s t d n i → s.builder = some b → n < (b.view i).size + m → MayFree s t d n (.reserve i m)
  | null (i : Nat) (valid : Bool) : BuilderHolds s t d n i → d = none → MayFree s t d n (.finish valid)

/-- The buffer a call names -/
def Call.buffer : Call → Option Int
  | .setOwned i _ _ _ => some i
  | .wrap i _ _ _ => some i
  | .reserve i _ => some i
  | .view i _ => some i
  | _ => none

end Verif.Spec
