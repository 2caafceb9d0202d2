import Verif.Model.Visitor
/-!
# Specification: what a well-behaved reader is

A reader that drives a visitor is well behaved if there is one fixed list of callbacks and one fixed final outcome
such that, whatever the visitor, the reader's effect is: make the callbacks in order, stop at the first that fails and
return its code, otherwise finish with the outcome.
-/
namespace Verif.Spec
open Verif

/-- Final outcome of a reader once all callbacks succeeded. -/
inductive Outcome (α : Type) where
  | done (a : α)
  | fail (rc : Code)
  | crash
  deriving DecidableEq, Repr

def Outcome.toM {σ α : Type} : Outcome α → M σ α
  | .done a => pure a
  | .fail rc => M.fail rc
  | .crash => M.undef

/-- Make callbacks in order, stopping at the first that does not return `GEOARROW_OK`. -/
def feed {σ} (h : Handler σ) : List Event → M σ Unit
  | [] => pure ()
  | e :: es => fun s => match h e s with
    | .ok _ s' => feed h es s'
    | .err rc s' => .err rc s'
    | .ub => .ub

def replay {σ α} (h : Handler σ) (t : List Event) (o : Outcome α) : M σ α := fun s =>
  match feed h t s with
  | .ok _ s' => o.toM s'
  | .err rc s' => .err rc s'
  | .ub => .ub

/-- The reader `p` makes exactly the callbacks `t` and ends with `o`, for every visitor. -/
def Behaves {α} (p : ∀ σ : Type, Handler σ → M σ α) (t : List Event) (o : Outcome α) : Prop :=
  ∀ (σ : Type) (h : Handler σ) (s : σ), p σ h s = replay h t o s

end Verif.Spec
