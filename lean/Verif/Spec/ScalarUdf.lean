import Verif.Model.ScalarUdf
import Verif.Spec.ErrorText
/-!
# Specification: a client of scalar functions
-/
namespace Verif.Spec
open Verif Udf

/-- What a client does with the functions it has; functions are numbered in the order in which they were made. -/
inductive UdfCall where
  | make (before : Impl)
  | init (u : Nat) (args : List ASchema)
  | execute (u : Nat) (args : List NullArray) (nRows : Int)
  | lastError (u : Nat)
  | release (u : Nat)

/-- What a client gets. -/
inductive UdfAnswer where
  | done
  | type (rc : Code) (s : ASchema)
  | rows (rc : Code) (a : NullArray)
  | text (t : Option (List Byte))

/-- A call; `none`: a pointer is followed that does not point to a function of the right kind. -/
def UdfCall.run (f : Factory) (c : UdfCall) (us : List Impl) : Option (UdfAnswer × List Impl) :=
  match c with
  | .make b => (f.new b).map fun u => (.done, us ++ [u])
  | .init k args => us[k]?.bind fun u => (u.callInit args).map fun r => (.type r.1 r.2, us)
  | .execute k args n => us[k]?.bind fun u => (u.callExecute args n).map fun r => (.rows r.1 r.2, us)
  | .lastError k => us[k]?.bind fun u => u.callLastError.map fun t => (.text t, us)
  | .release k => us[k]?.bind fun u => u.callRelease.map fun u' => (.done, us.set k u')

/-- Calls one after the other. -/
def udfRuns (f : Factory) : List UdfCall → List Impl → Option (List UdfAnswer × List Impl)
  | [], us => some ([], us)
  | c :: cs, us =>
    match c.run f us with
    | none => none
    | some (r, us') => (udfRuns f cs us').map fun p => (r :: p.1, p.2)

/-- The calls are about functions that were made before them, `n` of them to begin with. -/
def UdfMade : Nat → List UdfCall → Prop
  | _, [] => True
  | n, .make _ :: cs => UdfMade (n + 1) cs
  | n, .init k _ :: cs => k < n ∧ UdfMade n cs
  | n, .execute k _ _ :: cs => k < n ∧ UdfMade n cs
  | n, .lastError k :: cs => k < n ∧ UdfMade n cs
  | n, .release k :: cs => k < n ∧ UdfMade n cs

/-- What the function `void` promises: the null type; as many nulls as there are rows; no error text. -/
def VoidAnswer (c : UdfCall) (r : UdfAnswer) : Prop :=
  match c, r with
  | .make _, .done => True
  | .init _ _, .type rc s => rc = 0 ∧ s.format = some (str "n") ∧ s.children = []
  | .execute _ _ n, .rows rc a => (0 ≤ n → rc = 0 ∧ a.length = n ∧ a.nullCount = n ∧ a.offset = 0 ∧ a.nBuffers = 0) ∧ (n < 0 → rc ≠ 0)
  | .lastError _, .text t => t = none
  | .release _, .done => True
  | _, _ => False

end Verif.Spec
