import Verif.Model.WkbOomAppend
import Verif.Spec.WkbOom
import Verif.Spec.Nodes
/-!
# Specification: histories of a WKB writer to which geometry views are appended, too
-/
namespace Verif.Spec
open Verif WOom

/-- A call of a client: one of `WkbCall`, or appending a view. -/
inductive WkbCallV where
  | call (c : WkbCall)
  | append (m : Mem) (v : View)

def WkbCallV.run (mem : Nat → Bool) (junk : Nat → Nat → Bool) (c : WkbCallV) (s : OWkb) : Option ((Code × Option BinArray) × OWkb) :=
  match c with
  | .call c => c.run mem junk s
  | .append m v =>
    match appendView mem junk m v s with
    | .ok _ s => some ((0, none), s)
    | .err rc s => some ((rc, none), s)
    | .ub => none

/-- Calls one after the other, whatever they return. -/
def wkbRunsV (mem : Nat → Bool) (junk : Nat → Nat → Bool) : List WkbCallV → OWkb → Option (List (Code × Option BinArray) × OWkb)
  | [], s => some ([], s)
  | c :: cs, s =>
    match c.run mem junk s with
    | none => none
    | some (r, s') => (wkbRunsV mem junk cs s').map fun p => (r :: p.1, p.2)

/-- The call adds this geometry, or a null. -/
inductive WkbCallV.Says : WkbCallV → Option Geom → Prop
  | call {c : WkbCall} {o : Option Geom} (h : c.Says o) : Says (.call c) o
  | append {m : Mem} {v : View} {g : Geom} (h : ViewDenotes m v g) (hs : g.SmallSeqs) : Says (.append m v) (some g)

/-- The calls add these, one each. -/
def SayAllV : List WkbCallV → List (Option Geom) → Prop
  | [], [] => True
  | c :: cs, g :: gs => c.Says g ∧ SayAllV cs gs
  | _, _ => False

/-- A call a client may make at any time; a view that is appended stands for a geometry. -/
def WkbCallV.Proper : WkbCallV → Prop
  | .call c => c.Proper
  | .append m v => ∃ g, ViewDenotes m v g ∧ g.SmallSeqs

/-- No view was refused; features and nulls may have been. -/
def NoViewRefused : List WkbCallV → List (Code × Option BinArray) → Prop
  | .append _ _ :: cs, r :: rs => r.1 = 0 ∧ NoViewRefused cs rs
  | .call _ :: cs, _ :: rs => NoViewRefused cs rs
  | _, _ => True

/-- The call appends a view, well-formed or not, or feeds a feature without a null. -/
def WkbCallV.FeedsNoNull : WkbCallV → Prop
  | .call c => ∃ t, c = .visit (.featStart :: t) ∧ .nullFeat ∉ t
  | .append _ _ => True

end Verif.Spec
