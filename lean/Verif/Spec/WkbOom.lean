import Verif.Model.WkbOom
import Verif.Spec.Program
import Verif.Spec.Nesting
import Verif.Spec.BinArray
import Verif.Spec.Wkb
/-!
# Specification: histories of a WKB writer whose requests for memory may be refused
-/
namespace Verif.Spec
open Verif WOom

/-- A call of a client: feeding one feature to the visitor until it fails, adding a null, or finishing. -/
inductive WkbCall where
  | visit (t : List Event)
  | appendNull
  | finish

/-- What a call returns: a code and, for `finish`, what is in the array of the caller. `none`: undefined behaviour. -/
def WkbCall.run (mem : Nat → Bool) (junk : Nat → Nat → Bool) (c : WkbCall) (s : OWkb) : Option ((Code × Option BinArray) × OWkb) :=
  match c with
  | .visit t =>
    match feed (handler mem junk) t s with
    | .ok _ s => some ((0, none), s)
    | .err rc s => some ((rc, none), s)
    | .ub => none
  | .appendNull =>
    match WOom.appendNull mem junk s with
    | .ok _ s => some ((0, none), s)
    | .err rc s => some ((rc, none), s)
    | .ub => none
  | .finish => WOom.finish mem s

/-- Calls one after the other, whatever they return. -/
def wkbRuns (mem : Nat → Bool) (junk : Nat → Nat → Bool) : List WkbCall → OWkb → Option (List (Code × Option BinArray) × OWkb)
  | [], s => some ([], s)
  | c :: cs, s =>
    match c.run mem junk s with
    | none => none
    | some (r, s') => (wkbRuns mem junk cs s').map fun p => (r :: p.1, p.2)

/-- A call a client may make at any time: a visit starts a feature and closes only what it opened. -/
def WkbCall.Proper : WkbCall → Prop
  | .visit t => ∃ t', t = .featStart :: t' ∧ closesMatch [] t'
  | _ => True

/-- The call adds this geometry, or a null. -/
inductive WkbCall.Says : WkbCall → Option Geom → Prop
  | feature {g : Geom} {t : List Event} (ht : FeatureTrace g t) (hc : g.Countable) (hh : g.height ≤ 29) : Says (.visit t) (some g)
  | null : Says (.visit [.featStart, .nullFeat, .featEnd]) none
  | appendNull : Says .appendNull none

/-- The calls add these, one each. -/
def SayAll : List WkbCall → List (Option Geom) → Prop
  | [], [] => True
  | c :: cs, g :: gs => c.Says g ∧ SayAll cs gs
  | _, _ => False

/-- What an element for this feature has to hold. -/
def wanted (o : Option Geom) : Option (List Byte) := o.map isoWkb

/-- A writer that holds nothing: newly initialised, or just emptied by a `finish` that filled the array of the caller. -/
def WkbBegins (mem : Nat → Bool) (s : OWkb) : Prop :=
  (∃ raw k, s = init raw k) ∨ ∃ s1 rc a, finish mem s1 = some ((rc, some a), s)

/-- All of these calls returned 0. -/
def AllFine (rs : List (Code × Option BinArray)) : Prop := ∀ r ∈ rs, r.1 = 0

/-- Some request for memory made between two states was refused. -/
def Refused (mem : Nat → Bool) (s s' : OWkb) : Prop := ∃ k, s.asked ≤ k ∧ k < s'.asked ∧ mem k = false

/-- Element `i` of the array is delimited by its offsets and has these bytes. -/
def ElementIs (a : BinArray) (i : Nat) (b : List Byte) : Prop :=
  ∃ lo hi : Nat, a.offsets[i]? = some (lo : Int) ∧ a.offsets[i + 1]? = some (hi : Int) ∧ lo ≤ hi ∧ hi ≤ a.data.length ∧
    (a.data.drop lo).take (hi - lo) = b

end Verif.Spec
