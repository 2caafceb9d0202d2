import Verif.Model.WktOom
import Verif.Spec.Program
import Verif.Spec.BinArray
import Verif.Spec.Wkt
/-!
# Specification: histories of a WKT writer whose requests for memory may be refused
-/
namespace Verif.Spec
open Verif TOom

/-- A call of a client: feeding one feature to the visitor until it fails, where the size limit of an element is no
failure (the feature is ended, as the kernels do), or finishing. -/
inductive WktCall where
  | visit (t : List Event)
  | finish

/-- What a call returns: a code and, for `finish`, what is in the array of the caller. `none`: undefined behaviour. -/
def WktCall.run (print : Nat → Dbl → List Byte) (mem : Nat → Bool) (junk : Nat → Nat → Bool) (c : WktCall) (s : OWkt) :
    Option ((Code × Option BinArray) × OWkt) :=
  match c with
  | .visit t =>
    match visitByFeature (handler print mem junk) (feed (handler print mem junk) t) s with
    | .ok _ s => some ((0, none), s)
    | .err rc s => some ((rc, none), s)
    | .ub => none
  | .finish => TOom.finish mem s

/-- Calls one after the other, whatever they return. -/
def wktRuns (print : Nat → Dbl → List Byte) (mem : Nat → Bool) (junk : Nat → Nat → Bool) :
    List WktCall → OWkt → Option (List (Code × Option BinArray) × OWkt)
  | [], s => some ([], s)
  | c :: cs, s =>
    match c.run print mem junk s with
    | none => none
    | some (r, s') => (wktRuns print mem junk cs s').map fun p => (r :: p.1, p.2)

/-- Coordinates as every reader passes them on: at least one ordinate each, all of them the same number. -/
def EvenCoords (e : Event) : Prop := ∀ nv cs, e = .coords nv cs → 1 ≤ nv ∧ ∀ c ∈ cs, c.length = nv

/-- A call a client may make at any time: a visit starts a feature and has coordinates of the right size. -/
def WktCall.Proper : WktCall → Prop
  | .visit t => ∃ t', t = .featStart :: t' ∧ ∀ e ∈ t', EvenCoords e
  | .finish => True

/-- The call adds this geometry, or a null. -/
inductive WktCall.Says : WktCall → Option Geom → Prop
  | feature {g : Geom} {t : List Event} (ht : FeatureTrace g t) (hw : g.WF) (hty : g.Typed) (hh : g.height ≤ 31) : Says (.visit t) (some g)
  | null : Says (.visit [.featStart, .nullFeat, .featEnd]) none

/-- The calls add these, one each. -/
def WktSayAll : List WktCall → List (Option Geom) → Prop
  | [], [] => True
  | c :: cs, g :: gs => c.Says g ∧ WktSayAll cs gs
  | _, _ => False

/-- What an element may hold of a text, given the limit of the writer: all of it without a limit; with a limit the first
`max` bytes, but once there was a null only some beginning that is complete or no shorter than the limit (C24). -/
def MayHold (max : Int) (afterNull : Bool) (text e : List Byte) : Prop :=
  if max < 0 then e = text
  else if afterNull then e <+: text ∧ (e = text ∨ max ≤ e.length)
  else e = text.take max.toNat

/-- The elements for these features, in order; a null for a null. -/
def ElementsFor (max : Int) (txt : Geom → List Byte) : (afterNull : Bool) → List (Option Geom) → List (Option (List Byte)) → Prop
  | _, [], [] => True
  | _, none :: gs, none :: es => ElementsFor max txt true gs es
  | n, some g :: gs, some e :: es => MayHold max n (txt g) e ∧ ElementsFor max txt n gs es
  | _, _, _ => False

/-- A writer that holds nothing: newly initialised, or just emptied by a `finish` that filled the array of the caller. -/
def WktBegins (mem : Nat → Bool) (s : OWkt) : Prop :=
  (∃ precision flat maxSize raw k, s = init precision flat maxSize raw k) ∨ ∃ s1 rc a, finish mem s1 = some ((rc, some a), s)

/-- Some request for memory made between two states was refused. -/
def WktRefused (mem : Nat → Bool) (s s' : OWkt) : Prop := ∃ k, s.asked ≤ k ∧ k < s'.asked ∧ mem k = false

/-- Callbacks one after the other, going on whatever they return, are never undefined. -/
def CallbacksDefined {σ : Type} (h : Handler σ) : List Event → σ → Prop
  | [], _ => True
  | e :: es, s =>
    match h e s with
    | .ok _ s' => CallbacksDefined h es s'
    | .err _ s' => CallbacksDefined h es s'
    | .ub => False

end Verif.Spec
