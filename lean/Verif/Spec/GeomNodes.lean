import Verif.Model.Geometry
import Verif.Spec.Geom
/-!
# What the array of nodes of an owning geometry is to the caller: a list that is appended to, resized and replaced
-/
namespace Verif.Spec

/-- Calls that change the array of nodes. `set` is the caller's `root[i] = n`. -/
inductive NodeCall where
  | append
  | appendInline
  | resize (n : Nat)
  | resizeInline (n : Nat)
  | copy (src : View)
  | set (i : Nat) (n : Node)

/-- The nodes after a call, `none` standing for a node of which nothing is said: those that resizing adds. -/
def NodeCall.result (l : List (Option Node)) : NodeCall → List (Option Node)
  | .append => l ++ [some blankNode]
  | .appendInline => l ++ [some blankNode]
  | .resize n => l.take n ++ List.replicate (n - l.length) none
  | .resizeInline n => l.take n ++ List.replicate (n - l.length) none
  | .copy src => src.nodes.map some
  | .set i n => l.set i (some n)

/-- The call may be made: the index is that of a node, and the sizes are far from what 64 bits hold. -/
def NodeCall.Valid (l : List (Option Node)) : NodeCall → Prop
  | .append => l.length < 2 ^ 56
  | .appendInline => l.length < 2 ^ 56
  | .resize n => n < 2 ^ 56
  | .resizeInline n => n < 2 ^ 56
  | .copy src => src.nodes.length < 2 ^ 56
  | .set i _ => i < l.length

/-- All calls may be made, one after the other. -/
def ValidFrom (l : List (Option Node)) : List NodeCall → Prop
  | [] => True
  | c :: cs => c.Valid l ∧ ValidFrom (c.result l) cs

instance (l : List (Option Node)) (c : NodeCall) : Decidable (c.Valid l) := by
  cases c <;> unfold NodeCall.Valid <;> infer_instance

instance instDecidableValidFrom : (cs : List NodeCall) → (l : List (Option Node)) → Decidable (ValidFrom l cs)
  | [], _ => .isTrue trivial
  | c :: cs, l =>
    have := instDecidableValidFrom cs (c.result l)
    inferInstanceAs (Decidable (c.Valid l ∧ ValidFrom (c.result l) cs))

/-- The nodes after all calls -/
def results (l : List (Option Node)) (cs : List NodeCall) : List (Option Node) := cs.foldl NodeCall.result l

/-- `actual` is as long as `l` and has the nodes that `l` says. -/
def Agrees (l actual : List (Option Node)) : Prop :=
  actual.length = l.length ∧ ∀ (i : Nat) (n : Node), l[i]? = some (some n) → actual[i]? = some (some n)

/-- Coordinates in a column-major array: all first ordinates, then all second ones, and so on -/
def separated (d : Dims) (cs : List Coord) : List Byte :=
  (List.range d.n).flatMap fun j => cs.flatMap fun c => Dbl.bytes (c.getD j 0)

end Verif.Spec
