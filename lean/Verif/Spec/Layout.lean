import Verif.Model.Geometry
/-!
# Specification: node arrays that describe exactly one geometry

Purely about the counts and types stored in the nodes, independent of coordinate memory.
-/
namespace Verif.Spec
open Verif

/-- The node list is the pre-order layout of exactly one geometry: a sequence node alone, a polygon node followed by
`size` ring nodes, or another node followed by `size` complete geometries. -/
inductive Layout : List Node → Prop where
  | seq (n : Node) : (n.gt = 1 ∨ n.gt = 2) → Layout [n]
  | polygon (n : Node) (rings : List Node) : n.gt = 3 → rings.length = n.size → Layout (n :: rings)
  | multi (n : Node) (parts : List (List Node)) : 4 ≤ n.gt ∧ n.gt ≤ 7 → parts.length = n.size →
      (∀ p ∈ parts, Layout p) → Layout (n :: parts.flatten)

end Verif.Spec

namespace Verif.Spec
open Verif

/-- `Layout` with consistent levels: the outermost node is at level `l`, rings and members one level deeper than the
geometry they belong to, and rings are linestring nodes. -/
inductive LayoutAt : Nat → List Node → Prop where
  | seq (l : Nat) (n : Node) : (n.gt = 1 ∨ n.gt = 2) → n.level = l → LayoutAt l [n]
  | polygon (l : Nat) (n : Node) (rings : List Node) : n.gt = 3 → n.level = l → rings.length = n.size →
      (∀ r ∈ rings, r.gt = 2 ∧ r.level = l + 1) → LayoutAt l (n :: rings)
  | multi (l : Nat) (n : Node) (parts : List (List Node)) : 4 ≤ n.gt ∧ n.gt ≤ 7 → n.level = l →
      parts.length = n.size → (∀ p ∈ parts, LayoutAt (l + 1) p) → LayoutAt l (n :: parts.flatten)

/-- Every node has a valid dimensions code. -/
def DimsOk (ns : List Node) : Prop := ∀ n ∈ ns, 1 ≤ n.dims ∧ n.dims ≤ 4

end Verif.Spec
