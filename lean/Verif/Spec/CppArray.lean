import Verif.Spec.Geom
import Verif.Model.CppArray
/-!
# Specification: what nested list arrays of coordinates contain

Follows the Arrow list layout; of the model only the data types and raw indexing (`cppAt`) are used.
-/
namespace Verif.Spec
open Verif

/-- Nested values. -/
inductive Val where
  | coord (c : Coord)
  | list (vs : List Val)

/-- `f a, f (a+1), ..., f (a+n-1)`, if all are defined. -/
def span {α} (f : Int → Option α) (a : Int) : Nat → Option (List α)
  | 0 => some []
  | n + 1 => do
    let x ← f a
    let xs ← span f (a + 1) n
    pure (x :: xs)

/-- The item stored at absolute position `k` of a sequence, the sequence's own offset and length disregarded: a coordinate
takes one ordinate from each values array; a list covers the positions of the child between two consecutive offsets,
counted from the child's offset. Undefined if anything is outside memory or offsets decrease. -/
def item (mem : CppMem) : CppSq → Int → Option Val
  | .coords _ _ stride values, k => (values.mapM fun v => cppAt (mem v.1) (v.2 + k * stride)).map Val.coord
  | .list _ _ offsets child, k => do
    let a ← cppAt offsets k
    let b ← cppAt offsets (k + 1)
    if a ≤ b then (span (item mem child) (child.offset + a) (b - a).toNat).map Val.list else none

/-- The contents of a sequence: the items from its offset on, as many as its length. -/
def Contents (mem : CppMem) (s : CppSq) (vs : List Val) : Prop :=
  0 ≤ s.length ∧ span (item mem s) s.offset s.length.toNat = some vs

mutual
/-- All coordinates of a value in order. -/
def Val.vertices : Val → List Coord
  | .coord c => [c]
  | .list vs => Val.verticesL vs
def Val.verticesL : List Val → List Coord
  | [] => []
  | v :: vs => v.vertices ++ Val.verticesL vs
end

/-- Consecutive pairs. -/
def pairs {α} : List α → List (α × α)
  | a :: b :: l => (a, b) :: pairs (b :: l)
  | _ => []

/-- The coordinates directly in a list. -/
def coordsIn : List Val → List Coord
  | [] => []
  | .coord c :: vs => c :: coordsIn vs
  | .list _ :: vs => coordsIn vs

mutual
/-- Edges: consecutive coordinates of each innermost list, lists in order. -/
def Val.edges : Val → List (Coord × Coord)
  | .coord _ => []
  | .list vs => pairs (coordsIn vs) ++ Val.edgesL vs
def Val.edgesL : List Val → List (Coord × Coord)
  | [] => []
  | v :: vs => v.edges ++ Val.edgesL vs
end

/-- Bit `k` of a bitmap, least significant bit first. -/
def bitAt (bits : List Byte) (k : Nat) : Option Bool := (bits[k / 8]?).map fun b => b.getLsbD (k % 8)

/-- Element validity: everything valid without a bitmap, otherwise the bit at the element's absolute position. -/
def Flags (a : CppArr) (flags : List Bool) : Prop :=
  flags.length = a.value.length.toNat ∧ 0 ≤ a.value.offset ∧
  match a.validity with
  | none => ∀ b ∈ flags, b = true
  | some bits => ∀ i, i < flags.length → bitAt bits (a.value.offset.toNat + i) = flags[i]?

/-- The values whose flag is set. -/
def present {α} : List Bool → List α → List α
  | b :: bs, x :: xs => if b then x :: present bs xs else present bs xs
  | _, _ => []

/-- The coordinate type of a dimension set. -/
def Dims.cppT : Dims → CppCoordT
  | .xy => ⟨false, false⟩
  | .xyz => ⟨true, false⟩
  | .xym => ⟨false, true⟩
  | .xyzm => ⟨true, true⟩

end Verif.Spec
