import Verif.Model.CppArray
import Verif.Model.ArrayView
/-!
# C++ array views made from a `GeoArrowArrayView`

src/geoarrow/hpp/array_util.hpp. Values are doubles (`T = double`), offsets 32-bit integers. Memory: `values[j]` of the view is block `j`
(blocks that are the same buffer are repeated, nothing is written).
-/
namespace Verif

/-- A buffer as an array of doubles; `NULL` has no elements. -/
def dblsOf : Option (List Byte) → List Dbl
  | none => []
  | some b => (List.range (b.length / 8)).map fun i => Dbl.ofBytes ((b.drop (8 * i)).take 8)

/-- A buffer as an array of 32-bit integers; `NULL` has no elements. -/
def i32sOf : Option (List Byte) → List Int
  | none => []
  | some b => (List.range (b.length / 4)).map fun i => (BitVec.ofNat 32 (leVal ((b.drop (4 * i)).take 4))).toInt

/-- The memory behind `view->coords.values` -/
def cppMemOf (v : AView) : CppMem := fun j => dblsOf (v.values j).1

/-- `CoordSequence<Coord>::InitFrom(view, level)`, src/geoarrow/hpp/array_util.hpp:527-553; `n` is `coord_size`. -/
def cppInitCoords (n : Nat) (v : AView) (level : Nat) : Except Code CppSq :=
  if level ≠ v.nOffsets then .error EINVAL
  else if v.nValues % 2 ^ 32 < n then .error EINVAL
  else .ok (.coords (v.offset level) (v.length level) v.stride ((List.range n).map fun j => (j, (v.values j).2)))

/-- `ListSequence<T>::InitFrom(view, level)`, src/geoarrow/hpp/array_util.hpp:874-884, for `k` nested lists around coordinates -/
def cppInitSq (n : Nat) (v : AView) : (k level : Nat) → Except Code CppSq
  | 0, level => cppInitCoords n v level
  | k + 1, level =>
    if (v.nOffsets : Int) - 1 < level then .error EINVAL
    else
      match cppInitSq n v k (level + 1) with
      | .error e => .error e
      | .ok child => .ok (.list (v.offset level) (v.length level) (i32sOf (v.offsets level)) child)

/-- `Array<T>::Init`, src/geoarrow/hpp/array_util.hpp:1071-1075 -/
def cppArrInit (n k : Nat) (v : AView) : Except Code CppArr :=
  match cppInitSq n v k 0 with
  | .error e => .error e
  | .ok s => .ok ⟨s, v.validity⟩

/-- The nesting of `PointArray`, `LinestringArray`, `PolygonArray`, `MultipointArray`, `MultiLinestringArray`, `MultiPolygonArray`,
src/geoarrow/hpp/array_util.hpp:1086-1296, by geometry type; `BoxArray` is that of points. -/
def cppNesting (g : Int) : Nat :=
  if g = 1 ∨ g = 990 then 0 else if g = 2 ∨ g = 4 then 1 else if g = 3 ∨ g = 5 then 2 else 3

/-- The vertices given to the callback by `VisitVertices<CoordDst>`, src/geoarrow/hpp/array_util.hpp:619-624 -/
def cppArrVerticesAs (mem : CppMem) (src dst : CppCoordT) (a : CppArr) : Option (List (List Dbl)) :=
  (cppArrVertices mem a).bind fun cs => cs.mapM (cppCast src dst)

/-- `VisitEdges` of the array of a geometry type: points and multipoints have their own, src/geoarrow/hpp/array_util.hpp:1110-1113, 1232-1235.
It compiles for `CoordDst = Coord` only (`CoordDst end = *it`, line 641). -/
def cppTypedEdges (g : Int) (mem : CppMem) (a : CppArr) : Option (List (List Dbl × List Dbl)) :=
  if g = 1 ∨ g = 4 then cppPointEdges mem a else cppArrEdges mem a

/-- `Coords()`, src/geoarrow/hpp/array_util.hpp:1089-1096, 1156-1164, 1175-1185, 1203-1211, 1237-1250, 1264-1277: `ValidChildElements` as often as the
array is nested -/
def cppAllCoords : Nat → CppSq → Option CppSq
  | 0, s => some s
  | _ + 1, .coords _ _ _ _ => none
  | k + 1, .list o l off ch =>
    match cppValidChild o l off ch with
    | none => none
    | some c => cppAllCoords k c

end Verif
