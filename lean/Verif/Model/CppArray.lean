import Verif.Model.Basic
import Verif.Model.WkbParser
/-!
# C++ array views: coordinate sequences, list sequences, nullable arrays, boxes

src/geoarrow/hpp/array_util.hpp. Values are doubles (`T = double`). Templates are modelled by one definition taking the
coordinate type as a parameter.
-/
namespace Verif

/-- Coordinate types `XY`, `XYZ`, `XYM`, `XYZM`, src/geoarrow/hpp/array_util.hpp:271-379, as (has z, has m). -/
structure CppCoordT where
  z : Bool
  m : Bool
  deriving DecidableEq, Repr

/-- `size()` of the coordinate type. -/
def CppCoordT.n (t : CppCoordT) : Nat := 2 + t.z.toNat + t.m.toNat

/-- `x()`, `y()`, `z()`, `m()`, src/geoarrow/hpp/array_util.hpp:277-280, 306-309, 334-337, 362-365; `at` throws outside
the array (`none`, never happens for coordinates of the type's size). -/
def cppX (_ : CppCoordT) (c : List Dbl) : Option Dbl := c[0]?
def cppY (_ : CppCoordT) (c : List Dbl) : Option Dbl := c[1]?
def cppZ (t : CppCoordT) (c : List Dbl) : Option Dbl := if t.z then c[2]? else some Dbl.nan
def cppM (t : CppCoordT) (c : List Dbl) : Option Dbl :=
  if t.m then (if t.z then c[3]? else c[2]?) else some Dbl.nan

/-- `FromXYZM` of each coordinate type, src/geoarrow/hpp/array_util.hpp:293-297, 322-325, 350-353, 378. -/
def cppFromXYZM (t : CppCoordT) (x y z m : Dbl) : List Dbl :=
  match t.z, t.m with
  | false, false => [x, y]
  | true, false => [x, y, z]
  | false, true => [x, y, m]
  | true, true => [x, y, z, m]

/-- `CoordCast<CoordSrc, CoordDst>`, src/geoarrow/hpp/array_util.hpp:387-400. -/
def cppCast (src dst : CppCoordT) (c : List Dbl) : Option (List Dbl) :=
  if src = dst then some c
  else if dst = ⟨false, false⟩ then do
    let x ← cppX src c
    let y ← cppY src c
    pure [x, y]
  else do
    let x ← cppX src c
    let y ← cppY src c
    let z ← cppZ src c
    let m ← cppM src c
    pure (cppFromXYZM dst x y z m)

/-- `CoordSequence` and `ListSequence`, src/geoarrow/hpp/array_util.hpp:489-660, 844-940. `values[j]` is a block of
doubles and an index into it; `offsets` are the readable 32-bit offsets. -/
inductive CppSq where
  | coords (offset length stride : Int) (values : List (Nat × Int))
  | list (offset length : Int) (offsets : List Int) (child : CppSq)
  deriving Repr

/-- Blocks of doubles. -/
abbrev CppMem := Nat → List Dbl

/-- `p[i]`; `none` outside the block. -/
def cppAt {α} (l : List α) (i : Int) : Option α := if 0 ≤ i then l[i.toNat]? else none

def CppSq.offset : CppSq → Int
  | .coords o _ _ _ => o
  | .list o _ _ _ => o
def CppSq.length : CppSq → Int
  | .coords _ l _ _ => l
  | .list _ l _ _ => l
/-- Assigning the members `offset` and `length`. -/
def CppSq.set (o l : Int) : CppSq → CppSq
  | .coords _ _ st v => .coords o l st v
  | .list _ _ off ch => .list o l off ch

/-- `Slice`, src/geoarrow/hpp/array_util.hpp:605-610, 915-920 -/
def CppSq.slice (o l : Int) (s : CppSq) : CppSq := s.set (s.offset + o) l

/-- `CoordSequence::coord`, src/geoarrow/hpp/array_util.hpp:590-596 -/
def cppCoordAt (mem : CppMem) (offset stride : Int) (values : List (Nat × Int)) (i : Int) : Option (List Dbl) :=
  values.mapM fun v => cppAt (mem v.1) (v.2 + (offset + i) * stride)

/-- `ListSequence::UpdateChild` as used by the iterator (`stashed_` starts as a copy of `child`),
src/geoarrow/hpp/array_util.hpp:85-108, 905-909 -/
def cppElement (offset : Int) (offsets : List Int) (child : CppSq) (i : Int) : Option CppSq := do
  let a ← cppAt offsets (offset + i)
  let b ← cppAt offsets (offset + i + 1)
  pure (child.set (child.offset + a) (b - a))

/-- `ListSequence::ValidChildElements`, src/geoarrow/hpp/array_util.hpp:887-895 -/
def cppValidChild (offset length : Int) (offsets : List Int) (child : CppSq) : Option CppSq :=
  if length = 0 then some (child.slice 0 0)
  else do
    let a ← cppAt offsets offset
    let b ← cppAt offsets (offset + length)
    pure (child.slice a (b - a))

/-- Iteration from `begin()` to `end()`: indices 0 .. length - 1; a negative length never meets the end (`none`). -/
def cppRange (length : Int) : Option (List Int) :=
  if length < 0 then none else some ((List.range length.toNat).map Int.ofNat)

/-- Changing `offset` and `length` does not change the nesting depth. -/
def CppSq.depth : CppSq → Nat
  | .coords _ _ _ _ => 0
  | .list _ _ _ ch => ch.depth + 1

theorem CppSq.depth_set (o l : Int) (s : CppSq) : (s.set o l).depth = s.depth := by cases s <;> rfl

/-- `VisitVertices`: the coordinates passed to the callback in order, before `CoordCast`,
src/geoarrow/hpp/array_util.hpp:619-624, 923-927. `fuel` is the nesting depth. -/
def cppVertices (mem : CppMem) : Nat → CppSq → Option (List (List Dbl))
  | _, .coords o l st vs => do
    let is ← cppRange l
    is.mapM (cppCoordAt mem o st vs)
  | 0, .list _ _ _ _ => none
  | fuel + 1, .list o l off ch => do
    let c ← cppValidChild o l off ch
    cppVertices mem fuel c

/-- The loop of `CoordSequence::VisitEdges` from the second vertex on, src/geoarrow/hpp/array_util.hpp:637-646. -/
def cppEdgeLoop (start : List Dbl) : List (List Dbl) → List (List Dbl × List Dbl)
  | [] => []
  | e :: es => (start, e) :: cppEdgeLoop e es

/-- `VisitEdges`: the pairs passed to the callback in order, src/geoarrow/hpp/array_util.hpp:631-647, 930-936 -/
def cppEdges (mem : CppMem) : Nat → CppSq → Option (List (List Dbl × List Dbl))
  | _, .coords o l st vs =>
    if l < 2 then some []
    else do
      let is ← cppRange l
      let cs ← is.mapM (cppCoordAt mem o st vs)
      match cs with
      | [] => some []
      | c :: cs => some (cppEdgeLoop c cs)
  | 0, .list _ _ _ _ => none
  | fuel + 1, .list o l off ch => do
    let is ← cppRange l
    let ess ← is.mapM fun i => do
      let e ← cppElement o off ch i
      cppEdges mem fuel e
    pure ess.flatten

/-- `Array<T>`, src/geoarrow/hpp/array_util.hpp:989-1085: a sequence and a validity bitmap (`nullptr` is `none`). -/
structure CppArr where
  value : CppSq
  validity : Option (List Byte)

/-- `is_valid`, src/geoarrow/hpp/array_util.hpp:1012-1015 -/
def CppArr.isValid (a : CppArr) (i : Int) : Option Bool :=
  match a.validity with
  | none => some true
  | some bits =>
    let i := i + a.value.offset
    if i < 0 then none
    else (bits[i.toNat / 8]?).map fun b => b.getLsbD (i.toNat % 8)

/-- `is_null`, src/geoarrow/hpp/array_util.hpp:1020-1023 -/
def CppArr.isNull (a : CppArr) (i : Int) : Option Bool :=
  match a.validity with
  | none => some false
  | some bits =>
    let i := i + a.value.offset
    if i < 0 then none
    else (bits[i.toNat / 8]?).map fun b => !b.getLsbD (i.toNat % 8)

/-- Visiting the item `*it` at position `i`: a coordinate, or a child sequence,
src/geoarrow/hpp/array_util.hpp:282-285, 1033-1036 -/
def cppItemVertices (mem : CppMem) (s : CppSq) (i : Int) : Option (List (List Dbl)) :=
  match s with
  | .coords o _ st vs => (cppCoordAt mem o st vs i).map fun c => [c]
  | .list o _ off ch => do
    let e ← cppElement o off ch i
    cppVertices mem e.depth e

/-- As `cppItemVertices` for edges; a coordinate is a degenerate edge, src/geoarrow/hpp/array_util.hpp:287-291. -/
def cppItemEdges (mem : CppMem) (s : CppSq) (i : Int) : Option (List (List Dbl × List Dbl)) :=
  match s with
  | .coords o _ st vs => (cppCoordAt mem o st vs i).map fun c => [(c, c)]
  | .list o _ off ch => do
    let e ← cppElement o off ch i
    cppEdges mem e.depth e

/-- `Array<T>::VisitVertices`, src/geoarrow/hpp/array_util.hpp:1026-1044 -/
def cppArrVertices (mem : CppMem) (a : CppArr) : Option (List (List Dbl)) :=
  match a.validity with
  | none => cppVertices mem a.value.depth a.value
  | some _ => do
    let is ← cppRange a.value.length
    let vss ← is.mapM fun i => do
      let v ← a.isValid i
      if v then cppItemVertices mem a.value i else pure []
    pure vss.flatten

/-- `Array<T>::VisitEdges`, src/geoarrow/hpp/array_util.hpp:1048-1066 -/
def cppArrEdges (mem : CppMem) (a : CppArr) : Option (List (List Dbl × List Dbl)) :=
  match a.validity with
  | none => cppEdges mem a.value.depth a.value
  | some _ => do
    let is ← cppRange a.value.length
    let vss ← is.mapM fun i => do
      let v ← a.isValid i
      if v then cppItemEdges mem a.value i else pure []
    pure vss.flatten

/-- `PointArray::VisitEdges` and `MultipointArray::VisitEdges`, src/geoarrow/hpp/array_util.hpp:1110-1113, 1232-1235 -/
def cppPointEdges (mem : CppMem) (a : CppArr) : Option (List (List Dbl × List Dbl)) :=
  (cppArrVertices mem a).map fun cs => cs.map fun c => (c, c)

/-- `SliceImpl`, src/geoarrow/hpp/array_util.hpp:1078-1083 -/
def CppArr.slice (a : CppArr) (o l : Int) : CppArr := { a with value := a.value.slice o l }

/-- Aggregate initialisation of `std::array<double, n>`: missing initialisers give +0.0. -/
def cppAggregate (n : Nat) (init : List Dbl) : List Dbl := init ++ List.replicate (n - init.length) 0#64

/-- `BoxXY::Empty`, `BoxXYZ::Empty`, `BoxXYM::Empty`, `BoxXYZM::Empty`, src/geoarrow/hpp/array_util.hpp:415-418, 435-438,
455-458, 475-480 -/
def cppEmptyBox : CppCoordT → List Dbl
  | ⟨false, false⟩ => cppAggregate 4 [.inf, .inf, .negInf, .negInf]
  | ⟨true, false⟩ => cppAggregate 6 [.inf, .inf, .negInf, .negInf]
  | ⟨false, true⟩ => cppAggregate 6 [.inf, .inf, .negInf, .negInf]
  | ⟨true, true⟩ => cppAggregate 8 [.inf, .inf, .inf, .inf, .negInf, .negInf, .negInf, .negInf]

/-- `lower_bound()` and `upper_bound()`, src/geoarrow/hpp/array_util.hpp:413-414, 433-434, 453-454, 473-474 -/
def cppLower (t : CppCoordT) (box : List Dbl) : List Dbl := box.take t.n
def cppUpper (t : CppCoordT) (box : List Dbl) : List Dbl := (box.drop t.n).take t.n

/-- `BoxArray::LowerBound` / `UpperBound`, src/geoarrow/hpp/array_util.hpp:1123-1148: the first, or second, half of the
value pointers, everything else copied. -/
def cppLowerBound (t : CppCoordT) (a : CppArr) : CppArr :=
  match a.value with
  | .coords o l st vs => ⟨.coords o l st (vs.take t.n), a.validity⟩
  | .list _ _ _ _ => a
def cppUpperBound (t : CppCoordT) (a : CppArr) : CppArr :=
  match a.value with
  | .coords o l st vs => ⟨.coords o l st ((vs.drop t.n).take t.n), a.validity⟩
  | .list _ _ _ _ => a

end Verif
