import Verif.Model.CppArray
import Verif.Model.WkbParser
/-!
# C++ arrays of WKB blobs

src/geoarrow/hpp/wkb_util.hpp, src/geoarrow/hpp/array_util.hpp
-/
namespace Verif

/-- The source coordinate type by dimensions, src/geoarrow/hpp/wkb_util.hpp:83-99, 109-125; anything else throws
(never happens for parsed sequences). -/
def cppDimsT : Nat → Option CppCoordT
  | 1 => some ⟨false, false⟩
  | 2 => some ⟨true, false⟩
  | 3 => some ⟨false, true⟩
  | 4 => some ⟨true, true⟩
  | _ => none

/-- `WKBSequence::VisitVertices<CoordDst>`: what the callback gets, src/geoarrow/hpp/wkb_util.hpp:82-100, 128-143,
src/geoarrow/hpp/array_util.hpp:797-802 -/
def cppSeqVerticesAs (blob : List Byte) (dst : CppCoordT) (q : CppSeq) : Option (List (List Dbl)) := do
  let t ← cppDimsT q.dims
  let cs ← cppSeqVertices blob q
  cs.mapM (cppCast t dst)

/-- `WKBSequence::VisitEdges<CoordDst>`, src/geoarrow/hpp/wkb_util.hpp:107-125, 145-160,
src/geoarrow/hpp/array_util.hpp:809-824 -/
def cppSeqEdgesAs (blob : List Byte) (dst : CppCoordT) (q : CppSeq) : Option (List (List Dbl × List Dbl)) :=
  if q.length < 2 then (cppDimsT q.dims).map fun _ => []
  else do
    let cs ← cppSeqVerticesAs blob dst q
    match cs with
    | [] => pure []
    | c :: cs => pure (cppEdgeLoop c cs)

mutual
/-- `WKBGeometry::VisitVertices<CoordDst>`, src/geoarrow/hpp/wkb_util.hpp:198-207 -/
def cppGeomVertices (blob : List Byte) (dst : CppCoordT) : CppGeom → Option (List (List Dbl))
  | .mk _ _ _ qs gs => do
    let a ← qs.mapM (cppSeqVerticesAs blob dst)
    let b ← cppGeomVerticesL blob dst gs
    pure (a.flatten ++ b)
def cppGeomVerticesL (blob : List Byte) (dst : CppCoordT) : List CppGeom → Option (List (List Dbl))
  | [] => some []
  | g :: gs => do
    let a ← cppGeomVertices blob dst g
    let b ← cppGeomVerticesL blob dst gs
    pure (a ++ b)
end

mutual
/-- `WKBGeometry::VisitEdges<CoordDst>`, src/geoarrow/hpp/wkb_util.hpp:212-228 -/
def cppGeomEdges (blob : List Byte) (dst : CppCoordT) : CppGeom → Option (List (List Dbl × List Dbl))
  | .mk gt d srid qs gs =>
    if gt = 1 ∨ gt = 4 then (cppGeomVertices blob dst (.mk gt d srid qs gs)).map fun cs => cs.map fun c => (c, c)
    else do
      let a ← qs.mapM (cppSeqEdgesAs blob dst)
      let b ← cppGeomEdgesL blob dst gs
      pure (a.flatten ++ b)
def cppGeomEdgesL (blob : List Byte) (dst : CppCoordT) : List CppGeom → Option (List (List Dbl × List Dbl))
  | [] => some []
  | g :: gs => do
    let a ← cppGeomEdges blob dst g
    let b ← cppGeomEdgesL blob dst gs
    pure (a ++ b)
end

/-- `WKBArray<Offset>`: `BinarySequence` members and the validity bitmap, src/geoarrow/hpp/array_util.hpp:945-963, 989-1007.
32-bit and 64-bit offsets are both integers here. -/
structure CppBlobs where
  offset : Int
  length : Int
  offsets : List Int
  data : List Byte
  validity : Option (List Byte)

/-- `BinarySequence::blob`, src/geoarrow/hpp/array_util.hpp:974-978. Simplification: a view not inside the data buffer is
`none` already here, not when it is first read. -/
def CppBlobs.blob (a : CppBlobs) (i : Int) : Option (List Byte) := do
  let b ← cppAt a.offsets (a.offset + i)
  let e ← cppAt a.offsets (a.offset + i + 1)
  if 0 ≤ b ∧ b ≤ e ∧ e ≤ a.data.length then pure ((a.data.drop b.toNat).take (e - b).toNat) else none

/-- `Array<T>::is_valid`, src/geoarrow/hpp/array_util.hpp:1012-1015 -/
def CppBlobs.isValid (a : CppBlobs) (i : Int) : Option Bool :=
  match a.validity with
  | none => some true
  | some bits =>
    let i := i + a.offset
    if i < 0 then none
    else (bits[i.toNat / 8]?).map fun b => b.getLsbD (i.toNat % 8)

/-- How a visit ends: what the callback got, and the element whose parse failure was thrown, if any. -/
structure CppVisit (α : Type) where
  seen : List α
  thrown : Option (Int × Code)
  deriving DecidableEq

/-- The loop over elements shared by `WKBBlobSequence::VisitVertices`/`VisitEdges` and `Array<T>::VisitVertices`/
`VisitEdges`, src/geoarrow/hpp/wkb_util.hpp:548-556, 567-580, src/geoarrow/hpp/array_util.hpp:1027-1066: null elements are
skipped (without a bitmap there are none), others parsed and visited; a status other than OK is thrown. `ps i` are the
members the iterator's parser has from parsing earlier elements (arbitrary here). -/
def cppBlobLoop {α} (a : CppBlobs) (ps : Int → CppP) (visit : List Byte → CppGeom → Option (List α)) :
    Int → Nat → Option (CppVisit α)
  | _, 0 => some ⟨[], none⟩
  | i, n + 1 => do
    let v ← a.isValid i
    if v then do
      let b ← a.blob i
      let o ← cppParseView (ps i) b
      match o.status, o.out with
      | 0, some g => do
        let xs ← visit b g
        let r ← cppBlobLoop a ps visit (i + 1) n
        pure ⟨xs ++ r.seen, r.thrown⟩
      | rc, _ => pure ⟨[], some (i, rc)⟩
    else cppBlobLoop a ps visit (i + 1) n

/-- `WKBArray::VisitVertices<CoordDst>` and `VisitEdges<CoordDst>` -/
def cppBlobVertices (a : CppBlobs) (ps : Int → CppP) (dst : CppCoordT) : Option (CppVisit (List Dbl)) :=
  if a.length < 0 then none else cppBlobLoop a ps (fun b => cppGeomVertices b dst) 0 a.length.toNat
def cppBlobEdges (a : CppBlobs) (ps : Int → CppP) (dst : CppCoordT) : Option (CppVisit (List Dbl × List Dbl)) :=
  if a.length < 0 then none else cppBlobLoop a ps (fun b => cppGeomEdges b dst) 0 a.length.toNat

end Verif
