import Verif.Model.Builder
import Verif.Model.Bitmap
import Verif.Model.Visitor
import Verif.Model.WkbWriter
/-!
# The writer of native arrays: `native_writer.c`

Simplifications: allocations succeed, `int64_t` and `int` arithmetic does not overflow (`int32_t` offsets do), error messages are
left out, the host is little-endian. `output_initialized` is left out: it is false only inside `GeoArrowNativeWriterFinish`.
-/
namespace Verif

/-- `struct GeoArrowNativeWriterPrivate`, src/geoarrow/native_writer.c:14-31. Of the empty coordinate (four NaNs that are never changed)
only `n_values` varies, and nothing reads it. -/
structure NWriter where
  builder : Builder
  validity : Bitmap
  nullCount : Nat
  currentLength : Nat
  lastOffset : Nat → Int
  featIsNull : Bool
  nesting : Nat
  lastDims : Nat
  size : Nat → Nat
  level : Int

/-- A call on `private_data->builder` -/
def nwB {α : Type} (x : M Builder α) : M NWriter α := fun w =>
  match x w.builder with
  | .ok a b => .ok a { w with builder := b }
  | .err rc b => .err rc { w with builder := b }
  | .ub => .ub

/-- A store to `private_data->validity`; `none` is a store outside of it. -/
def nwV (x : Bitmap → Option Bitmap) : M NWriter Unit := fun w =>
  match x w.validity with
  | none => .ub
  | some v => .ok () { w with validity := v }

/-- The first loop of `GeoArrowNativeWriterEnsureOutputInitialized`, src/geoarrow/native_writer.c:95-98, with `k` offset buffers left -/
def nwZeros (junk : Nat → Byte) : (k i : Nat) → M NWriter Unit
  | 0, _ => pure ()
  | k + 1, i => do
    nwB (bOffsetAppend junk i [0])
    nwZeros junk k (i + 1)

/-- `GeoArrowNativeWriterEnsureOutputInitialized`, src/geoarrow/native_writer.c:84-110. `ArrowBitmapResize(.., 0, 0)`
(src/vendor/nanoarrow/nanoarrow.h:2953-2966) keeps the memory. -/
def nwEnsureInitialized (junk : Nat → Byte) : M NWriter Unit := do
  let w ← M.get
  nwZeros junk w.builder.nOffsets 0
  M.modify fun w => { w with nullCount := 0, currentLength := 0, validity := { w.validity with sizeBytes := 0, bits := 0 },
                             lastOffset := fun _ => 0, builder := { w.builder with sizeCoords := 0, capCoords := 0 } }

/-- `GeoArrowNativeWriterInit`, src/geoarrow/native_writer.c:36-74 -/
def nwInit (junk : Nat → Byte) (type : TypeId) : Except Code NWriter :=
  match builderInitFromType type with
  | .error rc => .error rc
  | .ok b =>
    match nwEnsureInitialized junk { builder := b, validity := Bitmap.init, nullCount := 0, currentLength := 0, lastOffset := fun _ => 0,
                                     featIsNull := false, nesting := 0, lastDims := 0, size := fun _ => 0, level := 0 } with
    | .ok _ w => .ok w
    | .err rc _ => .error rc
    | .ub => .error EINVAL

/-- `GeoArrowNativeWriterFinish`, src/geoarrow/native_writer.c:112-142 -/
def nwFinish (junk : Nat → Byte) : M NWriter AArray := do
  let w ← M.get
  (if 0 < w.validity.sizeBytes then nwB (bAppendBuffer junk 0 (w.validity.buf.take w.validity.sizeBytes)) else pure ())
  let a ← nwB bFinish
  nwEnsureInitialized junk
  pure (a.withNullCount w.nullCount)

/-- The rows of a coordinate view passed to a visitor as memory: column `j` is block `j`. -/
def rowsMem (rows : List (List Dbl)) : DMem := fun j t => rows[t]?.bind fun (r : List Dbl) => r[j]?

/-- A coordinate view on `rowsMem`. -/
def rowsView (nv : Nat) : CoordView := { vals := ⟨(0, 0), (1, 0), (2, 0), (3, 0)⟩, stride := 1, nValues := nv }

/-- `private_data->empty_coord`, src/geoarrow/native_writer.c:8-12, 53-61: four NaNs -/
def emptyRow : List Dbl := List.replicate 4 (Dbl.ofBytes (emptyPointCoords.take 8))

/-! ## Validity -/

/-- The end of `feat_end_*` and of `GeoArrowNativeWriterAppendValidity`, src/geoarrow/native_writer.c:261-275, 511-525, 669-684,
824-839, 1003-1018: `length` is the number of features, this one included. A bitmap cannot be filled with a negative number
of bits. -/
def nwMark (junk : Nat → Byte) (isNull : Bool) (length : Int) : M NWriter Unit := do
  let w ← M.get
  if isNull then do
    (if w.validity.buf = [] then
       (if length < 1 then M.undef else nwV fun v => (v.reserve junk length.toNat).appendUnsafe true (length - 1).toNat)
     else pure ())
    M.modify fun w => { w with nullCount := w.nullCount + 1 }
    nwV fun v => v.append junk false 1
  else if w.validity.buf ≠ [] then nwV fun v => v.append junk true 1
  else pure ()

/-- `GeoArrowNativeWriterAppendValidity`, src/geoarrow/native_writer.c:254-276 -/
def nwAppendValidity (junk : Nat → Byte) (isValid : Bool) : M NWriter Unit := do
  M.modify fun w => { w with currentLength := w.currentLength + 1 }
  let w ← M.get
  nwMark junk (!isValid) w.currentLength

/-! ## Appending geometries -/

/-- `GeoArrowNativeWriterAppendSize`, src/geoarrow/native_writer.c:144-165. The sum of an `int32_t` and a `uint32_t` wraps. -/
def nwAppendSize (junk : Nat → Byte) (i n : Nat) : M NWriter Unit :=
  if 2147483647 < n then M.fail EOVERFLOW
  else do
    M.modify fun w => { w with lastOffset := setAt w.lastOffset i (toI32 ((w.lastOffset i % 2 ^ 32).toNat + n)) }
    let w ← M.get
    nwB (bOffsetAppend junk i [w.lastOffset i])

/-- `GeoArrowNativeWriterAppendEmpty`, src/geoarrow/native_writer.c:167-191 -/
def nwAppendEmpty (junk : Nat → Byte) : M NWriter Unit := do
  let w ← M.get
  let g := w.builder.schema.geometryType
  if g = GT.point then nwB (bCoordsAppend junk (rowsMem [emptyRow]) (rowsView 4) w.builder.schema.dimensions.toNat 0 1)
  else if g = GT.linestring ∨ g = GT.polygon ∨ g = GT.multipoint ∨ g = GT.multilinestring ∨ g = GT.multipolygon ∨ g = GT.collection then
    nwAppendSize junk 0 0
  else M.fail EINVAL

/-- The memory of a builder as doubles addressed by bytes. -/
def Builder.omem (b : Builder) : OMem := fun p => if 0 ≤ p.off ∧ p.off % 8 = 0 then b.cells p.blk (p.off / 8).toNat else none

/-- `GeoArrowNativeWriterAppendCoordsUnsafe`, src/geoarrow/native_writer.c:193-209, with the addition to `size_coords` after it (line 428).
The geometry (memory `m`) is not part of the builder. -/
def bAppendViewUnsafe (m : Mem) (v : View) (count : Nat) : M Builder Unit := do
  let b ← M.get
  let out : Quad Ptr := Quad.ofFn fun j => ⟨(b.target j).1, 8 * (((b.target j).2 + b.stride * b.sizeCoords : Nat) : Int)⟩
  let strides : Quad Int := Quad.ofFn fun _ => ((b.stride * 8 : Nat) : Int)
  let o ← orUb (viewCopyCoordsGeneric m v out strides b.schema.dimensions.toNat b.omem)
  M.modify fun b => { b.withCells (fun i t => o ⟨i, 8 * (t : Int)⟩) with sizeCoords := b.sizeCoords + count }

/-- `GeoArrowNativeWriterAppendLinestringOffsets`, src/geoarrow/native_writer.c:211-221. Nodes behind the end are undefined behaviour. -/
def nwLineOffsets (junk : Nat → Byte) (i : Nat) : (n : Nat) → List Node → M NWriter Unit
  | 0, _ => pure ()
  | _ + 1, [] => M.undef
  | n + 1, node :: ns => do
    nwAppendSize junk i node.size
    nwLineOffsets junk i n ns

/-- `GeoArrowNativeWriterAppendPolygonOffsets`, src/geoarrow/native_writer.c:223-236, and the loop of
`GeoArrowNativeWriterAppendMultiPolygonOffsets`, src/geoarrow/native_writer.c:244-249, which is the same with `offset` 1 -/
def nwPolyOffsets (junk : Nat → Byte) (i : Nat) : (n : Nat) → List Node → M NWriter Unit
  | 0, _ => pure ()
  | _ + 1, [] => M.undef
  | n + 1, node :: ns => do
    nwAppendSize junk i node.size
    nwLineOffsets junk (i + 1) node.size ns
    nwPolyOffsets junk i n (ns.drop node.size)

/-- The offsets of a geometry with coordinates, or why it cannot be appended; the `switch` of `GeoArrowNativeWriterAppend`,
src/geoarrow/native_writer.c:304-422 -/
def nwAppendOffsets (junk : Nat → Byte) (g : Int) (nodes : List Node) (count : Nat) : M NWriter Unit :=
  match nodes with
  | [] => M.undef
  | node :: ns =>
    if g = GT.point then (if 1 < count then M.fail EINVAL else pure ())
    else if g = GT.linestring then
      (if node.gt = 2 then nwLineOffsets junk 0 1 nodes
       else if node.gt = 5 then (if 1 < node.size then M.fail EINVAL else nwLineOffsets junk 0 1 ns)
       else M.fail EINVAL)
    else if g = GT.polygon then
      (if node.gt = 3 then nwPolyOffsets junk 0 1 nodes
       else if node.gt = 6 then (if 1 < node.size then M.fail EINVAL else nwPolyOffsets junk 0 1 ns)
       else M.fail EINVAL)
    else if g = GT.multipoint then
      (if node.gt = 1 ∨ node.gt = 4 then nwAppendSize junk 0 count else M.fail EINVAL)
    else if g = GT.multilinestring then
      (if node.gt = 2 then do
         nwAppendSize junk 0 1
         nwLineOffsets junk 1 1 nodes
       else if node.gt = 5 then nwPolyOffsets junk 0 1 nodes
       else M.fail EINVAL)
    else if g = GT.multipolygon then
      (if node.gt = 3 then do
         nwAppendSize junk 0 1
         nwPolyOffsets junk 1 1 nodes
       else if node.gt = 6 then do
         nwAppendSize junk 0 node.size
         nwPolyOffsets junk 1 node.size ns
       else M.fail EINVAL)
    else M.fail EINVAL

/-- `GeoArrowNativeWriterAppend`, src/geoarrow/native_writer.c:284-434 -/
def nwAppend (junk : Nat → Byte) (m : Mem) (v : View) : M NWriter Unit := do
  let w ← M.get
  let count := viewNumCoords v
  if count = 0 then do
    nwAppendEmpty junk
    nwAppendValidity junk true
  else do
    nwAppendOffsets junk w.builder.schema.geometryType v.nodes count
    nwB (bCoordsReserve junk count)
    nwB (bAppendViewUnsafe m v count)
    nwAppendValidity junk true

/-- `GeoArrowNativeWriterAppendNull`, src/geoarrow/native_writer.c:278-282 -/
def nwAppendNull (junk : Nat → Byte) : M NWriter Unit := do
  nwAppendEmpty junk
  nwAppendValidity junk false

/-! ## The visitors -/

/-- `coords_*`, src/geoarrow/native_writer.c:466-474, 590-598, 741-749, 899-907: `size[i]` counts -/
def nwCoords (junk : Nat → Byte) (i nv : Nat) (rows : List (List Dbl)) : M NWriter Unit := do
  M.modify fun w => { w with size := setAt w.size i (w.size i + rows.length) }
  let w ← M.get
  nwB (bCoordsAppend junk (rowsMem rows) (rowsView nv) w.lastDims 0 rows.length)

/-- An offset after the last coordinate, src/geoarrow/native_writer.c:607-612, 631-636, 658-663, 758-763, 779-784, 809-814, 916-921, 937-942, 978-983 -/
def nwCloseCoords (junk : Nat → Byte) (i : Nat) : M NWriter Unit := do
  let w ← M.get
  if 2147483647 < w.builder.sizeCoords then M.fail EOVERFLOW
  else nwB (bOffsetAppend junk i [(w.builder.sizeCoords : Int)])

/-- The number of lists in offset buffer `i`, src/geoarrow/native_writer.c:670-671, 825-826, 1004-1005 -/
def nwCount (i : Nat) : M NWriter Int := nwB do
  let x ← bBuf (i + 1)
  pure ((x.size / 4 : Nat) - 1 : Int)

/-- An offset after the last list of level `i + 1`, src/geoarrow/native_writer.c:819-822, 949-953, 990-993, 998-1001. The conversion to
`int32_t` comes before the subtraction of 1, which matters only where the subtraction overflows -/
def nwCloseLists (junk : Nat → Byte) (i : Nat) : M NWriter Unit := do
  let n ← nwCount (i + 1)
  nwB (bOffsetAppend junk i [(BitVec.ofInt 32 n).toInt])

/-- `feat_start_*`, src/geoarrow/native_writer.c:436-444, 543-553, 702-711, 857-867, resetting `k` sizes -/
def nwFeatStart (k : Nat) : M NWriter Unit := M.modify fun w =>
  { w with level := 0, size := fun i => if i < k then 0 else w.size i, featIsNull := false }

/-- `null_feat_*`, src/geoarrow/native_writer.c:486-492, 642-648, 793-799, 962-968 -/
def nwNullFeat : M NWriter Unit := M.modify fun w => { w with featIsNull := true }

/-- `geom_start_*`: the dimensions, and one level down for the types `down`; src/geoarrow/native_writer.c:446-459, 713-731, 869-889 -/
def nwGeomStart (down : List Nat) (gt dims : Nat) : M NWriter Unit := M.modify fun w =>
  { w with lastDims := dims, level := if gt ∈ down then w.level + 1 else w.level }

/-- `feat_end_point`, src/geoarrow/native_writer.c:494-526 -/
def nwFeatEndPoint (junk : Nat → Byte) : M NWriter Unit := do
  let w ← M.get
  (if w.size 0 = 0 then nwCoords junk 0 w.builder.nValues [emptyRow]
   else if w.size 0 ≠ 1 then M.fail EINVAL
   else pure ())
  let w ← M.get
  nwMark junk w.featIsNull w.builder.sizeCoords

/-- The visitor made by `GeoArrowVisitorInitPoint`, src/geoarrow/native_writer.c:436-541 -/
def nwPoint (junk : Nat → Byte) : Handler NWriter
  | .featStart => nwFeatStart 1
  | .nullFeat => nwNullFeat
  | .geomStart gt dims => nwGeomStart [] gt dims
  | .ringStart => pure ()
  | .coords nv rows => nwCoords junk 0 nv rows
  | .ringEnd => pure ()
  | .geomEnd => pure ()
  | .featEnd => nwFeatEndPoint junk

/-- `geom_start_multipoint`, src/geoarrow/native_writer.c:555-580 -/
def nwGeomStartLine (gt dims : Nat) : M NWriter Unit := M.modify fun w =>
  { w with lastDims := dims, level := if gt = 2 ∨ gt = 4 then w.level + 1 else w.level,
           nesting := if gt = 4 then 1 else if gt = 1 ∧ w.nesting ≠ 0 then w.nesting + 1 else w.nesting }

/-- One more sequence, src/geoarrow/native_writer.c:605-612, 629-637 -/
def nwCloseLine (junk : Nat → Byte) : M NWriter Unit := do
  M.modify fun w => { w with level := w.level - 1, size := setAt w.size 0 (w.size 0 + 1) }
  nwCloseCoords junk 0

/-- `geom_end_multipoint`, src/geoarrow/native_writer.c:617-640 -/
def nwGeomEndLine (junk : Nat → Byte) : M NWriter Unit := do
  let w ← M.get
  if w.nesting = 2 then M.modify fun w => { w with nesting := 1 }
  else if w.level = 1 then nwCloseLine junk
  else pure ()

/-- `feat_end_multipoint`, src/geoarrow/native_writer.c:650-685 -/
def nwFeatEndLine (junk : Nat → Byte) : M NWriter Unit := do
  let w ← M.get
  (if w.size 0 = 0 then nwCloseCoords junk 0
   else if w.size 0 ≠ 1 then M.fail EINVAL
   else pure ())
  let n ← nwCount 0
  let w ← M.get
  nwMark junk w.featIsNull n

/-- The visitor made by `GeoArrowVisitorInitLinestring`, src/geoarrow/native_writer.c:543-700 -/
def nwLine (junk : Nat → Byte) : Handler NWriter
  | .featStart => do
    nwFeatStart 2
    M.modify fun w => { w with nesting := 0 }
  | .nullFeat => nwNullFeat
  | .geomStart gt dims => nwGeomStartLine gt dims
  | .ringStart => M.modify fun w => { w with level := w.level + 1 }
  | .coords nv rows => nwCoords junk 1 nv rows
  | .ringEnd => nwCloseLine junk
  | .geomEnd => nwGeomEndLine junk
  | .featEnd => nwFeatEndLine junk

/-- A ring or linestring ends, if it has coordinates: offset buffer `i`, coordinates counted by `size[i]` and lists by `size[i - 1]`;
src/geoarrow/native_writer.c:757-766, 778-787, 915-924, 936-945 -/
def nwCloseSeq (junk : Nat → Byte) (i : Nat) : M NWriter Unit := do
  let w ← M.get
  if 0 < w.size i then do
    nwCloseCoords junk i
    M.modify fun w => { w with size := setAt (setAt w.size (i - 1) (w.size (i - 1) + 1)) i 0 }
  else pure ()

/-- `level--` -/
def nwUp : M NWriter Unit := M.modify fun w => { w with level := w.level - 1 }

/-- `geom_end_multilinestring`, src/geoarrow/native_writer.c:771-791 -/
def nwGeomEndPoly (junk : Nat → Byte) : M NWriter Unit := do
  let w ← M.get
  if w.level = 1 then do
    nwUp
    nwCloseSeq junk 1
  else pure ()

/-- `feat_end_multilinestring`, src/geoarrow/native_writer.c:801-840 -/
def nwFeatEndPoly (junk : Nat → Byte) : M NWriter Unit := do
  let w ← M.get
  (if 0 < w.size 1 then nwCloseCoords junk 1 else pure ())
  nwCloseLists junk 0
  let n ← nwCount 0
  let w ← M.get
  nwMark junk w.featIsNull n

/-- The visitor made by `GeoArrowVisitorInitMultiLinestring`, src/geoarrow/native_writer.c:702-855 -/
def nwPoly (junk : Nat → Byte) : Handler NWriter
  | .featStart => nwFeatStart 2
  | .nullFeat => nwNullFeat
  | .geomStart gt dims => nwGeomStart [2, 4] gt dims
  | .ringStart => M.modify fun w => { w with level := w.level + 1 }
  | .coords nv rows => nwCoords junk 1 nv rows
  | .ringEnd => do
    nwUp
    nwCloseSeq junk 1
  | .geomEnd => nwGeomEndPoly junk
  | .featEnd => nwFeatEndPoly junk

/-- A polygon ends, if it has rings; src/geoarrow/native_writer.c:948-956 -/
def nwClosePolygon (junk : Nat → Byte) : M NWriter Unit := do
  let w ← M.get
  if 0 < w.size 1 then do
    nwCloseLists junk 1
    M.modify fun w => { w with size := setAt (setAt w.size 0 (w.size 0 + 1)) 1 0 }
  else pure ()

/-- `geom_end_multipolygon`, src/geoarrow/native_writer.c:929-960 -/
def nwGeomEndMulti (junk : Nat → Byte) : M NWriter Unit := do
  let w ← M.get
  if w.level = 2 then do
    nwUp
    nwCloseSeq junk 2
  else if w.level = 1 then do
    nwUp
    nwClosePolygon junk
  else pure ()

/-- `feat_end_multipolygon`, src/geoarrow/native_writer.c:970-1019 -/
def nwFeatEndMulti (junk : Nat → Byte) : M NWriter Unit := do
  let w ← M.get
  (if 0 < w.size 2 then do
     nwCloseCoords junk 2
     M.modify fun w => { w with size := setAt w.size 1 (w.size 1 + 1) }
   else pure ())
  let w ← M.get
  (if 0 < w.size 1 then nwCloseLists junk 1 else pure ())
  nwCloseLists junk 0
  let n ← nwCount 0
  let w ← M.get
  nwMark junk w.featIsNull n

/-- The visitor made by `GeoArrowVisitorInitMultiPolygon`, src/geoarrow/native_writer.c:857-1034 -/
def nwMulti (junk : Nat → Byte) : Handler NWriter
  | .featStart => nwFeatStart 3
  | .nullFeat => nwNullFeat
  | .geomStart gt dims => nwGeomStart [5, 3, 2, 4] gt dims
  | .ringStart => M.modify fun w => { w with level := w.level + 1 }
  | .coords nv rows => nwCoords junk 2 nv rows
  | .ringEnd => do
    nwUp
    nwCloseSeq junk 2
  | .geomEnd => nwGeomEndMulti junk
  | .featEnd => nwFeatEndMulti junk

/-- `GeoArrowNativeWriterInitVisitor`, src/geoarrow/native_writer.c:1036-1062: the callbacks for a geometry type -/
def nwInitVisitor (junk : Nat → Byte) (w : NWriter) : Except Code (Handler NWriter) :=
  let g := w.builder.schema.geometryType
  if g = GT.point then .ok (nwPoint junk)
  else if g = GT.multipoint ∨ g = GT.linestring then .ok (nwLine junk)
  else if g = GT.multilinestring ∨ g = GT.polygon then .ok (nwPoly junk)
  else if g = GT.multipolygon then .ok (nwMulti junk)
  else .error EINVAL

end Verif
