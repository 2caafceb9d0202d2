import Verif.Model.Schema
import Verif.Model.Geometry
import Verif.Model.Bitmap
/-!
# Arrow arrays and `array_view.c`

Arrays are trees of buffers. A buffer is the memory it addresses (`none` is `NULL`); loads outside of it are undefined
behaviour. Simplifications: `int64_t` arithmetic does not overflow, child pointers are valid, error messages are left out.
-/
namespace Verif

/-- `struct ArrowArray` of the Arrow C data interface; `n_buffers` and `n_children` are the lengths of the lists. -/
inductive AArray where
  | mk (length nullCount offset : Int) (buffers : List (Option (List Byte))) (children : List AArray)
  deriving Repr

namespace AArray
def length : AArray → Int
  | .mk l _ _ _ _ => l
def nullCount : AArray → Int
  | .mk _ n _ _ _ => n
def offset : AArray → Int
  | .mk _ _ o _ _ => o
def buffers : AArray → List (Option (List Byte))
  | .mk _ _ _ b _ => b
def children : AArray → List AArray
  | .mk _ _ _ _ c => c
end AArray

/-- `((const int32_t*)b)[i]` -/
def i32At (b : List Byte) (i : Int) : Option Int :=
  if 0 ≤ i ∧ 4 * i + 4 ≤ b.length then some (BitVec.ofNat 32 (leVal ((b.drop (4 * i).toNat).take 4))).toInt else none

/-- `((const double*)b)[i]` -/
def f64At (b : List Byte) (i : Int) : Option Dbl :=
  if 0 ≤ i ∧ 8 * i + 8 ≤ b.length then some (Dbl.ofBytes ((b.drop (8 * i).toNat).take 8)) else none

/-- A load; undefined behaviour outside of the memory. -/
def orUb {σ α : Type} : Option α → M σ α
  | some a => pure a
  | none => M.undef

/-- `a[i] = x` for C arrays represented by functions. -/
def setAt {α : Type} (f : Nat → α) (i : Nat) (x : α) : Nat → α := fun j => if j = i then x else f j

/-- `struct GeoArrowArrayView`, src/geoarrow/geoarrow_type.h:717-747, with the members of `coords` (`struct GeoArrowCoordView`).
A pointer to doubles is a buffer and the index of the element it points at. -/
structure AView where
  schema : SView
  length : Nat → Int
  offset : Nat → Int
  validity : Option (List Byte)
  nOffsets : Nat
  offsets : Nat → Option (List Byte)
  first : Nat → Int
  last : Nat → Int
  data : Option (List Byte)
  nCoords : Int
  nValues : Int
  stride : Int
  values : Nat → Option (List Byte) × Int

/-- `memset(array_view, 0, sizeof(struct GeoArrowArrayView))` -/
def AView.zero (s : SView) : AView :=
  { schema := s, length := fun _ => 0, offset := fun _ => 0, validity := none, nOffsets := 0, offsets := fun _ => none,
    first := fun _ => 0, last := fun _ => 0, data := none, nCoords := 0, nValues := 0, stride := 0,
    values := fun _ => (none, 0) }

/-- The number of levels of lists, src/geoarrow/array_view.c:11-31 -/
def avNumOffsets (g : Int) : Nat :=
  if g = GT.box ∨ g = GT.point then 0
  else if g = GT.linestring ∨ g = GT.multipoint then 1
  else if g = GT.polygon ∨ g = GT.multilinestring then 2
  else if g = GT.multipolygon then 3
  else 1

/-- The number of values of a coordinate, src/geoarrow/array_view.c:44-64 -/
def avNumValues (g dims : Int) : Int :=
  let n := if dims = 1 then 2 else if dims = 2 ∨ dims = 3 then 3 else if dims = 4 then 4 else 0
  if g = GT.box then n * 2 else n

/-- The distance between coordinates, src/geoarrow/array_view.c:66-77 -/
def avStride (coordType nValues : Int) : Int :=
  if coordType = 1 then 1 else if coordType = 2 then nValues else 0

/-- `GeoArrowArrayViewInitInternal`, src/geoarrow/array_view.c:10-80, after the `memset` of its callers. -/
def arrayViewInit (s : SView) : AView :=
  let n := avNumValues s.geometryType s.dimensions
  { AView.zero s with nOffsets := avNumOffsets s.geometryType, nValues := n, stride := avStride s.coordType n }

/-- `GeoArrowArrayViewInitFromType`, src/geoarrow/array_view.c:82-87 -/
def arrayViewInitFromType (type : TypeId) : Res SView AView :=
  (schemaViewInitFromType type >>= fun _ s => .ok (arrayViewInit s) s)
    { extName := none, extMetadata := none, type := 0, geometryType := 0, dimensions := 0, coordType := 0 }

/-- `GeoArrowArrayViewInitFromSchema`, src/geoarrow/array_view.c:89-96 -/
def arrayViewInitFromSchema (schema : ASchema) : Res SView AView :=
  (schemaViewInit schema >>= fun _ s => .ok (arrayViewInit s) s)
    { extName := none, extMetadata := none, type := 0, geometryType := 0, dimensions := 0, coordType := 0 }

/-! ## Setting an array -/

/-- `buffers[1]` if `n_buffers == 2` -/
def twoBuffers : List (Option (List Byte)) → Option (Option (List Byte))
  | [_, b] => some b
  | _ => none

/-- `children[0]` if `n_children == 1` -/
def oneChild : List AArray → Option AArray
  | [c] => some c
  | _ => none

/-- The loops that point `values[i]` into the children of a struct, src/geoarrow/array_view.c:127-139, 231-242: `i`
values are set already. -/
def avSetValues : List AArray → (i : Nat) → M AView Unit
  | [], _ => pure ()
  | c :: cs, i =>
    match twoBuffers c.buffers with
    | some b => do
      M.modify fun v => { v with values := setAt v.values i (b, c.offset) }
      avSetValues cs (i + 1)
    | none => M.fail EINVAL

/-- A struct of coordinates, src/geoarrow/array_view.c:116-141 and 223-242 -/
def avSetStruct (a : AArray) : M AView Unit := do
  let v ← M.get
  if (a.children.length : Int) ≠ v.nValues then M.fail EINVAL
  else avSetValues a.children 0

/-- A fixed-size list of coordinates, src/geoarrow/array_view.c:143-168 -/
def avSetInterleaved (a : AArray) : M AView Unit :=
  match oneChild a.children with
  | some c =>
    match twoBuffers c.buffers with
    | some b => M.modify fun v => { v with values := fun j =>
        if (j : Int) < v.nValues then (b, c.offset + j) else v.values j }
    | none => M.fail EINVAL
  | none => M.fail EINVAL

/-- The coordinate array at a level, src/geoarrow/array_view.c:105-177 -/
def avSetCoords (a : AArray) (level : Nat) : M AView Unit := do
  M.modify fun v => { v with nCoords := if 0 < level then v.last (level - 1) - v.first (level - 1) else a.length }
  let v ← M.get
  if v.schema.coordType = 1 then avSetStruct a
  else if v.schema.coordType = 2 then avSetInterleaved a
  else M.fail EINVAL

/-- `static int32_t kZeroInt32 = 0`, src/geoarrow/array_view.c:8 -/
def kZero : List Byte := [0, 0, 0, 0]

/-- The offsets of a list array, src/geoarrow/array_view.c:193-203; the buffer `b` is `array->buffers[1]`. -/
def avSetOffsets (a : AArray) (b : Option (List Byte)) (level : Nat) : M AView Unit :=
  if 0 < a.length then do
    let buf ← orUb b
    let lo ← orUb (i32At buf a.offset)
    let hi ← orUb (i32At buf (a.offset + a.length))
    M.modify fun v => { v with offsets := setAt v.offsets level (some buf), first := setAt v.first level lo,
                               last := setAt v.last level hi }
  else M.modify fun v => { v with offsets := setAt v.offsets level (some kZero), first := setAt v.first level 0,
                                  last := setAt v.last level 0 }

/-- `GeoArrowArrayViewSetArrayInternal`, src/geoarrow/array_view.c:98-204; `k` levels of lists are left. -/
def avSetInternal : (k level : Nat) → AArray → M AView Unit
  | 0, level, a => do
    M.modify fun v => { v with offset := setAt v.offset level a.offset, length := setAt v.length level a.length }
    avSetCoords a level
  | k + 1, level, a => do
    M.modify fun v => { v with offset := setAt v.offset level a.offset, length := setAt v.length level a.length }
    match twoBuffers a.buffers with
    | some b =>
      match oneChild a.children with
      | some c => do
        avSetOffsets a b level
        avSetInternal k (level + 1) c
      | none => M.fail EINVAL
    | none => M.fail EINVAL

/-- `GeoArrowArrayViewSetArraySerialized`, src/geoarrow/array_view.c:206-214; `n_buffers` is not checked. -/
def avSetSerialized (a : AArray) : M AView Unit := do
  M.modify fun v => { v with length := setAt v.length 0 a.length, offset := setAt v.offset 0 a.offset }
  let o ← orUb a.buffers[1]?
  let d ← orUb a.buffers[2]?
  M.modify fun v => { v with offsets := setAt v.offsets 0 o, data := d }

/-- `GeoArrowArrayViewSetArrayBox`, src/geoarrow/array_view.c:216-245 -/
def avSetBox (a : AArray) : M AView Unit := do
  M.modify fun v => { v with length := setAt v.length 0 a.length, offset := setAt v.offset 0 a.offset, nCoords := a.length }
  avSetStruct a

/-- `GeoArrowArrayViewSetArray`, src/geoarrow/array_view.c:247-269 -/
def arrayViewSetArray (a : AArray) : M AView Unit := do
  let v ← M.get
  (if v.schema.type = 100003 ∨ v.schema.type = 100001 then avSetSerialized a
   else if v.schema.type = 990 ∨ v.schema.type = 1990 ∨ v.schema.type = 2990 ∨ v.schema.type = 3990 then avSetBox a
   else avSetInternal v.nOffsets 0 a)
  let b ← orUb a.buffers[0]?
  M.modify fun v => { v with validity := b }

/-! ## Visiting -/

/-- `!validity_bitmap || ArrowBitGet(validity_bitmap, i)` -/
def avValid (v : AView) (i : Int) : Option Bool :=
  match v.validity with
  | none => some true
  | some b => if 0 ≤ i then bitGet b i.toNat else none

/-- `GEOARROW_COORD_VIEW_VALUE(&coords, row, j)`, src/geoarrow/geoarrow_type.h:709-710 -/
def avValue (v : AView) (row : Int) (j : Nat) : Option Dbl :=
  match (v.values j).1 with
  | none => none
  | some b => f64At b ((v.values j).2 + row * v.stride)

/-- All values of one coordinate. -/
def avRow (v : AView) (row : Int) : Option (List Dbl) := (List.range v.nValues.toNat).mapM (avValue v row)

/-- What a callback sees through the view set up by `GeoArrowCoordViewUpdate(.., start, n)`,
src/geoarrow/array_view.c:271-278. Simplification: every value is loaded, whether or not the visitor looks at it. -/
def avRows (v : AView) : (n : Nat) → (start : Int) → Option (List (List Dbl))
  | 0, _ => some []
  | n + 1, start => do
    let c ← avRow v start
    let cs ← avRows v n (start + 1)
    some (c :: cs)

/-- Start and size of list element `i` of a level; the start includes the offset of the next level.
src/geoarrow/array_view.c:322-325 and the like -/
def avRange (v : AView) (level : Nat) (i : Int) : Option (Int × Int) := do
  let b ← v.offsets level
  let lo ← i32At b i
  let hi ← i32At b (i + 1)
  some (lo + v.offset (level + 1), hi - lo)

section
variable {σ : Type} (v : AView) (h : Handler σ)

/-- `v->coords(v, &coords)` for coordinates `start`, `start + 1`, ... -/
def avCoords (start n : Int) : M σ Unit := do
  let cs ← orUb (avRows v n.toNat start)
  h (.coords v.nValues.toNat cs)

/-- `v->geom_start(v, gt, array_view->schema_view.dimensions)` -/
def avGeomStart (gt : Nat) : M σ Unit := h (.geomStart gt v.schema.dimensions.toNat)

/-- `for (j = 0; j < n; j++)` with `k` iterations left; `i` is the index of the part. -/
def avLoop (f : Int → M σ Unit) : (k : Nat) → (i : Int) → M σ Unit
  | 0, _ => pure ()
  | k + 1, i => do
    f i
    avLoop f k (i + 1)

/-- One list element handed over as coordinates, src/geoarrow/array_view.c:322-327, 361-365, 438-442, 490-494 -/
def avSequence (level : Nat) (i : Int) : M σ Unit := do
  let r ← orUb (avRange v level i)
  avCoords v h r.1 r.2

/-- One ring, src/geoarrow/array_view.c:360-366, 489-495 -/
def avRing (level : Nat) (i : Int) : M σ Unit := do
  h .ringStart
  avSequence v h level i
  h .ringEnd

/-- A list element whose parts are visited one by one, src/geoarrow/array_view.c:354-367 and the like -/
def avParts (level : Nat) (f : Int → M σ Unit) (i : Int) : M σ Unit := do
  let r ← orUb (avRange v level i)
  avLoop f r.2.toNat r.1

/-- src/geoarrow/array_view.c:289-294 -/
def avPoint (i : Int) : M σ Unit := do
  avGeomStart v h 1
  avCoords v h i 1
  h .geomEnd

/-- src/geoarrow/array_view.c:320-328 and 436-443 -/
def avLinestring (level : Nat) (i : Int) : M σ Unit := do
  avGeomStart v h 2
  avSequence v h level i
  h .geomEnd

/-- src/geoarrow/array_view.c:352-369 and 481-498 -/
def avPolygon (level : Nat) (i : Int) : M σ Unit := do
  avGeomStart v h 3
  avParts v level (avRing v h (level + 1)) i
  h .geomEnd

/-- src/geoarrow/array_view.c:391-404 -/
def avMultipoint (i : Int) : M σ Unit := do
  avGeomStart v h 4
  avParts v 0 (avPoint v h) i
  h .geomEnd

/-- src/geoarrow/array_view.c:428-446 -/
def avMultilinestring (i : Int) : M σ Unit := do
  avGeomStart v h 5
  avParts v 0 (avLinestring v h 1) i
  h .geomEnd

/-- src/geoarrow/array_view.c:472-501 -/
def avMultipolygon (i : Int) : M σ Unit := do
  avGeomStart v h 6
  avParts v 0 (avPolygon v h 1) i
  h .geomEnd

/-- The loop over features shared by the seven functions, src/geoarrow/array_view.c:285-304 and the like: `i` is
`array_view->offset[0] + offset + i`. -/
def avFeature (body : Int → M σ Unit) (i : Int) : M σ Unit := do
  h .featStart
  let valid ← orUb (avValid v i)
  (if valid then body i else h .nullFeat)
  h .featEnd

/-- `a > b` for doubles: false if one is NaN; otherwise by sign and magnitude. -/
def Dbl.gt (a b : Dbl) : Bool :=
  let mag : Dbl → Nat := fun x => x.toNat % 2 ^ 63
  let key : Dbl → Int := fun x => if x.toNat < 2 ^ 63 then (mag x : Int) else -(mag x : Int)
  decide (mag a ≤ 0x7ff0000000000000) && decide (mag b ≤ 0x7ff0000000000000) && decide (key b < key a)

/-- The number of dimensions in which the minimum exceeds the maximum is not zero; `k` dimensions left, `j` is next.
src/geoarrow/array_view.c:545-551 -/
def avBoxEmpty (row : Int) (n : Nat) : (k j : Nat) → Option Bool
  | 0, _ => some false
  | k + 1, j => do
    let lo ← avValue v row j
    let hi ← avValue v row (n + j)
    let rest ← avBoxEmpty row n k (j + 1)
    some (lo.gt hi || rest)

/-- The vertices of a box, src/geoarrow/array_view.c:536-537, 560-565 -/
def avBoxRing (row : Int) (n : Nat) : Option (List (List Dbl)) :=
  [(0, 1), (n, 1), (n, n + 1), (0, n + 1), (0, 1)].mapM fun p => do
    let x ← avValue v row p.1
    let y ← avValue v row p.2
    some [x, y]

/-- One box, src/geoarrow/array_view.c:544-573, with `n_dim` dimensions (two) -/
def avBox (i : Int) : M σ Unit := do
  let n := v.nValues.toNat / 2
  let empty ← orUb (avBoxEmpty v i n n 0)
  avGeomStart v h 3
  if empty then h .geomEnd
  else do
    let cs ← orUb (avBoxRing v i n)
    h .ringStart
    h (.coords n cs)
    h .ringEnd
    h .geomEnd

/-- The seven loops, src/geoarrow/array_view.c:280-582 -/
def avFeatures (body : Int → M σ Unit) (offset length : Int) : M σ Unit :=
  avLoop (avFeature v h body) length.toNat (v.offset 0 + offset)

/-- `GeoArrowArrayViewVisitNative`, src/geoarrow/array_view.c:584-605 -/
def visitNative (offset length : Int) : M σ Unit :=
  let g := v.schema.geometryType
  if g = GT.box then (if v.schema.dimensions ≠ 1 then M.fail ENOTSUP else avFeatures v h (avBox v h) offset length)
  else if g = GT.point then avFeatures v h (avPoint v h) offset length
  else if g = GT.linestring then avFeatures v h (avLinestring v h 0) offset length
  else if g = GT.polygon then avFeatures v h (avPolygon v h 0) offset length
  else if g = GT.multipoint then avFeatures v h (avMultipoint v h) offset length
  else if g = GT.multilinestring then avFeatures v h (avMultilinestring v h) offset length
  else if g = GT.multipolygon then avFeatures v h (avMultipolygon v h) offset length
  else M.fail ENOTSUP
end

end Verif
