import Verif.Model.Geometry
import Verif.Model.ArrowArray
/-!
# The WKB writer

src/geoarrow/wkb_writer.c
-/
namespace Verif

/-- C array element assignment. -/
def upd {α : Type} (f : Nat → α) (i : Nat) (v : α) : Nat → α := fun j => if j = i then v else f j

/-- `struct WKBWriterPrivate`, src/geoarrow/wkb_writer.c:8-21. The level tables have 32 entries (`levelEntry`); entries not yet written hold whatever the allocator left, which is why `wkbInit` takes an arbitrary
previous content. `values` is the used part of the values buffer; its data pointer is NULL iff nothing was ever
appended (nanoarrow allocates on the first non-empty append and never frees before Finish). `validity` is `none` while
its data pointer is NULL. -/
structure WkbW where
  validity : Option (List Bool)
  offsets : List Int
  values : List Byte
  geometryType : Nat → Nat
  dimensions : Nat → Nat
  sizePos : Nat → Int
  size : Nat → Nat
  level : Int
  length : Nat
  nullCount : Nat
  featIsNull : Bool

/-- `GeoArrowWKBWriterInit`, src/geoarrow/wkb_writer.c:178-196; `raw` is the content of the fresh allocation. -/
def wkbInit (raw : WkbW) : WkbW :=
  { raw with length := 0, level := 0, nullCount := 0, validity := none, offsets := [], values := [] }

/-- Conversion to `int32_t`. -/
def toI32 (n : Nat) : Int := if n % 2 ^ 32 < 2 ^ 31 then (n % 2 ^ 32 : Nat) else (n % 2 ^ 32 : Nat) - 2 ^ 32

/-- `WKBWriterCheckLevel`, src/geoarrow/wkb_writer.c:34-40 -/
def wkbCheckLevel : M WkbW Nat := fun s =>
  if 0 ≤ s.level ∧ s.level ≤ 30 then .ok s.level.toNat s else .err EINVAL s

/-- Access to entry `i` of one of the level tables, which have 32 entries (src/geoarrow/wkb_writer.c:13-16); outside it is
undefined behaviour. -/
def levelEntry {σ : Type} (i : Nat) : M σ Unit := fun s => if i < 32 then .ok () s else .ub

/-- `ArrowBufferAppend(&values, ...)` -/
def wkbAppend (bs : List Byte) : M WkbW Unit := M.modify fun s => { s with values := s.values ++ bs }

/-- `geometry_type + ((dimensions - 1) * 1000)` as a `uint32_t`. -/
def wkbTypeCode (gt dims : Nat) : Nat := u32 (gt + dims * 1000 + 2 ^ 32 - 1000)

/-- `feat_start_wkb`, src/geoarrow/wkb_writer.c:42-53 -/
def wkbFeatStart : M WkbW Unit := fun s =>
  let s := { s with level := 0, size := upd s.size 0 0, length := s.length + 1, featIsNull := false }
  if s.values.length > 2147483647 then .err EOVERFLOW s
  else .ok () { s with offsets := s.offsets ++ [(s.values.length : Int)] }

/-- `null_feat_wkb`, src/geoarrow/wkb_writer.c:55-59 -/
def wkbNullFeat : M WkbW Unit := M.modify fun s => { s with featIsNull := true }

/-- `geom_start_wkb`, src/geoarrow/wkb_writer.c:61-82 -/
def wkbGeomStart (gt dims : Nat) : M WkbW Unit := do
  let l ← wkbCheckLevel
  levelEntry (l + 1)
  M.modify fun s => { s with
    size := upd (upd s.size l (u32 (s.size l + 1))) (l + 1) 0
    level := s.level + 1
    geometryType := upd s.geometryType (l + 1) gt
    dimensions := upd s.dimensions (l + 1) dims }
  wkbAppend [1]
  wkbAppend (leBytes 4 (wkbTypeCode gt dims))
  if gt ≠ 1 then do
    M.modify fun s => { s with sizePos := upd s.sizePos (l + 1) s.values.length }
    wkbAppend (leBytes 4 0)
  else pure ()

/-- `ring_start_wkb`, src/geoarrow/wkb_writer.c:84-93 -/
def wkbRingStart : M WkbW Unit := do
  let l ← wkbCheckLevel
  levelEntry (l + 1)
  M.modify fun s => { s with
    size := upd (upd s.size l (u32 (s.size l + 1))) (l + 1) 0
    level := s.level + 1
    geometryType := upd s.geometryType (l + 1) 0
    sizePos := upd s.sizePos (l + 1) s.values.length }
  wkbAppend (leBytes 4 0)

/-- `coords_wkb`, src/geoarrow/wkb_writer.c:95-113 -/
def wkbCoordsCb (cs : List (List Dbl)) : M WkbW Unit := do
  let l ← wkbCheckLevel
  levelEntry l
  M.modify fun s => { s with size := upd s.size l (u32 (s.size l + cs.length)) }
  wkbAppend (cs.flatMap fun c => c.flatMap Dbl.bytes)

/-- `memcpy(values.data + size_pos[level], size + level, 4)`, src/geoarrow/wkb_writer.c:121-122, 134-135. Outside the
bytes written so far it is undefined behaviour. -/
def wkbPatch (l : Nat) : M WkbW Unit := fun s =>
  if s.sizePos l < 0 then .ub
  else match bufWrite s.values (s.sizePos l).toNat (leBytes 4 (s.size l)) with
    | none => .ub
    | some v => .ok () { s with values := v }

/-- `ring_end_wkb`, src/geoarrow/wkb_writer.c:115-125 -/
def wkbRingEnd : M WkbW Unit := do
  let l ← wkbCheckLevel
  levelEntry l
  let s ← M.get
  if s.values = [] then M.fail EINVAL
  else do
    wkbPatch l
    M.modify fun s => { s with level := s.level - 1 }

/-- `geom_end_wkb`, src/geoarrow/wkb_writer.c:127-159 -/
def wkbGeomEnd : M WkbW Unit := do
  let l ← wkbCheckLevel
  levelEntry l
  let s ← M.get
  if s.values = [] then M.fail EINVAL
  else if s.geometryType l ≠ 1 then do
    wkbPatch l
    M.modify fun s => { s with level := s.level - 1 }
  else if s.size l = 0 then
    match nvals (s.dimensions l) with
    | none => M.fail EINVAL
    | some n => do
      wkbAppend (emptyPointCoords.take (8 * n))
      M.modify fun s => { s with level := s.level - 1 }
  else M.modify fun s => { s with level := s.level - 1 }

/-- `feat_end_wkb`, src/geoarrow/wkb_writer.c:161-176 -/
def wkbFeatEnd : M WkbW Unit := fun s =>
  if s.featIsNull then
    match bitsAppendNull s.validity s.length with
    | none => .ub
    | some l => .ok () { s with validity := some l, nullCount := s.nullCount + 1 }
  else .ok () { s with validity := bitsAppendValid s.validity }

/-- `GeoArrowWKBWriterInitVisitor`, src/geoarrow/wkb_writer.c:198-212 -/
def wkbHandler : Handler WkbW
  | .featStart => wkbFeatStart
  | .nullFeat => wkbNullFeat
  | .geomStart gt dims => wkbGeomStart gt dims
  | .ringStart => wkbRingStart
  | .coords _ cs => wkbCoordsCb cs
  | .ringEnd => wkbRingEnd
  | .geomEnd => wkbGeomEnd
  | .featEnd => wkbFeatEnd

/-- `GeoArrowWKBWriterFinish`, src/geoarrow/wkb_writer.c:214-236. Moving a buffer out leaves it empty. -/
def wkbFinish : M WkbW BinArray := fun s =>
  if s.values.length > 2147483647 then .err EOVERFLOW s
  else
    let a : BinArray :=
      { length := s.length, nullCount := s.nullCount, validity := s.validity,
        offsets := s.offsets ++ [(s.values.length : Int)], data := s.values }
    let s' := { s with validity := none, offsets := [], values := [], length := 0, nullCount := 0 }
    match finishBuilding a with
    | none => .ub
    | some (.error rc) => .err rc s'
    | some (.ok ()) => .ok a s'

/-- `GeoArrowWKBWriterAppendValidity`, src/geoarrow/wkb_writer.c:247-267 -/
def wkbAppendValidity (valid : Bool) : M WkbW Unit := fun s =>
  let s := { s with length := s.length + 1 }
  if valid then .ok () { s with validity := bitsAppendValid s.validity }
  else match bitsAppendNull s.validity s.length with
    | none => .ub
    | some l => .ok () { s with validity := some l, nullCount := s.nullCount + 1 }

/-- `GeoArrowWKBWriterAppendNull`, src/geoarrow/wkb_writer.c:269-275 -/
def wkbAppendNull : M WkbW Unit := do
  M.modify fun s => { s with offsets := s.offsets ++ [toI32 s.values.length] }
  wkbAppendValidity false

/-- `GeoArrowWKBWriterAppendSequence`, src/geoarrow/wkb_writer.c:277-292, on the used bytes of the buffer, with `room`
bytes of spare capacity (contents irrelevant, shown as zeros). First attempt, then reserve and retry once; a second
retry would need the same number of bytes to not fit after reserving it. -/
def wkbAppendSequence (m : Mem) (node : Node) (room : Nat) (values : List Byte) : Option (List Byte) :=
  match nodeWriteSequence m node (List.replicate room 0) with
  | none => none
  | some (required, dst) =>
    if required ≤ room then some (values ++ dst.take required)
    else
      match nodeWriteSequence m node (List.replicate required 0) with
      | none => none
      | some (required', dst') => some (values ++ dst'.take required')

/-- One node of `GeoArrowWKBWriterAppendBuffer`, src/geoarrow/wkb_writer.c:300-348; `rings` is `remaining_rings`.
`room` is the spare capacity found at this point (any number). -/
def wkbAppendNode (m : Mem) (room : Nat) (node : Node) (rings : Nat) (values : List Byte) :
    Option (Except Code (Nat × List Byte)) :=
  let header := values ++ [1] ++ leBytes 4 (wkbTypeCode node.gt node.dims)
  if 0 < rings then
    (wkbAppendSequence m node room (values ++ leBytes 4 node.size)).map fun v => .ok (rings - 1, v)
  else if node.gt = 1 then
    if node.size = 0 then
      match nvals node.dims with
      | none => none
      | some n => some (.ok (0, header ++ emptyPointCoords.take (8 * n)))
    else (wkbAppendSequence m node room header).map fun v => .ok (0, v)
  else if node.gt = 2 then
    (wkbAppendSequence m node room (header ++ leBytes 4 node.size)).map fun v => .ok (0, v)
  else if node.gt = 3 then some (.ok (node.size, header ++ leBytes 4 node.size))
  else if 4 ≤ node.gt ∧ node.gt ≤ 7 then some (.ok (0, header ++ leBytes 4 node.size))
  else some (.error EINVAL)

/-- The loop of `GeoArrowWKBWriterAppendBuffer`, src/geoarrow/wkb_writer.c:294-352. `room` gives the spare capacity at
each step. -/
def wkbAppendNodes (m : Mem) (room : Nat → Nat) : List Node → (rings : Nat) → M WkbW Unit
  | [], _ => pure ()
  | node :: ns, rings => fun s =>
    match wkbAppendNode m (room ns.length) node rings s.values with
    | none => .ub
    | some (.error rc) => .err rc s
    | some (.ok (rings', v)) => wkbAppendNodes m room ns rings' { s with values := v }

/-- `GeoArrowWKBWriterAppend`, src/geoarrow/wkb_writer.c:354-362 -/
def wkbAppendView (m : Mem) (room : Nat → Nat) (v : View) : M WkbW Unit := do
  M.modify fun s => { s with offsets := s.offsets ++ [toI32 s.values.length] }
  wkbAppendNodes m room v.nodes 0
  wkbAppendValidity true

end Verif
