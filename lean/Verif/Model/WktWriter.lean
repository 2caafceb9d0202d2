import Verif.Model.WkbWriter
import Verif.Model.Bitmap
/-!
# The WKT writer

src/geoarrow/wkt_writer.c
-/
namespace Verif

/-- `struct WKTWriterPrivate`, src/geoarrow/wkt_writer.c:8-23. The level tables have 32 entries (`levelEntry`); entries not
yet written hold whatever the allocator left. `values` is the used part of the values buffer and `cap` its capacity;
`validity` is `none` while its data pointer is NULL. Counters are unbounded here: `level` could leave the range of an
`int32_t` only after 2^31 rejected callbacks within one feature. -/
structure WktW where
  validity : Option (List Bool)
  offsets : List Int
  values : List Byte
  cap : Nat
  geometryType : Nat → Nat
  i : Nat → Nat
  level : Int
  length : Nat
  nullCount : Nat
  featStart : Int
  precision : Nat
  flat : Bool
  maxSize : Int
  featIsNull : Bool

/-- `GeoArrowWKTWriterInit`, src/geoarrow/wkt_writer.c:273-296; `raw` is the content of the fresh allocation. -/
def wktInit (raw : WktW) : WktW :=
  { raw with length := 0, level := 0, nullCount := 0, validity := none, offsets := [], values := [], cap := 0,
             precision := 16, flat := true, maxSize := -1 }

/-- `GeoArrowWKTWriterInitVisitor`, src/geoarrow/wkt_writer.c:298-323, with the public options of the writer. The
callbacks it installs are `wktHandler`. -/
def wktInitVisitor (precision : Int) (flat : Bool) (maxSize : Int) (s : WktW) : WktW :=
  { s with precision := if precision < 0 ∨ 16 < precision then 16 else precision.toNat, flat := flat, maxSize := maxSize }

/-- `WKTWriterCheckLevel`, src/geoarrow/wkt_writer.c:26-32 -/
def wktCheckLevel : M WktW Nat := fun s =>
  if 0 ≤ s.level ∧ s.level ≤ 31 then .ok s.level.toNat s else .err EINVAL s

/-- `ArrowBufferReserve(&values, n)`, src/vendor/nanoarrow/nanoarrow.h:2554-2574 -/
def wktReserve (n : Nat) : M WktW Unit := fun s =>
  if s.values.length + n ≤ s.cap then .ok () s
  else .ok () { s with cap := growByFactor s.cap (s.values.length + n) }

/-- `ArrowBufferAppendUnsafe(&values, ...)`, src/vendor/nanoarrow/nanoarrow.h:2576-2583; undefined behaviour beyond the
capacity. -/
def wktUnsafe (bs : List Byte) : M WktW Unit := fun s =>
  if s.values.length + bs.length ≤ s.cap then .ok () { s with values := s.values ++ bs } else .ub

/-- `WKTWriterWrite`, src/geoarrow/wkt_writer.c:34-36, through `ArrowBufferAppend` (nanoarrow.h:2585-2591). -/
def wktWrite (bs : List Byte) : M WktW Unit := do
  wktReserve bs.length
  wktUnsafe bs

/-- `WKTWriterWriteDoubleUnsafe`, src/geoarrow/wkt_writer.c:38-47. `print precision x` is the text `GeoArrowPrintDouble`
produces (a parameter of the model); the function may touch 40 bytes. -/
def wktDouble (print : Nat → Dbl → List Byte) (x : Dbl) : M WktW Unit := fun s =>
  if s.values.length + 40 ≤ s.cap then .ok () { s with values := s.values ++ print s.precision x } else .ub

/-- `feat_start_wkt`, src/geoarrow/wkt_writer.c:48-59 -/
def wktFeatStart : M WktW Unit := fun s =>
  let s := { s with level := -1, length := s.length + 1, featIsNull := false, featStart := s.values.length }
  if s.values.length > 2147483647 then .err EOVERFLOW s
  else .ok () { s with offsets := s.offsets ++ [(s.values.length : Int)] }

/-- `null_feat_wkt`, src/geoarrow/wkt_writer.c:61-65 -/
def wktNullFeat : M WktW Unit := M.modify fun s => { s with featIsNull := true }

/-- `GeoArrowGeometryTypeString` for types 1 to 7, src/geoarrow/geoarrow_type_inline.h:254-278 -/
def wktTypeName : Nat → List Byte
  | 1 => str "POINT"
  | 2 => str "LINESTRING"
  | 3 => str "POLYGON"
  | 4 => str "MULTIPOINT"
  | 5 => str "MULTILINESTRING"
  | 6 => str "MULTIPOLYGON"
  | 7 => str "GEOMETRYCOLLECTION"
  | _ => str "<not valid>"

/-- The dimensions in a tag, src/geoarrow/wkt_writer.c:91-106 -/
def wktDims (dims : Nat) : M WktW Unit :=
  if dims = 1 then pure ()
  else if dims = 2 then wktWrite (str " Z")
  else if dims = 3 then wktWrite (str " M")
  else if dims = 4 then wktWrite (str " ZM")
  else M.fail EINVAL

/-- The tag of a geometry, src/geoarrow/wkt_writer.c:80-108 -/
def wktTag (gt dims : Nat) : M WktW Unit :=
  if gt < 1 ∨ 7 < gt then M.fail EINVAL
  else do
    wktWrite (wktTypeName gt)
    wktDims dims
    wktWrite (str " ")

/-- Number of things already written at the enclosing level, `none` at the outermost level;
`level > 0 && i[level - 1]`, src/geoarrow/wkt_writer.c:74-78, 125-129. -/
def wktOuter (l : Nat) : M WktW (Option Nat) := fun s =>
  if 0 < l then (do levelEntry (l - 1); pure (some (s.i (l - 1)))) s else .ok none s

/-- `", "` after other members, `"("` before the first one, and `z` at the outermost level,
src/geoarrow/wkt_writer.c:74-78, 125-129 -/
def wktBefore (l : Nat) (z : M WktW Unit) : M WktW Unit := do
  let n ← wktOuter l
  match n with
  | none => z
  | some n => if 0 < n then wktWrite (str ", ") else wktWrite (str "(")

/-- Common end of `geom_start_wkt` and `ring_start_wkt`, src/geoarrow/wkt_writer.c:110-116, 131-136 -/
def wktOpen (l gt : Nat) : M WktW Unit := do
  levelEntry l
  M.modify fun s => { s with i := if 0 < l then upd s.i (l - 1) (s.i (l - 1) + 1) else s.i }
  M.modify fun s => { s with geometryType := upd s.geometryType l gt, i := upd s.i l 0 }

/-- `geom_start_wkt`, src/geoarrow/wkt_writer.c:67-118 -/
def wktGeomStart (gt dims : Nat) : M WktW Unit := do
  M.modify fun s => { s with level := s.level + 1 }
  let l ← wktCheckLevel
  wktBefore l (pure ())
  let s ← M.get
  (if l = 0 ∨ s.geometryType (l - 1) = 7 then wktTag gt dims else pure ())
  wktOpen l gt

/-- `ring_start_wkt`, src/geoarrow/wkt_writer.c:120-138 -/
def wktRingStart : M WktW Unit := do
  M.modify fun s => { s with level := s.level + 1 }
  let l ← wktCheckLevel
  wktBefore l (wktWrite (str "("))
  wktOpen l 0

/-- `level < 1 || !use_flat_multipoint || geometry_type[level - 1] != MULTIPOINT`, src/geoarrow/wkt_writer.c:178-180,
237-239 -/
def wktParens (l : Nat) (s : WktW) : Bool := l < 1 || !s.flat || s.geometryType (l - 1) != 4

/-- The loop over ordinates 1 .. n_dims-1, src/geoarrow/wkt_writer.c:191-194, 209-212 -/
def wktOrdinates (print : Nat → Dbl → List Byte) : List Dbl → M WktW Unit
  | [] => pure ()
  | x :: xs => do
    wktUnsafe (str " ")
    wktDouble print x
    wktOrdinates print xs

/-- One coordinate, src/geoarrow/wkt_writer.c:190-194, 208-212. Reading ordinate 0 of a coordinate that has none is
undefined behaviour. -/
def wktCoord (print : Nat → Dbl → List Byte) : List Dbl → M WktW Unit
  | [] => M.undef
  | x :: xs => do
    wktDouble print x
    wktOrdinates print xs

/-- `max_element_size_bytes >= 0 && size_bytes - values_feat_start >= max_element_size_bytes`,
src/geoarrow/wkt_writer.c:199-201 -/
def WktW.limitReached (s : WktW) : Bool := decide (0 ≤ s.maxSize ∧ s.maxSize ≤ (s.values.length : Int) - s.featStart)

/-- The loop over the remaining coordinates, src/geoarrow/wkt_writer.c:197-213 -/
def wktMore (print : Nat → Dbl → List Byte) (reserve : Nat) : List (List Dbl) → M WktW Unit
  | [] => pure ()
  | c :: cs => fun s =>
    if s.limitReached then .err EAGAIN s
    else (do
      wktReserve reserve
      wktUnsafe (str ", ")
      wktCoord print c
      wktMore print reserve cs) s

/-- `coords_wkt`, src/geoarrow/wkt_writer.c:140-216. -/
def wktCoords (print : Nat → Dbl → List Byte) (nv : Nat) (cs : List (List Dbl)) : M WktW Unit :=
  match cs with
  | [] => pure ()
  | c :: rest => do
    let l ← wktCheckLevel
    let n := cs.length
    let theoretical := n * 2 + n * (nv - 1) + 40 * nv
    let s ← M.get
    wktReserve (n * 2 + n * (nv - 1) + (s.precision + 1 + 8) * n * nv + theoretical)
    levelEntry l
    (if s.i l ≠ 0 then wktUnsafe (str ", ") else if wktParens l s then wktUnsafe (str "(") else pure ())
    wktReserve theoretical
    wktCoord print c
    wktMore print theoretical rest
    M.modify fun s => { s with i := upd s.i l (s.i l + n) }

/-- `ring_end_wkt`, src/geoarrow/wkt_writer.c:218-228 -/
def wktRingEnd : M WktW Unit := do
  let l ← wktCheckLevel
  levelEntry l
  let s ← M.get
  M.modify fun s => { s with level := s.level - 1 }
  if s.i l = 0 then wktWrite (str "EMPTY") else wktWrite (str ")")

/-- `geom_end_wkt`, src/geoarrow/wkt_writer.c:230-246 -/
def wktGeomEnd : M WktW Unit := do
  let l ← wktCheckLevel
  levelEntry l
  let s ← M.get
  M.modify fun s => { s with level := s.level - 1 }
  if s.i l = 0 then wktWrite (str "EMPTY")
  else if wktParens l s then wktWrite (str ")")
  else pure ()

/-- `feat_end_wkt`, src/geoarrow/wkt_writer.c:248-271. A truncation to a negative size (possible only with an
uninitialised `values_feat_start`) counts as undefined behaviour. -/
def wktFeatEnd : M WktW Unit := fun s =>
  if s.featIsNull then
    match bitsAppendNull s.validity s.length with
    | none => .ub
    | some l => .ok () { s with validity := some l, nullCount := s.nullCount + 1 }
  else
    match s.validity with
    | some l => .ok () { s with validity := some (l ++ [true]) }
    | none =>
      if 0 ≤ s.maxSize ∧ s.maxSize < (s.values.length : Int) - s.featStart then
        if s.featStart + s.maxSize < 0 then .ub
        else .ok () { s with values := s.values.take (s.featStart + s.maxSize).toNat }
      else .ok () s

/-- The callbacks installed by `GeoArrowWKTWriterInitVisitor`, src/geoarrow/wkt_writer.c:315-322 -/
def wktHandler (print : Nat → Dbl → List Byte) : Handler WktW
  | .featStart => wktFeatStart
  | .nullFeat => wktNullFeat
  | .geomStart gt dims => wktGeomStart gt dims
  | .ringStart => wktRingStart
  | .coords nv cs => wktCoords print nv cs
  | .ringEnd => wktRingEnd
  | .geomEnd => wktGeomEnd
  | .featEnd => wktFeatEnd

/-- `GeoArrowWKTWriterFinish`, src/geoarrow/wkt_writer.c:325-345. Moving a buffer out leaves it empty. -/
def wktFinish : M WktW BinArray := fun s =>
  if s.values.length > 2147483647 then .err EOVERFLOW s
  else
    let a : BinArray :=
      { length := s.length, nullCount := s.nullCount, validity := s.validity,
        offsets := s.offsets ++ [(s.values.length : Int)], data := s.values }
    let s' := { s with validity := none, offsets := [], values := [], cap := 0, length := 0, nullCount := 0 }
    match finishBuilding a with
    | none => .ub
    | some (.error rc) => .err rc s'
    | some (.ok ()) => .ok a s'

/-- One turn of the loop of `kernel_push_batch_by_feature`, src/geoarrow/kernel.c:217-224: let the reader visit one
feature with the given visitor; if that returns `EAGAIN`, end the feature and go on. -/
def visitByFeature {σ : Type} (h : Handler σ) (visit : M σ Unit) : M σ Unit := fun s =>
  match visit s with
  | .ok _ s' => .ok () s'
  | .err rc s' => if rc = EAGAIN then h .featEnd s' else .err rc s'
  | .ub => .ub

end Verif
