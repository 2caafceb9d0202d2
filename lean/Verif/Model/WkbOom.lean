import Verif.Model.WkbWriter
import Verif.Model.BuilderOom
/-!
# The WKB writer when memory runs out: `wkb_writer.c` and the buffers of nanoarrow

`Verif.Model.WkbWriter` assumes that allocations succeed; here the `k`-th request for memory is granted iff `mem k`, and
fresh memory of the `k`-th request has the bits `junk k`. Left out: that `realloc` leaks the old block when it fails
(`Verif.Model.BuilderOom` has it); `GeoArrowWKBWriterAppend` is in `Verif.Model.WkbOomAppend`.
-/
namespace Verif.WOom
open Verif.Oom (ENOMEM)

/-- `struct WKBWriterPrivate`, src/geoarrow/wkb_writer.c:8-21, with the capacities of its three buffers in bytes (0 iff the
data pointer is NULL), `size_bits` of the bitmap, which survives when the buffer of the bitmap is lost
(src/vendor/nanoarrow/nanoarrow.h:2930-2951), and the number of requests for memory so far. -/
structure OWkb where
  w : WkbW
  valuesCap : Nat
  offsetsCap : Nat
  bitsCap : Nat
  sizeBits : Nat
  asked : Nat

/-- `GeoArrowWKBWriterInit`, src/geoarrow/wkb_writer.c:178-196, once it has the memory for its own structure -/
def init (raw : WkbW) (asked : Nat) : OWkb := ⟨wkbInit raw, 0, 0, 0, 0, asked⟩

variable (mem : Nat → Bool) (junk : Nat → Nat → Bool)

/-- What touches no buffer that may grow. -/
def lift {α : Type} (f : M WkbW α) : M OWkb α := fun s =>
  match f s.w with
  | .ok a w => .ok a { s with w := w }
  | .err rc w => .err rc { s with w := w }
  | .ub => .ub

/-- `ArrowBufferReserve(&values, n)`, src/vendor/nanoarrow/nanoarrow.h:2554-2574: if there is no memory the buffer is empty
afterwards. -/
def valuesReserve (n : Nat) : M OWkb Unit := fun s =>
  if s.w.values.length + n ≤ s.valuesCap then .ok () s
  else if mem s.asked then
    .ok () { s with asked := s.asked + 1, valuesCap := growByFactor s.valuesCap (s.w.values.length + n) }
  else .err ENOMEM { s with asked := s.asked + 1, valuesCap := 0, w := { s.w with values := [] } }

/-- `ArrowBufferAppendUnsafe(&values, ...)`, src/vendor/nanoarrow/nanoarrow.h:2576-2583; undefined beyond the capacity. -/
def valuesUnsafe (bs : List Byte) : M OWkb Unit := fun s =>
  if s.w.values.length + bs.length ≤ s.valuesCap then .ok () { s with w := { s.w with values := s.w.values ++ bs } } else .ub

/-- `ArrowBufferAppend(&values, ...)`, src/vendor/nanoarrow/nanoarrow.h:2585-2591 -/
def valuesAppend (bs : List Byte) : M OWkb Unit := do
  valuesReserve mem bs.length
  valuesUnsafe bs

/-- `ArrowBufferAppendInt32(&offsets, v)`, src/vendor/nanoarrow/nanoarrow.h:2613-2616, 2554-2591; four bytes each -/
def offsetsAppend (v : Int) : M OWkb Unit := fun s =>
  if 4 * s.w.offsets.length + 4 ≤ s.offsetsCap then .ok () { s with w := { s.w with offsets := s.w.offsets ++ [v] } }
  else if mem s.asked then
    .ok () { s with asked := s.asked + 1, offsetsCap := growByFactor s.offsetsCap (4 * s.w.offsets.length + 4),
                    w := { s.w with offsets := s.w.offsets ++ [v] } }
  else .err ENOMEM { s with asked := s.asked + 1, offsetsCap := 0, w := { s.w with offsets := [] } }

/-- `ArrowBitmapReserve(&validity, n)`, src/vendor/nanoarrow/nanoarrow.h:2930-2951. If there is no memory the buffer is
empty afterwards but `size_bits` is what it was; if there is, and the buffer was empty, the first `size_bits` bits are
whatever the fresh memory holds. -/
def bitsReserve (n : Nat) : M OWkb Unit := fun s =>
  if (s.sizeBits + n + 7) / 8 ≤ s.bitsCap then .ok () s
  else if mem s.asked then
    .ok () { s with asked := s.asked + 1, bitsCap := growByFactor s.bitsCap ((s.sizeBits + n + 7) / 8),
                    w := { s.w with validity := some (s.w.validity.getD ((List.range s.sizeBits).map (junk s.asked))) } }
  else .err ENOMEM { s with asked := s.asked + 1, bitsCap := 0, w := { s.w with validity := none } }

/-- `ArrowBitmapAppendUnsafe(&validity, b, n)`, src/vendor/nanoarrow/nanoarrow.h:2976-2981; undefined on NULL and beyond the
capacity. -/
def bitsUnsafe (b : Bool) (n : Nat) : M OWkb Unit := fun s =>
  match s.w.validity with
  | none => .ub
  | some l =>
    if (s.sizeBits + n + 7) / 8 ≤ s.bitsCap then
      .ok () { s with sizeBits := s.sizeBits + n, w := { s.w with validity := some (l ++ List.replicate n b) } }
    else .ub

/-- `ArrowBitmapAppend(&validity, b, 1)`, src/vendor/nanoarrow/nanoarrow.h:2968-2974 -/
def bitsAppend (b : Bool) : M OWkb Unit := do
  bitsReserve mem junk 1
  bitsUnsafe b 1

/-- `feat_start_wkb`, src/geoarrow/wkb_writer.c:42-53 -/
def featStart : M OWkb Unit := fun s =>
  let w := { s.w with level := 0, size := upd s.w.size 0 0, length := s.w.length + 1, featIsNull := false }
  if w.values.length > 2147483647 then .err EOVERFLOW { s with w := w }
  else offsetsAppend mem (w.values.length : Int) { s with w := w }

/-- `geom_start_wkb`, src/geoarrow/wkb_writer.c:61-82 -/
def geomStart (gt dims : Nat) : M OWkb Unit := do
  let l ← lift wkbCheckLevel
  levelEntry (l + 1)
  lift (M.modify fun s => { s with
    size := upd (upd s.size l (u32 (s.size l + 1))) (l + 1) 0
    level := s.level + 1
    geometryType := upd s.geometryType (l + 1) gt
    dimensions := upd s.dimensions (l + 1) dims })
  valuesAppend mem [1]
  valuesAppend mem (leBytes 4 (wkbTypeCode gt dims))
  if gt ≠ 1 then do
    lift (M.modify fun s => { s with sizePos := upd s.sizePos (l + 1) s.values.length })
    valuesAppend mem (leBytes 4 0)
  else pure ()

/-- `ring_start_wkb`, src/geoarrow/wkb_writer.c:84-93 -/
def ringStart : M OWkb Unit := do
  let l ← lift wkbCheckLevel
  levelEntry (l + 1)
  lift (M.modify fun s => { s with
    size := upd (upd s.size l (u32 (s.size l + 1))) (l + 1) 0
    level := s.level + 1
    geometryType := upd s.geometryType (l + 1) 0
    sizePos := upd s.sizePos (l + 1) s.values.length })
  valuesAppend mem (leBytes 4 0)

/-- `coords_wkb`, src/geoarrow/wkb_writer.c:95-113; all the memory is reserved first. -/
def coordsCb (cs : List (List Dbl)) : M OWkb Unit := do
  let l ← lift wkbCheckLevel
  levelEntry l
  lift (M.modify fun s => { s with size := upd s.size l (u32 (s.size l + cs.length)) })
  valuesAppend mem (cs.flatMap fun c => c.flatMap Dbl.bytes)

/-- `ring_end_wkb`, src/geoarrow/wkb_writer.c:115-125 -/
def ringEnd : M OWkb Unit := do
  let l ← lift wkbCheckLevel
  levelEntry l
  let s ← M.get
  if s.valuesCap = 0 then M.fail EINVAL
  else lift do
    wkbPatch l
    M.modify fun s => { s with level := s.level - 1 }

/-- `geom_end_wkb`, src/geoarrow/wkb_writer.c:127-159 -/
def geomEnd : M OWkb Unit := do
  let l ← lift wkbCheckLevel
  levelEntry l
  let s ← M.get
  if s.valuesCap = 0 then M.fail EINVAL
  else if s.w.geometryType l ≠ 1 then
    lift do
      wkbPatch l
      M.modify fun s => { s with level := s.level - 1 }
  else if s.w.size l = 0 then
    match nvals (s.w.dimensions l) with
    | none => M.fail EINVAL
    | some n => do
      valuesAppend mem (emptyPointCoords.take (8 * n))
      lift (M.modify fun s => { s with level := s.level - 1 })
  else lift (M.modify fun s => { s with level := s.level - 1 })

/-- Making the bitmap before the first null, src/geoarrow/wkb_writer.c:165-168, 256-260: `length - 1` set bits, which is
undefined for `length == 0`. -/
def bitsBegin : M OWkb Unit := fun s =>
  if s.w.validity.isNone then
    if s.w.length = 0 then .ub
    else
      match bitsReserve mem junk s.w.length s with
      | .ok _ s' => bitsUnsafe true (s.w.length - 1) s'
      | r => r
  else .ok () s

/-- Appending a null to the bitmap, src/geoarrow/wkb_writer.c:164-170, 255-263 -/
def bitsNull : M OWkb Unit := do
  bitsBegin mem junk
  lift (M.modify fun w => { w with nullCount := w.nullCount + 1 })
  bitsAppend mem junk false

/-- Appending a non-null to the bitmap, if there is one, src/geoarrow/wkb_writer.c:171-173, 264-266 -/
def bitsValid : M OWkb Unit := fun s =>
  if s.w.validity.isSome then bitsAppend mem junk true s else .ok () s

/-- `feat_end_wkb`, src/geoarrow/wkb_writer.c:161-176 -/
def featEnd : M OWkb Unit := fun s =>
  if s.w.featIsNull then bitsNull mem junk s else bitsValid mem junk s

/-- `GeoArrowWKBWriterInitVisitor`, src/geoarrow/wkb_writer.c:198-212 -/
def handler : Handler OWkb
  | .featStart => featStart mem
  | .nullFeat => lift wkbNullFeat
  | .geomStart gt dims => geomStart mem gt dims
  | .ringStart => ringStart mem
  | .coords _ cs => coordsCb mem cs
  | .ringEnd => ringEnd
  | .geomEnd => geomEnd mem
  | .featEnd => featEnd mem junk

/-- `GeoArrowWKBWriterAppendNull`, src/geoarrow/wkb_writer.c:247-275 -/
def appendNull : M OWkb Unit := do
  let s ← M.get
  offsetsAppend mem (toI32 s.w.values.length)
  lift (M.modify fun w => { w with length := w.length + 1 })
  bitsNull mem junk

/-- `ArrowArrayInitFromType`, src/vendor/nanoarrow/nanoarrow.c:2436-2466: two requests. If the second is refused, the code
writes through the null pointer it got. -/
def arrayInit : M OWkb Unit := fun s =>
  if mem s.asked then
    if mem (s.asked + 1) then .ok () { s with asked := s.asked + 2 } else .ub
  else .err ENOMEM { s with asked := s.asked + 1 }

/-- The writer after its buffers were moved out, src/geoarrow/wkb_writer.c:227-233,
src/vendor/nanoarrow/nanoarrow.c:2613-2644 -/
def moved (s : OWkb) : OWkb :=
  { s with w := { s.w with validity := none, offsets := [], values := [], length := 0, nullCount := 0 },
           valuesCap := 0, offsetsCap := 0, bitsCap := 0, sizeBits := 0 }

/-- The array made of the buffers, src/geoarrow/wkb_writer.c:226-231 -/
def built (s : OWkb) : BinArray :=
  { length := s.w.length, nullCount := s.w.nullCount, validity := s.w.validity, offsets := s.w.offsets, data := s.w.values }

/-- `GeoArrowWKBWriterFinish` once the last offset is there, src/geoarrow/wkb_writer.c:225-236, with
`ArrowArrayFinishBuildingDefault`, src/vendor/nanoarrow/nanoarrow.c:2753-2858, which first gives an absent values buffer a
byte. The result is the code and what the caller finds in `array` (`none`: `release` is NULL). -/
def finishArray (s : OWkb) : Option ((Code × Option BinArray) × OWkb) :=
  match arrayInit mem s with
  | .ub => none
  | .err rc s => some ((rc, none), s)
  | .ok _ s =>
    if s.valuesCap = 0 ∧ mem s.asked = false then some ((ENOMEM, some (built s)), { moved s with asked := s.asked + 1 })
    else
      let s' := { moved s with asked := if s.valuesCap = 0 then s.asked + 1 else s.asked }
      match finishBuilding (built s) with
      | none => none
      | some (.error rc) => some ((rc, some (built s)), s')
      | some (.ok ()) => some ((0, some (built s)), s')

/-- `GeoArrowWKBWriterFinish`, src/geoarrow/wkb_writer.c:214-236 -/
def finish (s : OWkb) : Option ((Code × Option BinArray) × OWkb) :=
  if s.w.values.length > 2147483647 then some ((EOVERFLOW, none), s)
  else
    match offsetsAppend mem (s.w.values.length : Int) s with
    | .ub => none
    | .err rc s => some ((rc, none), s)
    | .ok _ s => finishArray mem s

end Verif.WOom
