import Verif.Model.WktWriter
import Verif.Model.BuilderOom
/-!
# The WKT writer when memory runs out: `wkt_writer.c` and the buffers of nanoarrow

`Verif.Model.WktWriter` assumes that allocations succeed; here the `k`-th request for memory is granted iff `mem k`, and
fresh memory of the `k`-th request has the bits `junk k`. Left out: that `realloc` leaks the old block when it fails
(`Verif.Model.BuilderOom` has it).
-/
namespace Verif.TOom
open Verif.Oom (ENOMEM)

/-- `struct WKTWriterPrivate`, src/geoarrow/wkt_writer.c:8-23, with the capacities of its other two buffers in bytes (0 iff
the data pointer is NULL), `size_bits` of the bitmap, which survives when the buffer of the bitmap is lost
(src/vendor/nanoarrow/nanoarrow.h:2930-2951), and the number of requests for memory so far. -/
structure OWkt where
  w : WktW
  offsetsCap : Nat
  bitsCap : Nat
  sizeBits : Nat
  asked : Nat

/-- `GeoArrowWKTWriterInit`, src/geoarrow/wkt_writer.c:273-296, once it has the memory for its own structure, and
`GeoArrowWKTWriterInitVisitor`, src/geoarrow/wkt_writer.c:298-323, with the options of the writer -/
def init (precision : Int) (flat : Bool) (maxSize : Int) (raw : WktW) (asked : Nat) : OWkt :=
  ⟨wktInitVisitor precision flat maxSize (wktInit raw), 0, 0, 0, asked⟩

variable (print : Nat → Dbl → List Byte) (mem : Nat → Bool) (junk : Nat → Nat → Bool)

/-- What touches no buffer that may grow. -/
def lift {α : Type} (f : M WktW α) : M OWkt α := fun s =>
  match f s.w with
  | .ok a w => .ok a { s with w := w }
  | .err rc w => .err rc { s with w := w }
  | .ub => .ub

/-- `ArrowBufferReserve(&values, n)`, src/vendor/nanoarrow/nanoarrow.h:2554-2574: if there is no memory the buffer is empty
afterwards. -/
def reserve (n : Nat) : M OWkt Unit := fun s =>
  if s.w.values.length + n ≤ s.w.cap then .ok () s
  else if mem s.asked then
    .ok () { s with asked := s.asked + 1, w := { s.w with cap := growByFactor s.w.cap (s.w.values.length + n) } }
  else .err ENOMEM { s with asked := s.asked + 1, w := { s.w with values := [], cap := 0 } }

/-- `WKTWriterWrite`, src/geoarrow/wkt_writer.c:34-36, through `ArrowBufferAppend` (nanoarrow.h:2585-2591) -/
def write (bs : List Byte) : M OWkt Unit := do
  reserve mem bs.length
  lift (wktUnsafe bs)

/-- `ArrowBufferAppendInt32(&offsets, v)`, src/vendor/nanoarrow/nanoarrow.h:2613-2616, 2554-2591; four bytes each -/
def offsetsAppend (v : Int) : M OWkt Unit := fun s =>
  if 4 * s.w.offsets.length + 4 ≤ s.offsetsCap then .ok () { s with w := { s.w with offsets := s.w.offsets ++ [v] } }
  else if mem s.asked then
    .ok () { s with asked := s.asked + 1, offsetsCap := growByFactor s.offsetsCap (4 * s.w.offsets.length + 4),
                    w := { s.w with offsets := s.w.offsets ++ [v] } }
  else .err ENOMEM { s with asked := s.asked + 1, offsetsCap := 0, w := { s.w with offsets := [] } }

/-- `ArrowBitmapReserve(&validity, n)`, src/vendor/nanoarrow/nanoarrow.h:2930-2951. If there is no memory the buffer is
empty afterwards but `size_bits` is what it was; if there is, and the buffer was empty, the first `size_bits` bits are
whatever the fresh memory holds. -/
def bitsReserve (n : Nat) : M OWkt Unit := fun s =>
  if (s.sizeBits + n + 7) / 8 ≤ s.bitsCap then .ok () s
  else if mem s.asked then
    .ok () { s with asked := s.asked + 1, bitsCap := growByFactor s.bitsCap ((s.sizeBits + n + 7) / 8),
                    w := { s.w with validity := some (s.w.validity.getD ((List.range s.sizeBits).map (junk s.asked))) } }
  else .err ENOMEM { s with asked := s.asked + 1, bitsCap := 0, w := { s.w with validity := none } }

/-- `ArrowBitmapAppendUnsafe(&validity, b, n)`, src/vendor/nanoarrow/nanoarrow.h:2976-2981; undefined on NULL and beyond the
capacity. -/
def bitsUnsafe (b : Bool) (n : Nat) : M OWkt Unit := fun s =>
  match s.w.validity with
  | none => .ub
  | some l =>
    if (s.sizeBits + n + 7) / 8 ≤ s.bitsCap then
      .ok () { s with sizeBits := s.sizeBits + n, w := { s.w with validity := some (l ++ List.replicate n b) } }
    else .ub

/-- `ArrowBitmapAppend(&validity, b, 1)`, src/vendor/nanoarrow/nanoarrow.h:2968-2974 -/
def bitsAppend (b : Bool) : M OWkt Unit := do
  bitsReserve mem junk 1
  bitsUnsafe b 1

/-- `feat_start_wkt`, src/geoarrow/wkt_writer.c:48-59 -/
def featStart : M OWkt Unit := fun s =>
  let w := { s.w with level := -1, length := s.w.length + 1, featIsNull := false, featStart := s.w.values.length }
  if w.values.length > 2147483647 then .err EOVERFLOW { s with w := w }
  else offsetsAppend mem (w.values.length : Int) { s with w := w }

/-- The dimensions in a tag, src/geoarrow/wkt_writer.c:91-106 -/
def dims (d : Nat) : M OWkt Unit :=
  if d = 1 then pure ()
  else if d = 2 then write mem (str " Z")
  else if d = 3 then write mem (str " M")
  else if d = 4 then write mem (str " ZM")
  else M.fail EINVAL

/-- The tag of a geometry, src/geoarrow/wkt_writer.c:80-108 -/
def tag (gt d : Nat) : M OWkt Unit :=
  if gt < 1 ∨ 7 < gt then M.fail EINVAL
  else do
    write mem (wktTypeName gt)
    dims mem d
    write mem (str " ")

/-- `", "` after other members, `"("` before the first one, and `z` at the outermost level,
src/geoarrow/wkt_writer.c:74-78, 125-129 -/
def before (l : Nat) (z : M OWkt Unit) : M OWkt Unit := do
  let n ← lift (wktOuter l)
  match n with
  | none => z
  | some n => if 0 < n then write mem (str ", ") else write mem (str "(")

/-- `geom_start_wkt`, src/geoarrow/wkt_writer.c:67-118 -/
def geomStart (gt d : Nat) : M OWkt Unit := do
  lift (M.modify fun s => { s with level := s.level + 1 })
  let l ← lift wktCheckLevel
  before mem l (pure ())
  let s ← M.get
  (if l = 0 ∨ s.w.geometryType (l - 1) = 7 then tag mem gt d else pure ())
  lift (wktOpen l gt)

/-- `ring_start_wkt`, src/geoarrow/wkt_writer.c:120-138 -/
def ringStart : M OWkt Unit := do
  lift (M.modify fun s => { s with level := s.level + 1 })
  let l ← lift wktCheckLevel
  before mem l (write mem (str "("))
  lift (wktOpen l 0)

/-- The loop over the remaining coordinates, src/geoarrow/wkt_writer.c:197-213 -/
def more (n : Nat) : List (List Dbl) → M OWkt Unit
  | [] => pure ()
  | c :: cs => fun s =>
    if s.w.limitReached then .err EAGAIN s
    else (do
      reserve mem n
      lift (wktUnsafe (str ", "))
      lift (wktCoord print c)
      more n cs) s

/-- `coords_wkt`, src/geoarrow/wkt_writer.c:140-216 -/
def coordsCb (nv : Nat) (cs : List (List Dbl)) : M OWkt Unit :=
  match cs with
  | [] => pure ()
  | c :: rest => do
    let l ← lift wktCheckLevel
    let n := cs.length
    let theoretical := n * 2 + n * (nv - 1) + 40 * nv
    let s ← M.get
    reserve mem (n * 2 + n * (nv - 1) + (s.w.precision + 1 + 8) * n * nv + theoretical)
    levelEntry l
    (if s.w.i l ≠ 0 then lift (wktUnsafe (str ", ")) else if wktParens l s.w then lift (wktUnsafe (str "(")) else pure ())
    reserve mem theoretical
    lift (wktCoord print c)
    more print mem theoretical rest
    lift (M.modify fun s => { s with i := upd s.i l (s.i l + n) })

/-- `ring_end_wkt`, src/geoarrow/wkt_writer.c:218-228 -/
def ringEnd : M OWkt Unit := do
  let l ← lift wktCheckLevel
  levelEntry l
  let s ← M.get
  lift (M.modify fun s => { s with level := s.level - 1 })
  if s.w.i l = 0 then write mem (str "EMPTY") else write mem (str ")")

/-- `geom_end_wkt`, src/geoarrow/wkt_writer.c:230-246 -/
def geomEnd : M OWkt Unit := do
  let l ← lift wktCheckLevel
  levelEntry l
  let s ← M.get
  lift (M.modify fun s => { s with level := s.level - 1 })
  if s.w.i l = 0 then write mem (str "EMPTY")
  else if wktParens l s.w then write mem (str ")")
  else pure ()

/-- Making the bitmap before the first null, src/geoarrow/wkt_writer.c:252-255: `length - 1` set bits, which is undefined
for `length == 0`. -/
def bitsBegin : M OWkt Unit := fun s =>
  if s.w.validity.isNone then
    if s.w.length = 0 then .ub
    else
      match bitsReserve mem junk s.w.length s with
      | .ok _ s' => bitsUnsafe true (s.w.length - 1) s'
      | r => r
  else .ok () s

/-- Appending a null to the bitmap, src/geoarrow/wkt_writer.c:251-258 -/
def bitsNull : M OWkt Unit := do
  bitsBegin mem junk
  lift (M.modify fun w => { w with nullCount := w.nullCount + 1 })
  bitsAppend mem junk false

/-- Cutting a feature to the limit, src/geoarrow/wkt_writer.c:263-268; see `wktFeatEnd` -/
def cut : M OWkt Unit := fun s =>
  if 0 ≤ s.w.maxSize ∧ s.w.maxSize < (s.w.values.length : Int) - s.w.featStart then
    if s.w.featStart + s.w.maxSize < 0 then .ub
    else .ok () { s with w := { s.w with values := s.w.values.take (s.w.featStart + s.w.maxSize).toNat } }
  else .ok () s

/-- `feat_end_wkt`, src/geoarrow/wkt_writer.c:248-271 -/
def featEnd : M OWkt Unit := fun s =>
  if s.w.featIsNull then bitsNull mem junk s
  else if s.w.validity.isSome then bitsAppend mem junk true s
  else cut s

/-- The callbacks installed by `GeoArrowWKTWriterInitVisitor`, src/geoarrow/wkt_writer.c:315-322 -/
def handler : Handler OWkt
  | .featStart => featStart mem
  | .nullFeat => lift wktNullFeat
  | .geomStart gt d => geomStart mem gt d
  | .ringStart => ringStart mem
  | .coords nv cs => coordsCb print mem nv cs
  | .ringEnd => ringEnd mem
  | .geomEnd => geomEnd mem
  | .featEnd => featEnd mem junk

/-- `ArrowArrayInitFromType`, src/vendor/nanoarrow/nanoarrow.c:2436-2466: two requests. If the second is refused, the code
writes through the null pointer it got. -/
def arrayInit : M OWkt Unit := fun s =>
  if mem s.asked then
    if mem (s.asked + 1) then .ok () { s with asked := s.asked + 2 } else .ub
  else .err ENOMEM { s with asked := s.asked + 1 }

/-- The writer after its buffers were moved out, src/geoarrow/wkt_writer.c:337-343,
src/vendor/nanoarrow/nanoarrow.c:2613-2644 -/
def moved (s : OWkt) : OWkt :=
  { s with w := { s.w with validity := none, offsets := [], values := [], cap := 0, length := 0, nullCount := 0 },
           offsetsCap := 0, bitsCap := 0, sizeBits := 0 }

/-- The array made of the buffers, src/geoarrow/wkt_writer.c:337-341 -/
def built (s : OWkt) : BinArray :=
  { length := s.w.length, nullCount := s.w.nullCount, validity := s.w.validity, offsets := s.w.offsets, data := s.w.values }

/-- `GeoArrowWKTWriterFinish` once the last offset is there, src/geoarrow/wkt_writer.c:336-344, with
`ArrowArrayFinishBuildingDefault`, src/vendor/nanoarrow/nanoarrow.c:2753-2858, which first gives an absent values buffer a
byte. The result is the code and what the caller finds in `array` (`none`: `release` is NULL). -/
def finishArray (s : OWkt) : Option ((Code × Option BinArray) × OWkt) :=
  match arrayInit mem s with
  | .ub => none
  | .err rc s => some ((rc, none), s)
  | .ok _ s =>
    if s.w.cap = 0 ∧ mem s.asked = false then some ((ENOMEM, some (built s)), { moved s with asked := s.asked + 1 })
    else
      let s' := { moved s with asked := if s.w.cap = 0 then s.asked + 1 else s.asked }
      match finishBuilding (built s) with
      | none => none
      | some (.error rc) => some ((rc, some (built s)), s')
      | some (.ok ()) => some ((0, some (built s)), s')

/-- `GeoArrowWKTWriterFinish`, src/geoarrow/wkt_writer.c:325-345 -/
def finish (s : OWkt) : Option ((Code × Option BinArray) × OWkt) :=
  if s.w.values.length > 2147483647 then some ((EOVERFLOW, none), s)
  else
    match offsetsAppend mem (s.w.values.length : Int) s with
    | .ub => none
    | .err rc s => some ((rc, none), s)
    | .ok _ s => finishArray mem s

end Verif.TOom
