import Verif.Model.ArrayReader
import Verif.Model.Builder
import Verif.Model.WktWriter
/-!
# `kernel.c`

Kernels that visit their input. Simplifications: allocation succeeds; the state in which a visit leaves the readers of single
elements is arbitrary (`scratch`), since `arrayReaderVisit` does not return it; error messages are not modelled. `start` is
modelled as far as the reader and the state of the visitor are concerned.
-/
namespace Verif

/-! ## Pushing a batch -/

/-- `struct GeoArrowVisitorKernelPrivate`, src/geoarrow/kernel.c:120-133: the reader, and whatever the visitor works on. -/
structure Kernel (σ : Type) where
  reader : AReader
  vis : σ

/-- What a visit left in the readers of single elements. -/
def AReader.after (r : AReader) (scratch : WktR × WkbR) : AReader := { r with wkt := scratch.1, wkb := scratch.2 }

/-- Run a program on the visitor's state while the reader is `r`. -/
def onVis {σ α : Type} (r : AReader) (m : M σ α) : M (Kernel σ) α := fun k =>
  match m k.vis with
  | .ok a s => .ok a ⟨r, s⟩
  | .err rc s => .err rc ⟨r, s⟩
  | .ub => .ub

/-- `GeoArrowArrayReaderSetArray(&private_data->reader, array, error)`, src/geoarrow/kernel.c:195-196, 211-212 -/
def kernelSetArray {σ : Type} (a : AArray) : M (Kernel σ) Unit := fun k =>
  match arrayReaderSetArray a k.reader with
  | .ok _ r => .ok () { k with reader := r }
  | .err rc r => .err rc { k with reader := r }
  | .ub => .ub

/-- `kernel_push_batch`, src/geoarrow/kernel.c:190-203 -/
def kernelPushBatch {σ α : Type} (h : Handler σ) (finish : M σ α) (parse : List Byte → Option Dbl) (scratch : Int → WktR × WkbR)
    (a : AArray) : M (Kernel σ) α := do
  kernelSetArray a
  let k ← M.get
  onVis (k.reader.after (scratch 0)) do
    arrayReaderVisit h parse k.reader 0 a.length
    finish

/-- The loop of `kernel_push_batch_by_feature`, src/geoarrow/kernel.c:216-224, `n` features from `i` on. -/
def kernelLoop {σ : Type} (h : Handler σ) (parse : List Byte → Option Dbl) (scratch : Int → WktR × WkbR) (r : AReader) :
    (n : Nat) → (i : Int) → M σ Unit
  | 0, _ => pure ()
  | n + 1, i => do
    visitByFeature h (arrayReaderVisit h parse (r.after (scratch i)) i 1)
    kernelLoop h parse scratch r n (i + 1)

/-- `kernel_push_batch_by_feature`, src/geoarrow/kernel.c:205-227 -/
def kernelPushByFeature {σ α : Type} (h : Handler σ) (finish : M σ α) (parse : List Byte → Option Dbl) (scratch : Int → WktR × WkbR)
    (a : AArray) : M (Kernel σ) α := do
  kernelSetArray a
  let k ← M.get
  onVis (k.reader.after (scratch a.length)) do
    kernelLoop h parse scratch k.reader a.length.toNat 0
    finish

/-! ## box and box_agg -/

/-- `struct GeoArrowBox2DPrivate`, src/geoarrow/kernel.c:111-118 -/
structure BoxS where
  featNull : Bool
  minX : Dbl
  minY : Dbl
  maxX : Dbl
  maxY : Dbl
  validity : Bitmap
  values0 : List Dbl
  values1 : List Dbl
  values2 : List Dbl
  values3 : List Dbl
  nullCount : Int

/-- `GeoArrowInitVisitorKernelInternal`, src/geoarrow/kernel.c:678-686 -/
def boxZero : BoxS :=
  { featNull := false, minX := 0, minY := 0, maxX := 0, maxY := 0, validity := Bitmap.init, values0 := [], values1 := [], values2 := [],
    values3 := [], nullCount := 0 }

/-- `feat_start_box`, src/geoarrow/kernel.c:552-561 -/
def boxFeatStart : M BoxS Unit := M.modify fun s =>
  { s with maxX := Dbl.negInf, maxY := Dbl.negInf, minX := Dbl.inf, minY := Dbl.inf, featNull := false }

/-- `null_feat_box`, src/geoarrow/kernel.c:563-568 -/
def boxNullFeat : M BoxS Unit := M.modify fun s => { s with featNull := true }

/-- The inner loop of `coords_box` for dimension `j`, src/geoarrow/kernel.c:576-585; returns the new minimum and maximum. -/
def boxExtend (j : Nat) : List (List Dbl) → Dbl × Dbl → Option (Dbl × Dbl)
  | [], lh => some lh
  | c :: cs, (lo, hi) =>
    match c[j]? with
    | none => none
    | some x => boxExtend j cs (if lo.gt x then x else lo, if x.gt hi then x else hi)

/-- `coords_box`, src/geoarrow/kernel.c:570-589. A coordinate view with fewer than two values has no values to point to. -/
def boxCoords (cs : List (List Dbl)) : M BoxS Unit := do
  let s ← M.get
  let x ← orUb (boxExtend 0 cs (s.minX, s.maxX))
  let y ← orUb (boxExtend 1 cs (s.minY, s.maxY))
  M.modify fun s => { s with minX := x.1, maxX := x.2, minY := y.1, maxY := y.2 }

/-- `box_flush`, src/geoarrow/kernel.c:501-512 -/
def boxFlush : M BoxS Unit := M.modify fun s =>
  { s with values0 := s.values0 ++ [s.minX], values1 := s.values1 ++ [s.minY], values2 := s.values2 ++ [s.maxX], values3 := s.values3 ++ [s.maxY] }

/-- `ArrowBitmapAppend(&private_data->box2d_private.validity, bit, n)` -/
def boxMark (junk : Nat → Byte) (bit : Bool) (n : Nat) : M BoxS Unit := do
  let s ← M.get
  let v ← orUb (s.validity.append junk bit n)
  M.modify fun s => { s with validity := v }

/-- `feat_end_box`, src/geoarrow/kernel.c:591-612 -/
def boxFeatEnd (junk : Nat → Byte) : M BoxS Unit := do
  let s ← M.get
  (if s.featNull then do
    (if s.validity.buf = [] then boxMark junk true s.values0.length else pure ())
    boxMark junk false 1
    M.modify fun s => { s with nullCount := s.nullCount + 1 }
  else if s.validity.buf ≠ [] then boxMark junk true 1
  else pure ())
  boxFlush

/-- The visitor of the box kernel, src/geoarrow/kernel.c:651-655 -/
def boxHandler (junk : Nat → Byte) : Handler BoxS
  | .featStart => boxFeatStart
  | .nullFeat => boxNullFeat
  | .geomStart _ _ => pure ()
  | .ringStart => pure ()
  | .coords _ cs => boxCoords cs
  | .ringEnd => pure ()
  | .geomEnd => pure ()
  | .featEnd => boxFeatEnd junk

/-- The visitor of the box_agg kernel, src/geoarrow/kernel.c:620-621 -/
def boxAggHandler : Handler BoxS
  | .coords _ cs => boxCoords cs
  | _ => pure ()

/-- A child of the array made by `array_box` and `box_finish`, src/geoarrow/kernel.c:493-496, 527-531 -/
def boxChild (length : Nat) (values : List Dbl) : AArray := .mk length 0 0 [none, some (values.flatMap Dbl.bytes)] []

/-- The array as it is when it is validated, src/geoarrow/kernel.c:516-538: a bitmap that was set makes the null count unknown. -/
def boxArray (s : BoxS) : AArray :=
  .mk s.values0.length (if 0 < s.nullCount then -1 else 0) 0
    [if 0 < s.nullCount then (if s.validity.buf = [] then none else some (s.validity.buf.take s.validity.sizeBytes)) else none]
    [boxChild s.values0.length s.values0, boxChild s.values0.length s.values1, boxChild s.values0.length s.values2,
     boxChild s.values0.length s.values3]

/-- The type of that array, src/geoarrow/kernel.c:490-499 -/
def boxTree : ATree BKind := .node .struct [.node .double [], .node .double [], .node .double [], .node .double []]

/-- `box_finish`, src/geoarrow/kernel.c:514-550. The buffers have moved into the array; if that is found invalid they are
released, and the number of nulls stays. -/
def boxFinish : M BoxS AArray := do
  let s ← M.get
  let a := boxArray s
  M.modify fun s => { s with validity := Bitmap.init, values0 := [], values1 := [], values2 := [], values3 := [] }
  if naTreeMinimal boxTree a = false then M.fail EINVAL
  else do
    let ok ← orUb (naTreeDefault boxTree a)
    if ok then do
      M.modify fun s => { s with nullCount := 0 }
      pure (a.withNullCount s.nullCount)
    else M.fail EINVAL

/-- The state of the visitor after `finish_start_box_agg`, src/geoarrow/kernel.c:620-627 -/
def boxAggStart : BoxS :=
  { boxZero with maxX := Dbl.negInf, maxY := Dbl.negInf, minX := Dbl.inf, minY := Dbl.inf }

/-- `push_batch` of the box kernel, src/geoarrow/kernel.c:645-667, 707-710 -/
def boxPush (junk : Nat → Byte) := kernelPushBatch (boxHandler junk) boxFinish

/-- `push_batch` of the box_agg kernel, src/geoarrow/kernel.c:614-633, 711-714; `out` is not used. -/
def boxAggPush := kernelPushBatch boxAggHandler (pure ())

/-- `kernel_finish_box_agg`, src/geoarrow/kernel.c:635-643 -/
def boxAggFinish : M (Kernel BoxS) AArray := fun k => onVis k.reader (do boxFlush; boxFinish) k

/-! ## unique_geometry_types_agg -/

/-- `struct GeoArrowGeometryTypesVisitorPrivate`, src/geoarrow/kernel.c:105-109 -/
structure TypesS where
  geometryType : Nat
  dimensions : Nat
  mask : BitVec 64

/-- src/geoarrow/kernel.c:678 -/
def typesZero : TypesS := ⟨0, 0, 0⟩

/-- `feat_start_geometry_types`, src/geoarrow/kernel.c:368-374 -/
def typesFeatStart : M TypesS Unit := M.modify fun s => { s with geometryType := 0, dimensions := 0 }

/-- `geom_start_geometry_types`, src/geoarrow/kernel.c:376-390 -/
def typesGeomStart (gt dims : Nat) : M TypesS Unit := M.modify fun s =>
  if s.geometryType = 0 then { s with geometryType := gt, dimensions := dims } else s

/-- `coords_geometry_types`, src/geoarrow/kernel.c:392-407. A shift by 64 or more is undefined. -/
def typesCoords (cs : List (List Dbl)) : M TypesS Unit := do
  let s ← M.get
  if cs.length > 0 then
    let shift := s.dimensions * 8 + s.geometryType
    if 64 ≤ shift then M.undef
    else do
      M.modify fun s => { s with mask := s.mask ||| (1#64 <<< shift) }
      M.fail EAGAIN
  else pure ()

/-- The visitor, src/geoarrow/kernel.c:416-419 -/
def typesHandler : Handler TypesS
  | .featStart => typesFeatStart
  | .geomStart gt dims => typesGeomStart gt dims
  | .coords _ cs => typesCoords cs
  | _ => pure ()

/-- `push_batch` of the kernel, src/geoarrow/kernel.c:703-706 -/
def typesPush := kernelPushByFeature typesHandler (pure ())

/-- `kGeoArrowGeometryTypeWkbValues`, src/geoarrow/kernel.c:363-366 -/
def typeCodes : List Int :=
  [-1000, -999, -998, -997, -996, -995, -994, -993, 0, 1, 2, 3, 4, 5,
   6, 7, 1000, 1001, 1002, 1003, 1004, 1005, 1006, 1007, 2000, 2001, 2002, 2003,
   2004, 2005, 2006, 2007, 3000, 3001, 3002, 3003, 3004, 3005, 3006, 3007]

/-- The values stored by the loop in `kernel_finish_unique_geometry_types_agg`, src/geoarrow/kernel.c:449-454, from bit `i` on. -/
def typesValues (mask : BitVec 64) : (n i : Nat) → Option (List Int)
  | 0, _ => some []
  | n + 1, i => do
    let rest ← typesValues mask n (i + 1)
    if mask &&& (1#64 <<< i) ≠ 0 then
      match typeCodes[i]? with
      | none => none
      | some c => some (c :: rest)
    else some rest

/-- The number of types, src/geoarrow/kernel.c:432-436 -/
def typesCount (mask : BitVec 64) : (n i : Nat) → Nat
  | 0, _ => 0
  | n + 1, i => (if mask &&& (1#64 <<< i) ≠ 0 then 1 else 0) + typesCount mask n (i + 1)

/-- `kernel_finish_unique_geometry_types_agg`, src/geoarrow/kernel.c:423-466. The array has length 0 when it is validated, so
nothing is found wrong; more values than there is memory for is undefined. -/
def typesFinish : M (Kernel TypesS) AArray := fun k =>
  let n := typesCount k.vis.mask 40 0
  match typesValues k.vis.mask 40 0 with
  | none => .ub
  | some vs => if n < vs.length then .ub else .ok (.mk n 0 0 [none, some (i32Bytes vs)] []) k

end Verif
