import Verif.Model.ArrayView
import Verif.Model.WkbReader
import Verif.Model.WktReader
/-!
# `array_reader.c`

With the part of nanoarrow's `ArrowArrayView` that large and view types go through. Simplifications: arrays have no
dictionary; elements of negative size count as undefined behaviour; `int64_t` arithmetic does not overflow; a read
past the end of an element counts as undefined even where the data buffer goes on (only the WKB reader does that, see
`Props/WkbReader.lean`).
-/
namespace Verif

/-- The bytes `lo`, ..., `hi - 1` that a pointer addresses; undefined outside of the memory. A null pointer addresses nothing. -/
def sliceAt (b : Option (List Byte)) (lo n : Int) : Option (List Byte) :=
  match b with
  | none => if lo = 0 ∧ n = 0 then some [] else none
  | some d => if 0 ≤ lo ∧ 0 ≤ n ∧ lo + n ≤ d.length then some ((d.drop lo.toNat).take n.toNat) else none

/-- `((const int64_t*)b)[i]` -/
def i64At (b : List Byte) (i : Int) : Option Int :=
  if 0 ≤ i ∧ 8 * i + 8 ≤ b.length then some (BitVec.ofNat 64 (leVal ((b.drop (8 * i).toNat).take 8))).toInt else none

/-- `enum ArrowType` of the views that are used: large binary or string, binary or string view. -/
inductive NaKind where
  | large | view
  deriving DecidableEq, Repr

/-- `struct ArrowArrayView` (members used), src/vendor/nanoarrow/nanoarrow.h; a buffer view of unknown size is known by
its memory. -/
structure NaArr where
  kind : NaKind
  offset : Int
  length : Int
  nullCount : Int
  b0 : Option (List Byte)
  b1 : Option (List Byte)
  b2 : Option (List Byte)
  variadic : List (Option (List Byte))

/-- `ArrowArrayViewInitFromType`, src/vendor/nanoarrow/nanoarrow.c:2861-2866 -/
def naArrInit (k : NaKind) : NaArr :=
  { kind := k, offset := 0, length := 0, nullCount := 0, b0 := none, b1 := none, b2 := none, variadic := [] }

/-- `ArrowArrayViewSetArrayInternal`, src/vendor/nanoarrow/nanoarrow.c:3056-3139, for types without children. The fixed
buffers are read before their number is checked. -/
def naSetInternal (a : AArray) : M NaArr Unit := do
  let v ← M.get
  M.modify fun v => { v with offset := a.offset, length := a.length, nullCount := a.nullCount, variadic := [] }
  let b0 ← orUb a.buffers[0]?
  let b1 ← orUb a.buffers[1]?
  M.modify fun v => { v with b0 := b0, b1 := b1 }
  (match v.kind with
    | .large => do
      let b2 ← orUb a.buffers[2]?
      M.modify fun v => { v with b2 := b2 }
      if a.buffers.length ≠ 3 then M.fail EINVAL else pure ()
    | .view => M.modify fun v => { v with variadic := a.buffers.drop 2 })
  if a.children ≠ [] then M.fail EINVAL else pure ()

/-- `ArrowArrayViewValidateMinimal`, src/vendor/nanoarrow/nanoarrow.c:3142-3225: a null buffer has size 0, all others get
the size they need. -/
def naValidateMinimal (v : NaArr) : M NaArr Unit :=
  if v.length < 0 then M.fail EINVAL
  else if v.offset < 0 then M.fail EINVAL
  else if v.offset + v.length > 9223372036854775807 then M.fail EINVAL
  else if v.b0 = none ∧ v.nullCount ≠ 0 ∧ 0 < v.offset + v.length then M.fail EINVAL
  else if v.b1 = none ∧ 0 < v.offset + v.length then M.fail EINVAL
  else pure ()

/-- `ArrowArrayViewValidateDefault` for these types, src/vendor/nanoarrow/nanoarrow.c:3348-3420 -/
def naValidateDefault (v : NaArr) : M NaArr Unit := do
  naValidateMinimal v
  match v.kind with
  | .view => pure ()
  | .large =>
    if v.b1 ≠ none ∧ v.offset + v.length ≠ 0 then do
      let b ← orUb v.b1
      let first ← orUb (i64At b v.offset)
      let last ← orUb (i64At b (v.offset + v.length))
      if first < 0 then M.fail EINVAL
      else if last < 0 then M.fail EINVAL
      else if v.b2 = none ∧ 0 < last then M.fail EINVAL
      else pure ()
    else pure ()

/-- `ArrowArrayViewSetArray`, src/vendor/nanoarrow/nanoarrow.c:3568-3579 -/
def naSetArray (a : AArray) : M NaArr Unit := do
  naSetInternal a
  let v ← M.get
  naValidateDefault v

/-- `ArrowArrayViewIsNull`, src/vendor/nanoarrow/nanoarrow.h:4129-4143; negated. -/
def naValid (v : NaArr) (i : Int) : Option Bool :=
  match v.b0 with
  | none => some true
  | some b => if 0 ≤ i + v.offset then bitGet b (i + v.offset).toNat else none

/-- `ArrowArrayViewGetBytesFromViewArrayUnsafe`, src/vendor/nanoarrow/nanoarrow.h:4218-4230; `i` includes the offset. -/
def naViewBytes (v : NaArr) (i : Int) : Option (List Byte) :=
  match v.b1 with
  | none => none
  | some b => do
    let n ← i32At b (4 * i)
    if n ≤ 12 then
      if 16 * i + 16 ≤ b.length then sliceAt (some b) (16 * i + 4) n else none
    else do
      let k ← i32At b (4 * i + 2)
      let o ← i32At b (4 * i + 3)
      if 0 ≤ k then
        match v.variadic[k.toNat]? with
        | none => none
        | some d => sliceAt d o n
      else none

/-- `ArrowArrayViewGetBytesUnsafe` and `ArrowArrayViewGetStringUnsafe`, src/vendor/nanoarrow/nanoarrow.h:4336-4413 -/
def naBytes (v : NaArr) (i : Int) : Option (List Byte) :=
  match v.kind with
  | .large =>
    match v.b1 with
    | none => none
    | some b => do
      let lo ← i64At b (i + v.offset)
      let hi ← i64At b (i + v.offset + 1)
      sliceAt v.b2 lo (hi - lo)
  | .view => naViewBytes v (i + v.offset)

/-- The bytes of element `i` of a view of a serialized array, `i` including the offset; src/geoarrow/array_reader.c:22-29,
66-73 -/
def avBytes (v : AView) (i : Int) : Option (List Byte) :=
  match v.offsets 0 with
  | none => none
  | some b => do
    let lo ← i32At b i
    let hi ← i32At b (i + 1)
    sliceAt v.data lo (hi - lo)

/-- `struct GeoArrowArrayReaderPrivate`, src/geoarrow/array_reader.c:11-16; both members of the union are kept. -/
structure AReader where
  type : TypeId
  av : AView
  na : NaArr
  wkt : WktR
  wkb : WkbR

/-- The array view of `GeoArrowArrayReaderInitInternal`, for the types that do not use nanoarrow's. -/
def isArrowType (type : TypeId) : Bool := type = 100002 ∨ type = 100005 ∨ type = 100004 ∨ type = 100006

/-- A zeroed reader. -/
def AReader.zero (type : TypeId) : AReader :=
  { type := type, av := AView.zero ⟨none, none, 0, 0, 0, 0⟩, na := naArrInit .large,
    wkt := { pos := 0, left := 0, nv := 0, n := 0, coords := fun _ => 0 }, wkb := ⟨0, 0, false, []⟩ }

/-- `GeoArrowArrayReaderInitInternal`, src/geoarrow/array_reader.c:106-142; allocation succeeds. -/
def arrayReaderInit (type : TypeId) : Option AReader :=
  if type = 100002 ∨ type = 100004 then some { AReader.zero type with na := naArrInit .large }
  else if type = 100005 ∨ type = 100006 then some { AReader.zero type with na := naArrInit .view }
  else
    match arrayViewInitFromType type with
    | .ok v _ => some { AReader.zero type with av := v }
    | _ => none

/-- `GeoArrowArrayReaderInitFromSchema`, src/geoarrow/array_reader.c:166-196 -/
def arrayReaderInitFromSchema (schema : ASchema) : Option AReader :=
  match schemaViewInit schema { extName := none, extMetadata := none, type := 0, geometryType := 0, dimensions := 0, coordType := 0 } with
  | .ok _ s => arrayReaderInit s.type
  | _ => none

/-- `GeoArrowArrayReaderSetArray`, src/geoarrow/array_reader.c:214-238 -/
def arrayReaderSetArray (a : AArray) : M AReader Unit := fun r =>
  if isArrowType r.type then
    match naSetArray a r.na with
    | .ok _ v => .ok () { r with na := v }
    | .err rc v => .err rc { r with na := v }
    | .ub => .ub
  else
    match arrayViewSetArray a r.av with
    | .ok _ v => .ok () { r with av := v }
    | .err rc v => .err rc { r with av := v }
    | .ub => .ub

section
variable {σ : Type} (h : Handler σ)

/-- `GeoArrowWKBReaderVisit` that hands back the reader, src/geoarrow/wkb_reader.c:235-242 -/
def wkbVisitS (blob : List Byte) (r : WkbR) : M σ WkbR :=
  match wkbRead blob r with
  | .ok v r' => do
    viewVisit (wkbMem blob) h v
    pure r'
  | .err rc _ => M.fail rc
  | .ub => M.undef

/-- `GeoArrowWKTReaderVisit` that hands back the reader, src/geoarrow/wkt_reader.c:516-534 -/
def wktVisitS (parse : List Byte → Option Dbl) (blob : List Byte) (r : WktR) : M σ WktR := do
  let x ← wkrFeature parse blob h (blob.length + 1) { r with pos := 0, left := blob.length }
  pure x.2

/-- The body of the four loops, src/geoarrow/array_reader.c:24-35, 46-57, 68-79, 90-101: the validity and the bytes of
the element, and what reads them. -/
def arElement {ρ : Type} (valid : Option Bool) (bytes : Option (List Byte)) (visit : List Byte → ρ → M σ ρ) (r : ρ) : M σ ρ := do
  let valid ← orUb valid
  if valid then do
    let b ← orUb bytes
    visit b r
  else do
    h .featStart
    h .nullFeat
    h .featEnd
    pure r

/-- The loops over elements. -/
def arLoop {ρ : Type} (f : Int → ρ → M σ ρ) : (n : Nat) → (i : Int) → ρ → M σ ρ
  | 0, _, r => pure r
  | n + 1, i, r => do
    let r ← f i r
    arLoop f n (i + 1) r

/-- `GeoArrowArrayReaderVisitWKT`, src/geoarrow/array_reader.c:18-38 -/
def arVisitWkt (parse : List Byte → Option Dbl) (v : AView) (offset length : Int) (r : WktR) : M σ WktR :=
  arLoop (fun i => arElement h (avValid v i) (avBytes v i) (wktVisitS h parse)) length.toNat (v.offset 0 + offset) r

/-- `GeoArrowArrayReaderVisitWKTArrow`, src/geoarrow/array_reader.c:40-60 -/
def arVisitWktArrow (parse : List Byte → Option Dbl) (v : NaArr) (offset length : Int) (r : WktR) : M σ WktR :=
  arLoop (fun i => arElement h (naValid v i) (naBytes v i) (wktVisitS h parse)) length.toNat offset r

/-- `GeoArrowArrayReaderVisitWKB`, src/geoarrow/array_reader.c:62-82 -/
def arVisitWkb (v : AView) (offset length : Int) (r : WkbR) : M σ WkbR :=
  arLoop (fun i => arElement h (avValid v i) (avBytes v i) (wkbVisitS h)) length.toNat (v.offset 0 + offset) r

/-- `GeoArrowArrayReaderVisitWKBArrow`, src/geoarrow/array_reader.c:84-104 -/
def arVisitWkbArrow (v : NaArr) (offset length : Int) (r : WkbR) : M σ WkbR :=
  arLoop (fun i => arElement h (naValid v i) (naBytes v i) (wkbVisitS h)) length.toNat offset r

/-- `GeoArrowArrayReaderVisit`, src/geoarrow/array_reader.c:240-271. The state of the readers for single elements after the
call is not returned; it does not matter for later calls. -/
def arrayReaderVisit (parse : List Byte → Option Dbl) (r : AReader) (offset length : Int) : M σ Unit :=
  if length = 0 then pure ()
  else if r.type = 100003 then do
    let _ ← arVisitWkt h parse r.av offset length r.wkt
    pure ()
  else if r.type = 100001 then do
    let _ ← arVisitWkb h r.av offset length r.wkb
    pure ()
  else if r.type = 100002 ∨ r.type = 100005 then do
    let _ ← arVisitWkbArrow h r.na offset length r.wkb
    pure ()
  else if r.type = 100004 ∨ r.type = 100006 then do
    let _ ← arVisitWktArrow h parse r.na offset length r.wkt
    pure ()
  else visitNative r.av h offset length
end

end Verif
