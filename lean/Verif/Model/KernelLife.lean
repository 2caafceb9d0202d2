import Verif.Model.Basic
/-!
# Model: which memory a kernel owns, from initialisation to release

Models the allocations and deallocations of `src/geoarrow/kernel.c` and of the readers and writers that kernels contain
(`array_reader.c`, `wkb_reader.c`, `wkt_reader.c`, `geometry.c`, `array_writer.c`, `wkb_writer.c`, `wkt_writer.c`, `native_writer.c`,
`builder.c`).

Simplifications:
* requests for memory are granted;
* what depends on data (whether a schema, an option or an array is accepted, whether a visit fails, which buffers grow) is an
  argument of the call, so that theorems hold for all of it;
* a buffer that grows several times during a call is modelled as growing once;
* the structures of an `ArrowArray` (with children) other than its buffers count as one block, and so does an `ArrowSchema`.
-/
namespace Verif.Life
open Verif

/-- Blocks of memory: which are allocated, and the address of the next one. -/
structure Heap where
  live : Nat → Bool
  next : Nat

/-- A computation with memory; `none` is undefined behaviour. -/
abbrev H := StateT Heap Option

/-- `ArrowMalloc`, src/vendor/nanoarrow/nanoarrow.c:217. Granted. -/
def malloc : H Nat := fun h => some (h.next, ⟨fun a => a == h.next || h.live a, h.next + 1⟩)

/-- `ArrowFree`, src/vendor/nanoarrow/nanoarrow.c:221. Undefined unless the block is allocated. -/
def free (a : Nat) : H Unit := fun h => if h.live a then some ((), ⟨fun b => b != a && h.live b, h.next⟩) else none

/-- Using a null pointer. -/
def crash {α : Type} : H α := fun _ => none

/-- `ArrowBufferReset` and `ArrowBitmapReset`, src/vendor/nanoarrow/nanoarrow.h:2515-2519 (`free` of a null pointer does nothing). -/
def bufReset (b : Option Nat) : H Unit :=
  match b with
  | none => pure ()
  | some a => free a

/-- `ArrowBufferReserve` when it has to grow the buffer: `realloc`. -/
def bufGrow (b : Option Nat) (grows : Bool) : H (Option Nat) :=
  if grows then do
    bufReset b
    let a ← malloc
    pure (some a)
  else pure b

/-- `ArrowArrayFinishBuildingDefault` gives data buffers without memory some (src/vendor/nanoarrow/nanoarrow.c:2753-2780, `ArrowArrayFinalizeBuffers`). -/
def bufFinalize (b : Option Nat) : H (Option Nat) := bufGrow b b.isNone

def growFrom (grows : Nat → Bool) : Nat → List (Option Nat) → H (List (Option Nat))
  | _, [] => pure []
  | i, b :: bs => do
    let b' ← bufGrow b (grows i)
    let bs' ← growFrom grows (i + 1) bs
    pure (b' :: bs')

/-- Several buffers, some of which grow. -/
def bufsGrow (grows : Nat → Bool) (bs : List (Option Nat)) : H (List (Option Nat)) := growFrom grows 0 bs

/-- Several buffers given memory if they have none. -/
def bufsFinalize : List (Option Nat) → H (List (Option Nat))
  | [] => pure []
  | b :: bs => do
    let b' ← bufFinalize b
    let bs' ← bufsFinalize bs
    pure (b' :: bs')

/-- The same, but for the first, which is a validity buffer. -/
def bufsFinalizeTail : List (Option Nat) → H (List (Option Nat))
  | [] => pure []
  | b :: bs => do
    let bs' ← bufsFinalize bs
    pure (b :: bs')

/-- Several buffers reset. -/
def bufsReset : List (Option Nat) → H Unit
  | [] => pure ()
  | b :: bs => do
    bufReset b
    bufsReset bs

/-- An `ArrowArray` or `ArrowSchema` with a release callback: its own block and its buffers. -/
structure Obj where
  self : Nat
  bufs : List (Option Nat)

/-- The release callback of an array or schema. -/
def Obj.release (o : Obj) : H Unit := do
  bufsReset o.bufs
  free o.self

/-- What is there is reset. -/
def resetOpt {α : Type} (reset : α → H Unit) (x : Option α) : H Unit :=
  match x with
  | none => pure ()
  | some a => reset a

/-! ## The writers of well-known text and binary -/

/-- `struct WKBWriterPrivate`, src/geoarrow/wkb_writer.c:10-26, and `struct WKTWriterPrivate`, src/geoarrow/wkt_writer.c:10-27: block and buffers. -/
structure Serial where
  self : Nat
  validity : Option Nat
  offsets : Option Nat
  values : Option Nat

/-- `GeoArrowWKBWriterInit`, src/geoarrow/wkb_writer.c:183-200, and `GeoArrowWKTWriterInit`, src/geoarrow/wkt_writer.c:273-296 -/
def Serial.init : H Serial := do
  let a ← malloc
  pure ⟨a, none, none, none⟩

/-- The callbacks of the visitor: the three buffers may grow. -/
def Serial.visit (grows : Nat → Bool) (w : Serial) : H Serial := do
  let v ← bufGrow w.validity (grows 0)
  let o ← bufGrow w.offsets (grows 1)
  let d ← bufGrow w.values (grows 2)
  pure { w with validity := v, offsets := o, values := d }

/-- How finishing goes. `tooLong`: the data exceeds 32-bit offsets; `grows`: buffers that grow; `valid`: result of the validation;
`nulls`: whether there were nulls. -/
structure Fin where
  tooLong : Bool
  grows : Nat → Bool
  valid : Code
  nulls : Bool

/-- `GeoArrowWKBWriterFinish`, src/geoarrow/wkb_writer.c:217-238, and `GeoArrowWKTWriterFinish`, src/geoarrow/wkt_writer.c:323-345. The
buffers move to the array, which stays filled when its validation fails. -/
def Serial.finish (f : Fin) (w : Serial) : H ((Code × Option Obj) × Serial) :=
  if f.tooLong then pure ((EOVERFLOW, none), w)
  else do
    let o ← bufGrow w.offsets (w.offsets.isNone || f.grows 0)
    let a ← malloc
    let d ← bufFinalize w.values
    pure ((f.valid, some ⟨a, [w.validity, o, d]⟩), { w with validity := none, offsets := none, values := none })

/-- `GeoArrowWKBWriterReset`, src/geoarrow/wkb_writer.c:240-247, and `GeoArrowWKTWriterReset`, src/geoarrow/wkt_writer.c:347-354 -/
def Serial.reset (w : Serial) : H Unit := do
  bufReset w.validity
  bufReset w.offsets
  bufReset w.values
  free w.self

/-! ## The native writer and its builder -/

/-- `struct BuilderPrivate`, src/geoarrow/builder.c:7-20: block, schema, and the array under construction with its buffers. -/
structure Bld where
  self : Nat
  schema : Nat
  array : Nat
  bufs : List (Option Nat)

/-- `GeoArrowBuilderInitFromType`, src/geoarrow/builder.c:116-122, with `GeoArrowBuilderInitInternal`, 53-114, for a type with `n` buffers.
Types that are not supported are refused before anything is allocated. -/
def Bld.init (n : Nat) : H Bld := do
  let s ← malloc
  let c ← malloc
  let a ← malloc
  pure ⟨s, c, a, List.replicate n none⟩

/-- `GeoArrowBuilderFinish`, src/geoarrow/builder.c:206-288. An array that is not valid stays in the builder. -/
def Bld.finish (f : Fin) (b : Bld) : H ((Code × Option Obj) × Bld) := do
  let bufs ← bufsFinalizeTail b.bufs
  if f.valid ≠ 0 then pure ((f.valid, none), { b with bufs := bufs })
  else do
    let a ← malloc
    pure ((0, some ⟨b.array, bufs⟩), { b with array := a, bufs := List.replicate b.bufs.length none })

/-- `GeoArrowBuilderReset`, src/geoarrow/builder.c:290-305 -/
def Bld.reset (b : Bld) : H Unit := do
  free b.schema
  Obj.release ⟨b.array, b.bufs⟩
  free b.self

/-- `struct GeoArrowNativeWriterPrivate`, src/geoarrow/native_writer.c:10-35: block, builder and bitmap -/
structure Native where
  self : Nat
  bld : Bld
  validity : Option Nat

/-- `GeoArrowNativeWriterInit`, src/geoarrow/native_writer.c:36-74; `refused ≠ 0`: the builder does not support the type. The offset
buffers grow by their first element. -/
def Native.init (n : Nat) (refused : Code) (grows : Nat → Bool) : H (Except Code Native) := do
  let a ← malloc
  if refused ≠ 0 then do
    free a
    pure (.error refused)
  else do
    let b ← Bld.init n
    let bufs ← bufsGrow grows b.bufs
    pure (.ok ⟨a, { b with bufs := bufs }, none⟩)

/-- The callbacks of the visitor: the bitmap and the buffers of the builder may grow. -/
def Native.visit (grows : Nat → Bool) (w : Native) : H Native := do
  let v ← bufGrow w.validity (grows 0)
  let bufs ← growFrom grows 1 w.bld.bufs
  pure { w with validity := v, bld := { w.bld with bufs := bufs } }

/-- `GeoArrowNativeWriterFinish`, src/geoarrow/native_writer.c:112-142. The bitmap is copied to the builder (its first buffer may grow)
and kept for the next array; the offset buffers of the next array grow by their first element. -/
def Native.finish (f : Fin) (w : Native) : H ((Code × Option Obj) × Native) := do
  let bufs ← bufsGrow f.grows w.bld.bufs
  let r ← Bld.finish f { w.bld with bufs := bufs }
  match r.1.2 with
  | none => pure (r.1, { w with bld := r.2 })
  | some o => do
    let bufs' ← bufsGrow f.grows r.2.bufs
    pure ((r.1.1, some o), { w with bld := { r.2 with bufs := bufs' } })

/-- `GeoArrowNativeWriterReset`, src/geoarrow/native_writer.c:76-82 -/
def Native.reset (w : Native) : H Unit := do
  Bld.reset w.bld
  bufReset w.validity
  free w.self

/-! ## Array writers -/

/-- The writer in a `struct GeoArrowArrayWriterPrivate`, src/geoarrow/array_writer.c:7-12 -/
inductive Inner where
  | wkt (w : Serial)
  | wkb (w : Serial)
  | native (w : Native)

/-- An array writer: block and writer -/
structure Writer where
  self : Nat
  inner : Inner

/-- Types of output: well-known text, well-known binary, their large and view versions, and the others, with their number of buffers
and whether the builder refuses them. -/
inductive OutType where
  | wkt
  | wkb
  | large
  | other (n : Nat) (refused : Code)

/-- `GeoArrowArrayWriterInitFromType`, src/geoarrow/array_writer.c:14-52. The block is not freed when the type is not supported. -/
def Writer.init (t : OutType) (grows : Nat → Bool) : H (Except Code Writer) := do
  let a ← malloc
  match t with
  | .large => pure (.error ENOTSUP)
  | .wkt => do
    let w ← Serial.init
    pure (.ok ⟨a, .wkt w⟩)
  | .wkb => do
    let w ← Serial.init
    pure (.ok ⟨a, .wkb w⟩)
  | .other n refused => do
    let r ← Native.init n refused grows
    match r with
    | .error rc => do
      free a
      pure (.error rc)
    | .ok w => pure (.ok ⟨a, .native w⟩)

/-- The visitor made by `GeoArrowArrayWriterInitVisitor`, src/geoarrow/array_writer.c:88-103 -/
def Writer.visit (grows : Nat → Bool) (w : Writer) : H Writer :=
  match w.inner with
  | .wkt s => do
    let s' ← s.visit grows
    pure { w with inner := .wkt s' }
  | .wkb s => do
    let s' ← s.visit grows
    pure { w with inner := .wkb s' }
  | .native s => do
    let s' ← s.visit grows
    pure { w with inner := .native s' }

/-- `GeoArrowArrayWriterFinish`, src/geoarrow/array_writer.c:105-121 -/
def Writer.finish (f : Fin) (w : Writer) : H ((Code × Option Obj) × Writer) :=
  match w.inner with
  | .wkt s => do
    let r ← s.finish f
    pure (r.1, { w with inner := .wkt r.2 })
  | .wkb s => do
    let r ← s.finish f
    pure (r.1, { w with inner := .wkb r.2 })
  | .native s => do
    let r ← s.finish f
    pure (r.1, { w with inner := .native r.2 })

/-- The writer that is there is reset: src/geoarrow/array_writer.c:127-137 -/
def Inner.reset : Inner → H Unit
  | .wkt s => s.reset
  | .wkb s => s.reset
  | .native s => s.reset

/-- `GeoArrowArrayWriterReset`, src/geoarrow/array_writer.c:123-141 -/
def Writer.reset (w : Writer) : H Unit := do
  w.inner.reset
  free w.self

/-! ## Array readers -/

/-- `struct WKBReaderPrivate`, src/geoarrow/wkb_reader.c:12-19, with its geometry (`struct GeoArrowGeometryPrivate`, src/geoarrow/geometry.c:9-14) -/
structure WkbRd where
  self : Nat
  geom : Nat
  nodes : Option Nat
  coords : Option Nat

/-- Which parser the type of an array needs. -/
inductive Parser where
  | none
  | wkb
  | wkt

/-- `struct GeoArrowArrayReaderPrivate`, src/geoarrow/array_reader.c:9-20: block and parsers -/
structure Reader where
  self : Nat
  wkb : Option WkbRd
  wkt : Option Nat

/-- `GeoArrowArrayReaderInitFromSchema`, src/geoarrow/array_reader.c:166-196, with `GeoArrowArrayReaderInitInternal`, 106-142,
`GeoArrowWKBReaderInit`, src/geoarrow/wkb_reader.c:206-227, `GeoArrowWKTReaderInit`, src/geoarrow/wkt_reader.c:490-510 and
`GeoArrowGeometryInit`, src/geoarrow/geometry.c:16-33. `refused`: code for a schema whose type has no array view. -/
def Reader.init (p : Parser) (refused : Code) : H (Except Code Reader) := do
  let a ← malloc
  if refused ≠ 0 then do
    free a
    pure (.error refused)
  else
    match p with
    | .none => pure (.ok ⟨a, none, none⟩)
    | .wkb => do
      let s ← malloc
      let g ← malloc
      pure (.ok ⟨a, some ⟨s, g, none, none⟩, none⟩)
    | .wkt => do
      let s ← malloc
      pure (.ok ⟨a, none, some s⟩)

/-- `GeoArrowArrayReaderVisit`, src/geoarrow/array_reader.c:240-270: the nodes of the parser may grow. -/
def Reader.visit (grows : Nat → Bool) (r : Reader) : H Reader :=
  match r.wkb with
  | none => pure r
  | some w => do
    let n ← bufGrow w.nodes (grows 0)
    let c ← bufGrow w.coords (grows 1)
    pure { r with wkb := some { w with nodes := n, coords := c } }

/-- `GeoArrowWKBReaderReset`, src/geoarrow/wkb_reader.c:229-233, with `GeoArrowGeometryReset`, src/geoarrow/geometry.c:45-52 -/
def WkbRd.reset (w : WkbRd) : H Unit := do
  bufReset w.coords
  bufReset w.nodes
  free w.geom
  free w.self

/-- `GeoArrowArrayReaderReset`, src/geoarrow/array_reader.c:198-213, with `GeoArrowWKTReaderReset`, src/geoarrow/wkt_reader.c:512-514 -/
def Reader.reset (r : Reader) : H Unit := do
  resetOpt WkbRd.reset r.wkb
  bufReset r.wkt
  free r.self

/-! ## Kernels -/

/-- The kernels, by name: `GeoArrowKernelInit`, src/geoarrow/kernel.c:726-755 -/
inductive Kind where
  | void
  | voidAgg
  | visitVoidAgg
  | formatWkt
  | asGeoarrow
  | uniqueTypes
  | box
  | boxAgg
  deriving DecidableEq

/-- `struct GeoArrowVisitorKernelPrivate`, src/geoarrow/kernel.c:119-132: block, reader, writers, and the buffers of `struct GeoArrowBox2DPrivate`, 110-117 -/
structure Priv where
  self : Nat
  reader : Option Reader
  writer : Option Writer
  wkt : Option Serial
  boxes : List (Option Nat)
  validity : Option Nat

/-- A kernel: private data (kernels `void` and `void_agg` have none), and whether `push_batch` visits (set by `start`). -/
structure Kernel where
  kind : Kind
  priv : Option Priv
  visits : Bool

/-- `GeoArrowKernelInit`, src/geoarrow/kernel.c:726-755, with `GeoArrowKernelInitVoid`, 51-57, `GeoArrowKernelInitVoidAgg`, 88-94, and
`GeoArrowInitVisitorKernelInternal`, 662-724 -/
def Kernel.init (k : Kind) : H Kernel :=
  match k with
  | .void | .voidAgg => pure ⟨k, none, false⟩
  | .formatWkt => do
    let a ← malloc
    let w ← Serial.init
    pure ⟨k, some ⟨a, none, none, some w, List.replicate 4 none, none⟩, false⟩
  | _ => do
    let a ← malloc
    pure ⟨k, some ⟨a, none, none, none, List.replicate 4 none, none⟩, false⟩

/-- A schema made for the caller: `ArrowSchemaInitFromType`, `GeoArrowSchemaInitExtension` -/
def schemaInit : H (Option Obj) := do
  let a ← malloc
  pure (some ⟨a, []⟩)

/-- What `start` depends on. `view`: code of `GeoArrowSchemaViewInit`; `parser`, `refused`: of the reader; `args`: code of reading the
options; `out`: output type asked for, with `grows`; `visitor`: code of `GeoArrowArrayWriterInitVisitor`; `metadata`: code of what
depends on the metadata of the schema. -/
structure Start where
  view : Code
  parser : Parser
  refused : Code
  args : Code
  out : OutType
  grows : Nat → Bool
  visitor : Code
  metadata : Code

/-- `finish_start_as_geoarrow`, src/geoarrow/kernel.c:309-341 -/
def startAsGeoarrow (o : Start) (p : Priv) : H ((Code × Option Obj) × Priv) :=
  if o.args ≠ 0 then pure ((o.args, none), p)
  else if p.writer.isSome then pure ((EINVAL, none), p)
  else do
    let r ← Writer.init o.out o.grows
    match r with
    | .error rc => pure ((rc, none), p)
    | .ok w =>
      if o.visitor ≠ 0 then pure ((o.visitor, none), { p with writer := some w })
      else do
        let a ← malloc
        if o.metadata ≠ 0 then do
          free a
          pure ((o.metadata, none), { p with writer := some w })
        else pure ((0, some ⟨a, []⟩), { p with writer := some w })

/-- `private_data->finish_start`: `finish_start_visit_void_agg`, src/geoarrow/kernel.c:256-266, `finish_start_format_wkt`, 273-296,
`finish_start_as_geoarrow`, 309-341, `finish_start_unique_geometry_types_agg`, 411-423, `finish_start_box_agg`, 602-622,
`finish_start_box`, 636-652 with `schema_box`, 470-486 -/
def finishStart (k : Kind) (o : Start) (p : Priv) : H ((Code × Option Obj) × Priv) :=
  match k with
  | .asGeoarrow => startAsGeoarrow o p
  | .formatWkt =>
    if o.args ≠ 0 then pure ((o.args, none), p)
    else do
      let s ← schemaInit
      pure ((0, s), p)
  | .box | .boxAgg =>
    if o.metadata ≠ 0 then pure ((o.metadata, none), p)
    else do
      let s ← schemaInit
      pure ((0, s), p)
  | _ => do
    let s ← schemaInit
    pure ((0, s), p)

/-- `kernel->start`: `kernel_start_void`, src/geoarrow/kernel.c:11-20, and `kernel_visitor_start`, 226-250. A reader made by an earlier
start is forgotten. -/
def Kernel.start (o : Start) (k : Kernel) : H ((Code × Option Obj) × Kernel) :=
  match k.priv with
  | none => do
    let s ← schemaInit
    pure ((0, s), k)
  | some p =>
    if o.view ≠ 0 then pure ((o.view, none), k)
    else do
      let r ← Reader.init o.parser o.refused
      match r with
      | .error rc => pure ((rc, none), k)
      | .ok rd => do
        let s ← finishStart k.kind o { p with reader := some rd }
        pure (s.1, { k with priv := some s.2, visits := true })

/-- The bitmap for the array: src/geoarrow/kernel.c:533-537 -/
def boxBitmap (f : Fin) (p : Priv) : H (Option Nat) :=
  if f.nulls then pure p.validity
  else do
    bufReset p.validity
    pure none

/-- `box_finish`, src/geoarrow/kernel.c:513-550, with `array_box`, 488-497. The buffers move to the array; the bitmap does if there were
nulls, and is freed otherwise. An array that is not valid is released. -/
def boxFinish (f : Fin) (p : Priv) : H ((Code × Option Obj) × Priv) := do
  let a ← malloc
  let v ← boxBitmap f p
  let bufs ← bufsFinalize p.boxes
  let p' := { p with boxes := List.replicate 4 none, validity := none }
  if f.valid ≠ 0 then do
    Obj.release ⟨a, v :: bufs⟩
    pure ((f.valid, none), p')
  else pure ((0, some ⟨a, v :: bufs⟩), p')

/-- What `push_batch` and `finish` depend on. `set`: code of `GeoArrowArrayReaderSetArray`; `nodes`, `grows`: what grows; `visit`: code of
the visit; `fin`: how finishing goes; `out`: whether the caller passed an array. -/
structure Push where
  set : Code
  nodes : Nat → Bool
  grows : Nat → Bool
  visit : Code
  fin : Fin
  out : Bool

/-- What the callbacks of the kernel's visitor do. -/
def visitInto (k : Kind) (grows : Nat → Bool) (p : Priv) : H Priv :=
  match k with
  | .formatWkt =>
    match p.wkt with
    | none => crash
    | some w => do
      let w' ← w.visit grows
      pure { p with wkt := some w' }
  | .asGeoarrow =>
    match p.writer with
    | none => pure p
    | some w => do
      let w' ← w.visit grows
      pure { p with writer := some w' }
  | .box => do
    let v ← bufGrow p.validity (grows 0)
    let bs ← growFrom grows 1 p.boxes
    pure { p with validity := v, boxes := bs }
  | _ => pure p

/-- `private_data->finish_push_batch`: `finish_push_batch_do_nothing`, src/geoarrow/kernel.c:155-163, `finish_push_batch_format_wkt`, 298-302,
`finish_push_batch_as_geoarrow`, 343-347, `finish_push_batch_box`, 654-658 -/
def finishPush (k : Kind) (o : Push) (p : Priv) : H ((Code × Option Obj) × Priv) :=
  match k with
  | .formatWkt =>
    match p.wkt with
    | none => crash
    | some w =>
      if o.out then do
        let r ← w.finish o.fin
        pure (r.1, { p with wkt := some r.2 })
      else crash
  | .asGeoarrow =>
    match p.writer with
    | none => crash
    | some w =>
      if o.out then do
        let r ← w.finish o.fin
        pure (r.1, { p with writer := some r.2 })
      else crash
  | .box => if o.out then boxFinish o.fin p else crash
  | _ => pure ((0, none), p)

/-- An array of the type `na` for the caller, or a null pointer written to: `kernel_push_batch_void`, src/geoarrow/kernel.c:22-34, and
`kernel_finish_void_agg`, 73-86 -/
def giveNa (out : Bool) : H (Code × Option Obj) :=
  if out then do
    let a ← malloc
    pure (0, some ⟨a, []⟩)
  else crash

/-- `kernel->push_batch`: `kernel_push_batch_void`, src/geoarrow/kernel.c:22-34, `kernel_push_batch_void_agg`, 59-71, `kernel_push_batch`, 189-202,
and `kernel_push_batch_by_feature`, 204-224 -/
def Kernel.push (o : Push) (k : Kernel) : H ((Code × Option Obj) × Kernel) :=
  match k.kind, k.priv with
  | .void, _ => do
    let r ← giveNa o.out
    pure (r, k)
  | _, none => pure ((if o.out then EINVAL else 0, none), k)
  | kind, some p =>
    if k.visits then
      match p.reader with
      | none => crash
      | some rd =>
        if o.set ≠ 0 then pure ((o.set, none), k)
        else do
          let rd' ← rd.visit o.nodes
          let p' ← visitInto kind o.grows { p with reader := some rd' }
          if o.visit ≠ 0 then pure ((o.visit, none), { k with priv := some p' })
          else do
            let r ← finishPush kind o p'
            pure (r.1, { k with priv := some r.2 })
    else pure ((if o.out then EINVAL else 0, none), k)

/-- `kernel_finish_unique_geometry_types_agg`, src/geoarrow/kernel.c:425-464 -/
def finishTypes (o : Push) : H (Code × Option Obj) := do
  let a ← malloc
  let d ← bufGrow none true
  if o.fin.valid ≠ 0 then do
    Obj.release ⟨a, [d]⟩
    pure (o.fin.valid, none)
  else if o.out then pure (0, some ⟨a, [d]⟩) else crash

/-- `kernel->finish`: `kernel_finish_void`, src/geoarrow/kernel.c:36-46, `kernel_finish_void_agg`, 73-86,
`kernel_finish_unique_geometry_types_agg`, 425-464, `kernel_finish_box_agg`, 624-632 with `box_flush`, 499-511 -/
def Kernel.finish (o : Push) (k : Kernel) : H ((Code × Option Obj) × Kernel) :=
  match k.kind, k.priv with
  | .voidAgg, _ | .visitVoidAgg, _ => do
    let r ← giveNa o.out
    pure (r, k)
  | .uniqueTypes, _ => do
    let r ← finishTypes o
    pure (r, k)
  | .boxAgg, some p => do
    let bs ← bufsGrow o.grows p.boxes
    if o.out then do
      let r ← boxFinish o.fin { p with boxes := bs }
      pure (r.1, { k with priv := some r.2 })
    else crash
  | _, _ => pure ((if o.out then EINVAL else 0, none), k)

/-- `kernel->release`: `kernel_release_void`, src/geoarrow/kernel.c:49, and `kernel_release_visitor`, 165-187 -/
def Kernel.release (k : Kernel) : H Unit :=
  match k.priv with
  | none => pure ()
  | some p => do
    resetOpt Reader.reset p.reader
    resetOpt Writer.reset p.writer
    resetOpt Serial.reset p.wkt
    bufsReset p.boxes
    bufReset p.validity
    free p.self

end Verif.Life
