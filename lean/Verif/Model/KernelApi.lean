import Verif.Model.CppDataType
/-!
# `kernel.c`: the kernel as a client sees it

The object made by `GeoArrowKernelInit` and its members `start`, `push_batch` and `finish`. Simplifications: allocation succeeds; error
messages are not modelled; options are a list of keys and values; a null `out` where the code stores a result counts as undefined
behaviour from the start of the call; viewing metadata without end counts as undefined behaviour; memory that a second `start` loses
is not modelled, nor is `release`.
-/
namespace Verif

/-- The kernels, src/geoarrow/kernel.c:729-754 -/
inductive KName where
  | void | voidAgg | visitVoidAgg | formatWkt | asGeoarrow | uniqueTypesAgg | box | boxAgg
  deriving DecidableEq, Repr

/-- The comparisons of `GeoArrowKernelInit`, src/geoarrow/kernel.c:733-753; `strcmp` on texts without NUL. -/
def kernelNamed (name : List Byte) : Option KName :=
  if name = str "void" then some .void
  else if name = str "void_agg" then some .voidAgg
  else if name = str "visit_void_agg" then some .visitVoidAgg
  else if name = str "format_wkt" then some .formatWkt
  else if name = str "as_geoarrow" then some .asGeoarrow
  else if name = str "unique_geometry_types_agg" then some .uniqueTypesAgg
  else if name = str "box" then some .box
  else if name = str "box_agg" then some .boxAgg
  else none

/-- What the code depends on besides its arguments: contents of allocated memory, and the byte behind the metadata of a schema. -/
structure KEnv where
  junk : Nat → Byte
  heap : Nat → Byte
  rawT : WktW
  rawB : WkbW
  after : Option Byte

/-- `struct GeoArrowKernel` and `struct GeoArrowVisitorKernelPrivate`, src/geoarrow/kernel.c:120-133. `reader` is `none` until
`start` has made one; until then `push_batch` is that of void_agg. `visitor` is what as_geoarrow put into `v`; the other kernels put
the same into `v` whenever `start` has made a reader. -/
structure KObj where
  name : KName
  reader : Option AReader
  writer : Option AWriter
  visitor : Option (Handler AWriter)
  wkt : WktWriter
  types : TypesS
  box : BoxS

/-- `GeoArrowKernelInit`, src/geoarrow/kernel.c:669-754 -/
def kernelInit (env : KEnv) (name : List Byte) : Except Code KObj :=
  match kernelNamed name with
  | none => .error ENOTSUP
  | some n =>
    .ok { name := n, reader := none, writer := none, visitor := none, wkt := wktWriterInit env.rawT, types := typesZero, box := boxZero }

/-! ## start -/

/-- `schema_box`, src/geoarrow/kernel.c:473-488 -/
def schemaBox (env : KEnv) (metadata : Option (List Byte)) : M KObj ASchema :=
  match metadataViewInit env.after ((metadata.getD []).length + 1) (metadata.getD []) with
  | .err => M.fail EINVAL
  | .oob => M.undef
  | .stuck => M.undef
  | .ok w _ =>
    if w.edge ≠ 0 then M.fail EINVAL
    else
      match schemaInitExtension 990 with
      | .error rc => M.fail rc
      | .ok s =>
        match schemaSetMetadata env.heap s w with
        | none => M.undef
        | some s' => pure s'

/-- `finish_start_as_geoarrow`, src/geoarrow/kernel.c:311-341 -/
def asGeoarrowFinishStart (env : KEnv) (print : Nat → Dbl → List Byte) (schema : ASchema) (options : List (List Byte × List Byte)) : M KObj ASchema := fun k =>
  match kernelArg options (str "type") with
  | none => .err EINVAL k
  | some type =>
    if k.writer.isSome then .err EINVAL k
    else
      match arrayWriterInit env.junk env.rawT env.rawB type with
      | .error rc => .err rc k
      | .ok w =>
        match arrayWriterInitVisitor env.junk print w with
        | .ub => .ub
        | .err rc w => .err rc { k with writer := some w }
        | .ok h w =>
          match asGeoarrowSchema type schema with
          | .error rc => .err rc { k with writer := some w, visitor := some h }
          | .ok out => .ok out { k with writer := some w, visitor := some h }

/-- The members `finish_start`, src/geoarrow/kernel.c:261-298, 409-421, 614-633, 645-661; `v` is the view of the schema. -/
def kernelFinishStart (env : KEnv) (print : Nat → Dbl → List Byte) (schema : ASchema) (v : SView) (options : List (List Byte × List Byte)) : M KObj ASchema := do
  let k ← M.get
  match k.name with
  | .visitVoidAgg => pure (schemaPlain (str "n"))
  | .formatWkt => do
    M.modify fun k => { k with wkt := formatWktStart options k.wkt }
    pure (schemaPlain (str "u"))
  | .asGeoarrow => asGeoarrowFinishStart env print schema options
  | .uniqueTypesAgg => pure (schemaPlain (str "i"))
  | .box => schemaBox env v.extMetadata
  | .boxAgg => do
    M.modify fun k => { k with box := { k.box with maxX := Dbl.negInf, maxY := Dbl.negInf, minX := Dbl.inf, minY := Dbl.inf, featNull := false } }
    schemaBox env v.extMetadata
  | .void => M.undef
  | .voidAgg => M.undef

/-- `start`: `kernel_start_void` and `kernel_visitor_start`, src/geoarrow/kernel.c:12-21, 229-253 -/
def kernelStart (env : KEnv) (print : Nat → Dbl → List Byte) (schema : ASchema) (options : List (List Byte × List Byte)) : M KObj ASchema := fun k =>
  if k.name = .void ∨ k.name = .voidAgg then .ok (schemaPlain (str "n")) k
  else
    match schemaViewInit schema svZero with
    | .ub => .ub
    | .err rc _ => .err rc k
    | .ok _ v =>
      if v.type = 0 then .err EINVAL k
      else
        match arrayReaderInitFromSchema schema with
        | none => .err EINVAL k
        | some r => kernelFinishStart env print schema v options { k with reader := some r }

/-! ## push_batch -/

/-- The visitor of `GeoArrowVisitorInitVoid`, src/geoarrow/visitor.c:5-64 -/
def voidHandler {σ : Type} : Handler σ := fun _ => pure ()

/-- An array of nulls, src/geoarrow/kernel.c:29-32, 80-83 -/
def naArray (n : Int) : AArray := .mk n n 0 [] []

/-- Run a program on the reader and a part of the private data. -/
def onPart {σ α : Type} (r : AReader) (part : σ) (put : σ → KObj → KObj) (m : M (Kernel σ) α) : M KObj α := fun k =>
  match m ⟨r, part⟩ with
  | .ok a k' => .ok a (put k'.vis { k with reader := some k'.reader })
  | .err rc k' => .err rc (put k'.vis { k with reader := some k'.reader })
  | .ub => .ub

/-- `push_batch` of as_geoarrow when its visitor was not set, since `start` failed: `GeoArrowArrayWriterFinish` on a writer that does
not exist is undefined. -/
def asGeoarrowPushAny (env : KEnv) (parse : List Byte → Option Dbl) (scratch : Int → WktR × WkbR) (a : AArray) (r : AReader) : M KObj AOut := fun k =>
  match k.writer with
  | none => onPart r () (fun _ k => k) (kernelPushBatch voidHandler M.undef parse scratch a) k
  | some w =>
    onPart r w (fun w k => { k with writer := some w }) (asGeoarrowPush (k.visitor.getD voidHandler) env.junk parse scratch a) k

/-- `push_batch`, src/geoarrow/kernel.c:23-35, 59-72, 190-227; `wantOut` if `out` is not null. The result is what is stored in `out`,
if anything. -/
def kernelPush (env : KEnv) (parse : List Byte → Option Dbl) (print : Nat → Dbl → List Byte) (scratch : Int → WktR × WkbR) (a : AArray)
    (wantOut : Bool) : M KObj (Option AOut) := fun k =>
  match k.name with
  | .void => if wantOut then .ok (some (.native (naArray a.length))) k else .ub
  | .voidAgg => if wantOut then .err EINVAL k else .ok none k
  | name =>
    match k.reader with
    | none => if wantOut then .err EINVAL k else .ok none k
    | some r =>
      match name with
      | .formatWkt =>
        if wantOut then
          (do let b ← onPart r k.wkt.priv (fun p k => { k with wkt := { k.wkt with priv := p } }) (formatWktPush print parse scratch a)
              pure (some (AOut.bin b)) : M KObj (Option AOut)) k
        else .ub
      | .asGeoarrow =>
        if wantOut then (do let o ← asGeoarrowPushAny env parse scratch a r; pure (some o) : M KObj (Option AOut)) k else .ub
      | .uniqueTypesAgg =>
        (do onPart r k.types (fun s k => { k with types := s }) (typesPush parse scratch a); pure none : M KObj (Option AOut)) k
      | .box =>
        if wantOut then
          (do let b ← onPart r k.box (fun s k => { k with box := s }) (boxPush env.junk parse scratch a)
              pure (some (AOut.native b)) : M KObj (Option AOut)) k
        else .ub
      | .boxAgg =>
        (do onPart r k.box (fun s k => { k with box := s }) (boxAggPush parse scratch a); pure none : M KObj (Option AOut)) k
      | _ =>
        (do onPart r () (fun _ k => k) (kernelPushBatch voidHandler (pure ()) parse scratch a); pure none : M KObj (Option AOut)) k

/-! ## finish -/

/-- `finish`, src/geoarrow/kernel.c:37-47, 74-86, 423-466, 635-643 -/
def kernelFinish (wantOut : Bool) : M KObj (Option AOut) := fun k =>
  match k.name with
  | .void => if wantOut then .err EINVAL k else .ok none k
  | .formatWkt => if wantOut then .err EINVAL k else .ok none k
  | .asGeoarrow => if wantOut then .err EINVAL k else .ok none k
  | .box => if wantOut then .err EINVAL k else .ok none k
  | .voidAgg => if wantOut then .ok (some (.native (naArray 1))) k else .ub
  | .visitVoidAgg => if wantOut then .ok (some (.native (naArray 1))) k else .ub
  | .uniqueTypesAgg =>
    if wantOut then
      match typesFinish ⟨k.reader.getD (AReader.zero 0), k.types⟩ with
      | .ok a k' => .ok (some (.native a)) { k with types := k'.vis }
      | .err rc k' => .err rc { k with types := k'.vis }
      | .ub => .ub
    else .ub
  | .boxAgg =>
    if wantOut then
      match boxAggFinish ⟨k.reader.getD (AReader.zero 0), k.box⟩ with
      | .ok a k' => .ok (some (.native a)) { k with box := k'.vis }
      | .err rc k' => .err rc { k with box := k'.vis }
      | .ub => .ub
    else .ub

end Verif
