import Verif.Model.Kernel
import Verif.Model.NativeWriter
import Verif.Model.Schema
/-!
# `array_writer.c` and the kernels that write arrays

Simplifications: allocation succeeds; error messages are not modelled; `private_data == NULL` is `none`.
-/
namespace Verif

/-! ## The public part of the WKT writer -/

/-- `struct GeoArrowWKTWriter`, src/geoarrow/geoarrow.h:449-468: the options a client may set, and the private part, which
has its own copy of them. -/
structure WktWriter where
  precision : Int
  flat : Bool
  maxSize : Int
  priv : WktW

/-- `GeoArrowWKTWriterInit`, src/geoarrow/wkt_writer.c:273-296 -/
def wktWriterInit (raw : WktW) : WktWriter := ⟨16, true, -1, wktInit raw⟩

/-- `GeoArrowWKTWriterInitVisitor`, src/geoarrow/wkt_writer.c:298-323: the options are copied. -/
def wktWriterInitVisitor (w : WktWriter) : WktWriter := { w with priv := wktInitVisitor w.precision w.flat w.maxSize w.priv }

/-! ## Array writers -/

/-- `struct GeoArrowArrayWriterPrivate`, src/geoarrow/array_writer.c:7-12 -/
structure AWriter where
  native : Option NWriter
  wkt : Option WktWriter
  wkb : Option WkbW
  type : TypeId

/-- The array a writer hands out. Arrays of the WKT and WKB writers are modelled as `BinArray`. -/
inductive AOut where
  | native (a : AArray)
  | bin (a : BinArray)

/-- `GeoArrowArrayWriterInitFromType`, src/geoarrow/array_writer.c:14-52; `rawT` and `rawB` are the contents of the memory
allocated for the WKT or WKB writer. -/
def arrayWriterInit (junk : Nat → Byte) (rawT : WktW) (rawB : WkbW) (type : TypeId) : Except Code AWriter :=
  if type = 100004 ∨ type = 100002 ∨ type = 100006 ∨ type = 100005 then .error ENOTSUP
  else if type = 100003 then .ok ⟨none, some (wktWriterInit rawT), none, type⟩
  else if type = 100001 then .ok ⟨none, none, some (wkbInit rawB), type⟩
  else
    match nwInit junk type with
    | .error rc => .error rc
    | .ok w => .ok ⟨some w, none, none, type⟩

/-- `GeoArrowArrayWriterSetPrecision`, src/geoarrow/array_writer.c:61-73 -/
def arrayWriterSetPrecision (precision : Int) : M AWriter Unit := fun w =>
  if w.type ≠ 100003 ∧ w.type ≠ 100004 then .err EINVAL w
  else match w.wkt with
    | none => .ub
    | some t => .ok () { w with wkt := some { t with precision := precision } }

/-- `GeoArrowArrayWriterSetFlatMultipoint`, src/geoarrow/array_writer.c:75-87 -/
def arrayWriterSetFlatMultipoint (flat : Bool) : M AWriter Unit := fun w =>
  if w.type ≠ 100003 ∧ w.type ≠ 100004 then .err EINVAL w
  else match w.wkt with
    | none => .ub
    | some t => .ok () { w with wkt := some { t with flat := flat } }

/-- A call of the native writer inside an array writer. -/
def onNative {α : Type} (m : M NWriter α) : M AWriter α := fun w =>
  match w.native with
  | none => .ub
  | some n => match m n with
    | .ok a n' => .ok a { w with native := some n' }
    | .err rc n' => .err rc { w with native := some n' }
    | .ub => .ub

/-- A call of the WKT writer inside an array writer. -/
def onWkt {α : Type} (m : M WktW α) : M AWriter α := fun w =>
  match w.wkt with
  | none => .ub
  | some t => match m t.priv with
    | .ok a p => .ok a { w with wkt := some { t with priv := p } }
    | .err rc p => .err rc { w with wkt := some { t with priv := p } }
    | .ub => .ub

/-- A call of the WKB writer inside an array writer. -/
def onWkb {α : Type} (m : M WkbW α) : M AWriter α := fun w =>
  match w.wkb with
  | none => .ub
  | some b => match m b with
    | .ok a b' => .ok a { w with wkb := some b' }
    | .err rc b' => .err rc { w with wkb := some b' }
    | .ub => .ub

/-- `GeoArrowArrayWriterInitVisitor`, src/geoarrow/array_writer.c:89-104: the callbacks. -/
def arrayWriterInitVisitor (junk : Nat → Byte) (print : Nat → Dbl → List Byte) : M AWriter (Handler AWriter) := fun w =>
  if w.type = 100003 then
    match w.wkt with
    | none => .ub
    | some t => .ok (fun e => onWkt (wktHandler print e)) { w with wkt := some (wktWriterInitVisitor t) }
  else if w.type = 100001 then
    match w.wkb with
    | none => .ub
    | some _ => .ok (fun e => onWkb (wkbHandler e)) w
  else
    match w.native with
    | none => .ub
    | some n => match nwInitVisitor junk n with
      | .error rc => .err rc w
      | .ok h => .ok (fun e => onNative (h e)) w

/-- `GeoArrowArrayWriterFinish`, src/geoarrow/array_writer.c:106-120 -/
def arrayWriterFinish (junk : Nat → Byte) : M AWriter AOut := fun w =>
  if w.type = 100003 then (do let a ← onWkt wktFinish; pure (AOut.bin a) : M AWriter AOut) w
  else if w.type = 100001 then (do let a ← onWkb wkbFinish; pure (AOut.bin a) : M AWriter AOut) w
  else (do let a ← onNative (nwFinish junk); pure (AOut.native a) : M AWriter AOut) w

/-! ## Options of kernels -/

/-- C `atoi`: undefined by the standard if the number does not fit an `int`; here the usual conversion of a `long`. -/
def cAtoi (s : List Byte) : Int := toInt32 (strtol s).1

/-- The text in `type_str0`, src/geoarrow/kernel.c:149-151: what comes before a NUL, at most 15 characters. -/
def argText (value : List Byte) : List Byte := (value.takeWhile (· ≠ 0)).take 15

/-- `kernel_get_arg_long`, src/geoarrow/kernel.c:135-154; `none` if the option is absent, then `*out` is left alone. Options are
a list of keys and values. -/
def kernelArg (options : List (List Byte × List Byte)) (key : List Byte) : Option Int :=
  (metadataGet key options).map fun v => cAtoi (argText v)

/-! ## Kernel format_wkt -/

/-- `finish_start_format_wkt`, src/geoarrow/kernel.c:278-298 -/
def formatWktStart (options : List (List Byte × List Byte)) (w : WktWriter) : WktWriter :=
  wktWriterInitVisitor
    { w with precision := (kernelArg options (str "precision")).getD w.precision
             maxSize := (kernelArg options (str "max_element_size_bytes")).getD w.maxSize }

/-- `push_batch` of the kernel, src/geoarrow/kernel.c:205-227, 300-304; the visitor works on the private part of the writer. -/
def formatWktPush (print : Nat → Dbl → List Byte) := kernelPushByFeature (wktHandler print) wktFinish

/-! ## Kernel as_geoarrow -/

/-- `finish_start_as_geoarrow` up to the output schema, src/geoarrow/kernel.c:311-330; `before` is the writer of an earlier
call. A failed `GeoArrowArrayWriterInitVisitor` leaves the writer behind, so that a second call is refused; that writer is not
modelled. -/
def asGeoarrowStart (junk : Nat → Byte) (print : Nat → Dbl → List Byte) (rawT : WktW) (rawB : WkbW)
    (options : List (List Byte × List Byte)) (before : Option AWriter) : Option (Except Code (Handler AWriter × AWriter)) :=
  match kernelArg options (str "type") with
  | none => some (.error EINVAL)
  | some type =>
    if before.isSome then some (.error EINVAL)
    else
      match arrayWriterInit junk rawT rawB type with
      | .error rc => some (.error rc)
      | .ok w =>
        match arrayWriterInitVisitor junk print w with
        | .ok h w => some (.ok (h, w))
        | .err rc _ => some (.error rc)
        | .ub => none

/-- `push_batch` of the kernel, src/geoarrow/kernel.c:190-203, 343-347 -/
def asGeoarrowPush (h : Handler AWriter) (junk : Nat → Byte) := kernelPushBatch h (arrayWriterFinish junk)

/-! ## The output schema -/

/-- `ArrowMetadataBuilderSet` for a key that is present, src/vendor/nanoarrow/nanoarrow.c:2239-2272: the first occurrence gets the
value, further ones are dropped. -/
def metadataReplace (key : List Byte) : Option (List Byte) → List (List Byte × List Byte) → List (List Byte × List Byte)
  | _, [] => []
  | v, (k, x) :: rest =>
    if k = key then
      match v with
      | some v => (key, v) :: metadataReplace key none rest
      | none => metadataReplace key none rest
    else (k, x) :: metadataReplace key v rest

/-- `ArrowMetadataBuilderSet`, src/vendor/nanoarrow/nanoarrow.c:2221-2285 -/
def metadataSet (key value : List Byte) (md : List (List Byte × List Byte)) : List (List Byte × List Byte) :=
  match metadataGet key md with
  | none => md ++ [(key, value)]
  | some _ => metadataReplace key (some value) md

/-- `GeoArrowSchemaSetMetadataFrom`, src/geoarrow/metadata.c:528-545. A source without extension metadata gives the empty text. -/
def schemaSetMetadataFrom (s src : ASchema) : Except Code ASchema :=
  match naInit src with
  | none => .error EINVAL
  | some v => .ok (s.setMetadata (metadataSet (str "ARROW:extension:metadata") (v.extMetadata.getD []) s.metadata))

/-- The output schema of `as_geoarrow`, src/geoarrow/kernel.c:332-340 -/
def asGeoarrowSchema (type : TypeId) (src : ASchema) : Except Code ASchema :=
  match schemaInitExtension type with
  | .error rc => .error rc
  | .ok s => schemaSetMetadataFrom s src

end Verif
