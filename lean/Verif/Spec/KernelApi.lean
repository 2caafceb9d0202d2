import Verif.Model.KernelApi
import Verif.Spec.ArrayWriter
import Verif.Spec.CppDataType
import Verif.Spec.Kernel
/-!
# Specification: kernels from their names to their results

Of the model, only the functions a client calls are used, to say which histories of calls there are and what they return.
-/
namespace Verif.Spec
open Verif

/-- The names of the kernels. -/
def kernelNames : List (List Byte) :=
  [str "void", str "void_agg", str "visit_void_agg", str "format_wkt", str "as_geoarrow", str "unique_geometry_types_agg", str "box", str "box_agg"]

/-- A schema of an extension type with this identifier. -/
def InputType (s : ASchema) (type : Int) : Prop :=
  ∃ ext v, firstValue "ARROW:extension:name" s = some ext ∧ Describes ext s v ∧ v.type = type

/-- The extension metadata, empty if there are none. -/
def extensionMetadata (s : ASchema) : List Byte := (firstValue "ARROW:extension:metadata" s).getD []

/-- A type that as_geoarrow can produce: WKB and WKT with 32-bit offsets, and the native types but boxes. -/
def CanProduce (type : Int) : Prop := type = 100001 ∨ type = 100003 ∨ ∃ g d k, 1 ≤ g ∧ g ≤ 6 ∧ type = nativeId g d k

/-- When `start` succeeds on a new kernel. -/
def Startable (name : List Byte) (s : ASchema) (options : List (List Byte × List Byte)) : Prop :=
  (name = str "void" ∨ name = str "void_agg") ∨
  ((∃ type, InputType s type) ∧
    (name = str "as_geoarrow" → ∃ type, HasNumber options (str "type") type ∧ CanProduce type) ∧
    (name = str "box" ∨ name = str "box_agg" → ∃ w, Views (extensionMetadata s) w ∧ w.edge = 0))

/-- A column of a plain type. -/
def PlainColumn (format : List Byte) (s : ASchema) : Prop :=
  s.format = some format ∧ s.children = [] ∧ s.metadata = [] ∧ s.dictionary = false

/-- The schema of the output. -/
structure OutputSchema (name : List Byte) (s : ASchema) (options : List (List Byte × List Byte)) (out : ASchema) : Prop where
  null : name = str "void" ∨ name = str "void_agg" ∨ name = str "visit_void_agg" → PlainColumn (str "n") out
  text : name = str "format_wkt" → PlainColumn (str "u") out
  int : name = str "unique_geometry_types_agg" → PlainColumn (str "i") out
  as : name = str "as_geoarrow" → ∀ type, HasNumber options (str "type") type →
    InputType out type ∧ extensionMetadata out = extensionMetadata s
  box : name = str "box" ∨ name = str "box_agg" →
    InputType out (boxId .xy) ∧ ∃ w w', Views (extensionMetadata s) w ∧ Views (extensionMetadata out) w' ∧ w'.edge = 0 ∧ w'.crsType = w.crsType ∧
      (w.crsType ≠ 0 → w'.crs = w.crs)

/-! ## Histories -/

/-- Kernels that were started once, successfully, and then used in any way: pushes and finishes, successful or not. -/
inductive KernelOf (parse : List Byte → Option Dbl) (print : Nat → Dbl → List Byte) (name : List Byte) (s : ASchema)
    (options : List (List Byte × List Byte)) : KObj → Prop where
  | start {env env' k0 out k} : kernelInit env name = .ok k0 → kernelStart env' print s options k0 = .ok out k → KernelOf parse print name s options k
  | push {env scratch a w k k'} : KernelOf parse print name s options k → (kernelPush env parse print scratch a w k).state? = some k' →
      KernelOf parse print name s options k'
  | finish {w k k'} : KernelOf parse print name s options k → (kernelFinish w k).state? = some k' → KernelOf parse print name s options k'

/-- Such kernels that were just started or whose last push succeeded. -/
inductive KernelReady (parse : List Byte → Option Dbl) (print : Nat → Dbl → List Byte) (name : List Byte) (s : ASchema)
    (options : List (List Byte × List Byte)) : KObj → Prop where
  | start {env env' k0 out k} : kernelInit env name = .ok k0 → kernelStart env' print s options k0 = .ok out k → KernelReady parse print name s options k
  | push {env scratch a w k o k'} : KernelOf parse print name s options k → kernelPush env parse print scratch a w k = .ok o k' →
      KernelReady parse print name s options k'
  | finish {w k k'} : KernelReady parse print name s options k → (kernelFinish w k).state? = some k' → KernelReady parse print name s options k'

/-- Array readers for the type take the array. -/
def Taken (type : Int) (a : AArray) : Prop := ∀ r, ReaderOf type r → ∃ r', arrayReaderSetArray a r = .ok () r'

/-- From `start` on all pushes have succeeded, and these were they; there may have been calls of `finish` in between. -/
inductive Fed (parse : List Byte → Option Dbl) (print : Nat → Dbl → List Byte) (name : List Byte) (s : ASchema)
    (options : List (List Byte × List Byte)) (kind : ArrayKind) : List Pushed → KObj → Prop where
  | start {env env' k0 out k} : kernelInit env name = .ok k0 → kernelStart env' print s options k0 = .ok out k → Fed parse print name s options kind [] k
  | push {env w ps p k o k'} : Fed parse print name s options kind ps k → kind.Features parse p.array p.features →
      kernelPush env parse print p.scratch p.array w k = .ok o k' → Fed parse print name s options kind (ps ++ [p]) k'
  | finish {w ps k k'} : Fed parse print name s options kind ps k → (kernelFinish w k).state? = some k' → Fed parse print name s options kind ps k'

/-- An array of nulls. -/
def AllNull (a : AArray) (n : Int) : Prop := a.length = n ∧ a.nullCount = n ∧ a.offset = 0 ∧ a.buffers = [] ∧ a.children = []

end Verif.Spec
