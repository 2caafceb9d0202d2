import Verif.Model.CppDataType
/-!
# `hpp/arrow_extension_type.hpp`: GeoArrow types as extension types of Arrow C++

Simplifications: an object is a value (sharing it and copying it are not modelled); texts of exceptions and of status are not modelled;
`ToString` (lines 79-82) and `MakeArray` (lines 84-87) are not modelled. Arrow C++ is not part of the project: its data types and what it
does with schemas are parameters.
-/
namespace Verif

/-- What is used of Arrow C++: data types (`T`), `ImportType`, `ExportType` and `DataType::Equals`. -/
structure ArrowLib (T : Type) where
  importType : ASchema → Option T
  exportType : T → ASchema
  equals : T → T → Bool

/-- A function of type `arrow::Result` returns a value or a failure, throws an exception, does not return, or does something undefined. -/
inductive ExtRes (α : Type) where
  | ok (a : α)
  | fails
  | throws
  | hangs
  | ub
  deriving DecidableEq, Repr

/-- `try { ... } catch (Exception& e) { return Status::Invalid(...) }`, src/geoarrow/hpp/arrow_extension_type.hpp:21-28, 33-38, 43-51, 95-101 -/
def ExtRes.caught {α : Type} (r : CppRes α) : ExtRes α :=
  match r with
  | .ok a => .ok a
  | .throws => .fails
  | .hangs => .hangs
  | .ub => .ub

/-- No `try`, src/geoarrow/hpp/arrow_extension_type.hpp:108-131 -/
def ExtRes.uncaught {α : Type} (r : CppRes α) : ExtRes α :=
  match r with
  | .ok a => .ok a
  | .throws => .throws
  | .hangs => .hangs
  | .ub => .ub

def ExtRes.bind {α β : Type} (r : ExtRes α) (f : α → ExtRes β) : ExtRes β :=
  match r with
  | .ok a => f a
  | .fails => .fails
  | .throws => .throws
  | .hangs => .hangs
  | .ub => .ub

/-- `class GeometryExtensionType`, src/geoarrow/hpp/arrow_extension_type.hpp:12, 134-135, 149-153: the storage type, `type_` and
`extension_name_`. -/
structure ExtType (T : Type) where
  storage : T
  type : DType
  name : List Byte

variable {T : Type}

/-- `FromStorageAndType` and the constructor, src/geoarrow/hpp/arrow_extension_type.hpp:137-142, 149-153 -/
def extFromStorageAndType (x : T) (d : DType) : CppRes (ExtType T) := (dtExtensionName d).bind fun name => .ok ⟨x, d, name⟩

/-- `Make` from a data type, src/geoarrow/hpp/arrow_extension_type.hpp:41-52. Of the data type, only `id()` is used. -/
def extMakeData (L : ArrowLib T) (n : Nat) (d : DType) (metadata : List Byte) : ExtRes (ExtType T) :=
  (ExtRes.caught (dtMakeType n d.type metadata)).bind fun d =>
  (ExtRes.caught (dtInitStorageSchema d)).bind fun s =>
  match L.importType s with
  | none => .fails
  | some x => .caught (extFromStorageAndType x d)

/-- `Make` from a type identifier, src/geoarrow/hpp/arrow_extension_type.hpp:31-39 -/
def extMakeType (L : ArrowLib T) (n : Nat) (type : TypeId) (metadata : List Byte) : ExtRes (ExtType T) :=
  (ExtRes.caught (dtMakeType n type [])).bind fun d => extMakeData L n d metadata

/-- `Make` from parts, src/geoarrow/hpp/arrow_extension_type.hpp:16-29 -/
def extMakeParts (L : ArrowLib T) (n : Nat) (g dims c : Int) (metadata : List Byte) : ExtRes (ExtType T) :=
  (ExtRes.caught (dtMakeParts n g dims c metadata)).bind fun d => extMakeData L n d metadata

/-- `Serialize`, src/geoarrow/hpp/arrow_extension_type.hpp:104 -/
def extSerialize (heap : Nat → Byte) (e : ExtType T) : CppRes (List Byte) := dtExtensionMetadata heap e.type

/-- `Deserialize` of an object with this `extension_name_`, src/geoarrow/hpp/arrow_extension_type.hpp:89-102; `ExportType` succeeds. -/
def extDeserialize (L : ArrowLib T) (n : Nat) (name : List Byte) (x : T) (metadata : List Byte) : ExtRes (ExtType T) :=
  ExtRes.caught ((dtMakeStorage n (L.exportType x) name metadata).bind fun d => extFromStorageAndType x d)

/-- `ExtensionEquals`, src/geoarrow/hpp/arrow_extension_type.hpp:73-77 -/
def extEquals (L : ArrowLib T) (heap : Nat → Byte) (e e' : ExtType T) : CppRes Bool :=
  if e.name = e'.name then
    (extSerialize heap e).bind fun a =>
    (extSerialize heap e').bind fun b => .ok (decide (a = b) && L.equals e.storage e'.storage)
  else .ok false

/-- `WithGeometryType`, src/geoarrow/hpp/arrow_extension_type.hpp:108-111 -/
def extWithGeometryType (heap : Nat → Byte) (n : Nat) (g : Int) (e : ExtType T) : ExtRes (ExtType T) :=
  ExtRes.uncaught ((dtWithGeometryType heap n g e.type).bind fun d => extFromStorageAndType e.storage d)

/-- `WithCoordType`, src/geoarrow/hpp/arrow_extension_type.hpp:113-116 -/
def extWithCoordType (heap : Nat → Byte) (n : Nat) (c : Int) (e : ExtType T) : ExtRes (ExtType T) :=
  ExtRes.uncaught ((dtWithCoordType heap n c e.type).bind fun d => extFromStorageAndType e.storage d)

/-- `WithDimensions`, src/geoarrow/hpp/arrow_extension_type.hpp:118-121 -/
def extWithDimensions (heap : Nat → Byte) (n : Nat) (dims : Int) (e : ExtType T) : ExtRes (ExtType T) :=
  ExtRes.uncaught ((dtWithDimensions heap n dims e.type).bind fun d => extFromStorageAndType e.storage d)

/-- `WithEdgeType`, src/geoarrow/hpp/arrow_extension_type.hpp:123-126 -/
def extWithEdgeType (edge : Int) (e : ExtType T) : ExtRes (ExtType T) :=
  ExtRes.uncaught (extFromStorageAndType e.storage (dtWithEdgeType edge e.type))

/-- `WithCrs`, src/geoarrow/hpp/arrow_extension_type.hpp:128-131 -/
def extWithCrs (crs : List Byte) (t : Int) (e : ExtType T) : ExtRes (ExtType T) :=
  ExtRes.uncaught (extFromStorageAndType e.storage (dtWithCrs crs t e.type))

/-- `all_ext_names`, src/geoarrow/hpp/arrow_extension_type.hpp:160-164 -/
def extAllNames : List (List Byte) :=
  [str "geoarrow.wkb", str "geoarrow.point", str "geoarrow.linestring", str "geoarrow.polygon", str "geoarrow.multipoint",
    str "geoarrow.multilinestring", str "geoarrow.multipolygon"]

/-- `RegisterAll`, src/geoarrow/hpp/arrow_extension_type.hpp:54-61, 144-147, 155-158: the names for which Arrow C++ will call `Deserialize`;
`false` if a name is registered already, which `RegisterExtensionType` rejects. Names before the rejected one stay registered. -/
def extRegister : List (List Byte) → List (List Byte) → List (List Byte) × Bool
  | registry, [] => (registry, true)
  | registry, name :: names => if name ∈ registry then (registry, false) else extRegister (registry ++ [name]) names

/-- `RegisterAll` -/
def extRegisterAll (registry : List (List Byte)) : List (List Byte) × Bool := extRegister registry extAllNames

/-- `UnregisterAll`, src/geoarrow/hpp/arrow_extension_type.hpp:63-69; `UnregisterExtensionType` rejects names that are not registered. -/
def extUnregister : List (List Byte) → List (List Byte) → List (List Byte) × Bool
  | registry, [] => (registry, true)
  | registry, name :: names => if name ∈ registry then extUnregister (registry.filter (· ≠ name)) names else (registry, false)

/-- `UnregisterAll` -/
def extUnregisterAll (registry : List (List Byte)) : List (List Byte) × Bool := extUnregister registry extAllNames

/-- What Arrow C++ does with a field that has an extension name and metadata: if the name is registered, `Deserialize` of the registered
object gives the type; otherwise the type is the storage type. -/
def extImport (L : ArrowLib T) (n : Nat) (registry : List (List Byte)) (x : T) (name metadata : List Byte) : ExtRes (T ⊕ ExtType T) :=
  if name ∈ registry then (extDeserialize L n name x metadata).bind fun e => .ok (.inr e) else .ok (.inl x)

end Verif
