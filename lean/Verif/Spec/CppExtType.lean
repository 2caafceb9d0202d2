import Verif.Model.CppExtType
import Verif.Spec.CppDataType
/-!
# Specification: extension types of Arrow C++
-/
namespace Verif.Spec
open Verif

variable {T : Type}

/-- What is assumed of Arrow C++: a data type it has imported from a schema is exported as a schema that is viewed alike; data types equal
themselves; equal data types are exported as schemas that are viewed alike. -/
structure Faithful (L : ArrowLib T) : Prop where
  kept : ∀ {s x}, L.importType s = some x → ∀ ext v, schemaViewInitFromStorage (L.exportType x) ext v = schemaViewInitFromStorage s ext v
  refl : ∀ x, L.equals x x = true
  alike : ∀ {x y}, L.equals x y = true → ∀ ext v, schemaViewInitFromStorage (L.exportType x) ext v = schemaViewInitFromStorage (L.exportType y) ext v

/-- A name of a GeoArrow type. -/
def IsExtensionName (name : List Byte) : Prop := ∃ t nm, t ∈ nativeTypes ++ serializedTypes ∧ extensionNameFromType t = some nm ∧ name = str nm

/-- The extension types a client can get, but for those of `WithGeometryType`, `WithCoordType` and `WithDimensions`. `Deserialize` is called on
objects that have the name of a GeoArrow type. -/
inductive ExtObtained (L : ArrowLib T) : ExtType T → Prop where
  | data {n d metadata e} : extMakeData L n d metadata = .ok e → ExtObtained L e
  | type {n type metadata e} : extMakeType L n type metadata = .ok e → ExtObtained L e
  | parts {n g dims c metadata e} : extMakeParts L n g dims c metadata = .ok e → ExtObtained L e
  | deserialize {n name x metadata e} : IsExtensionName name → HasFormats (L.exportType x) → SizesFit (L.exportType x) →
      extDeserialize L n name x metadata = .ok e → ExtObtained L e
  | withEdgeType {e edge e'} : ExtObtained L e → 0 ≤ edge ∧ edge ≤ 5 → extWithEdgeType edge e = .ok e' → ExtObtained L e'
  | withCrs {e crs t e'} : ExtObtained L e → StorableCrs crs → 0 ≤ t ∧ t ≤ 5 → extWithCrs crs t e = .ok e' → ExtObtained L e'

/-- Viewed with the name of the extension type, its storage type is of the GeoArrow type that the extension type says it is. -/
def StoredAsSaid (L : ArrowLib T) (e : ExtType T) : Prop :=
  ∃ v, schemaViewInitFromStorage (L.exportType e.storage) e.name svZero = .ok () v ∧ v.type = e.type.type

/-- A call returns this, once the loops may make enough turns. -/
def ExtGives {α : Type} (call : Nat → ExtRes α) (a : α) : Prop := ∃ n0, ∀ n, n0 ≤ n → call n = .ok a

end Verif.Spec
