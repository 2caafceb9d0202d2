import Verif.Model.CppDataType
import Verif.Spec.Metadata
import Verif.Spec.Schema
import Verif.Spec.TypeIds
/-!
# Specification: the data types of the C++ API

Of the model, only the functions a client calls are used, to say what they return.
-/
namespace Verif.Spec
open Verif

/-- A CRS that can be stored: an object or a string of JSON, or a text that begins like neither and has no backslash. -/
def StorableCrs (crs : List Byte) : Prop :=
  ((crs.head? = some 123 ∨ crs.head? = some 34) ∧ Json .value crs) ∨ (crs.head? ≠ some 123 ∧ crs.head? ≠ some 34 ∧ (92 : Byte) ∉ crs)

/-- The data types a client can get: from a type identifier (or parts, which is the same) and any metadata text, from a schema, from a
storage schema, and from other data types. `With...` functions that start from parts are covered by the first case. -/
inductive Obtained : DType → Prop where
  | type {n type metadata d} : dtMakeType n type metadata = .ok d → Obtained d
  | schema {after n s d} : HasFormats s → SizesFit s → dtMakeSchema after n s = .ok d → Obtained d
  | storage {n s ext metadata d} : HasFormats s → SizesFit s → dtMakeStorage n s ext metadata = .ok d → Obtained d
  | withEdgeType {d e} : Obtained d → 0 ≤ e ∧ e ≤ 5 → Obtained (dtWithEdgeType e d)
  | withCrs {d crs t} : Obtained d → StorableCrs crs → 0 ≤ t ∧ t ≤ 5 → Obtained (dtWithCrs crs t d)
  | withCrsLonLat {d} : Obtained d → Obtained (dtWithCrsLonLat d)

/-- A call returns this, once the loops may make enough turns. -/
def Gives {α : Type} (call : Nat → CppRes α) (a : α) : Prop := ∃ n0, ∀ n, n0 ≤ n → call n = .ok a

/-- A call throws an exception. -/
def Throws {α : Type} (call : Nat → CppRes α) : Prop := ∃ n0, ∀ n, n0 ≤ n → call n = .throws

/-- The CRS a client is told. -/
def CrsIs (d : DType) (text : List Byte) : Prop := ∀ heap, dtCrs heap d = .ok text

/-- The same edge type and CRS type, and the same CRS if the type says that there is one. -/
def SameMetadata (d d' : DType) : Prop :=
  d'.md.edge = d.md.edge ∧ d'.md.crsType = d.md.crsType ∧ (d.md.crsType ≠ 0 → ∃ text, CrsIs d text ∧ CrsIs d' text)

/-- The type identifier and the parts. -/
def HasParts (d : DType) (type g dims c : Int) : Prop := d.type = type ∧ d.geometryType = g ∧ d.dimensions = dims ∧ d.coordType = c

end Verif.Spec
