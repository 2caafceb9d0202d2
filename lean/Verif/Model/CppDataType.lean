import Verif.Model.ArrayWriter
import Verif.Model.Metadata
/-!
# `hpp/geometry_data_type.hpp`: the class `GeometryDataType`, and storing metadata in a schema

Simplifications: allocation succeeds; the texts of exceptions are not modelled; an object is a value, so that copying and moving it are
not modelled (the copy keeps its own CRS string); of `schema_view_` the four members are modelled that the constructor copies.
`heap` is what allocated memory holds before it is written to. `n` is the number of loop turns after which the model of the metadata
parser gives up.
-/
namespace Verif

/-- A call returns, throws an exception, does not return, or does something undefined. -/
inductive CppRes (α : Type) where
  | ok (a : α)
  | throws
  | hangs
  | ub
  deriving DecidableEq, Repr

def CppRes.bind {α β : Type} (r : CppRes α) (f : α → CppRes β) : CppRes β :=
  match r with
  | .ok a => f a
  | .throws => .throws
  | .hangs => .hangs
  | .ub => .ub

/-- `GEOARROW_THROW_NOT_OK` around a function that parses metadata, src/geoarrow/hpp/exception.hpp -/
def CppRes.ofParse (r : PRes MdView) : CppRes MdView :=
  match r with
  | .ok w _ => .ok w
  | .err => .throws
  | .oob => .ub
  | .stuck => .hangs

/-- `GEOARROW_THROW_NOT_OK` around a function that views a schema -/
def CppRes.ofView (r : Res SView Unit) : CppRes SView :=
  match r with
  | .ok _ v => .ok v
  | .err _ _ => .throws
  | .ub => .ub

/-- So much memory as it was allocated. -/
def heapBytes (heap : Nat → Byte) (n : Nat) : List Byte := (List.range n).map heap

/-- The value stored by `GeoArrowSchemaSetMetadataInternal`, src/geoarrow/metadata.c:473-480, 489-491: memory of the calculated size,
serialised into. -/
def mdAlloc (heap : Nat → Byte) (w : MdView) : Option (List Byte) := writeAt (heapBytes heap (mdSize w)) 0 (mdBytes w)

/-- `GeoArrowSchemaSetMetadata`, src/geoarrow/metadata.c:471-504, 523-526; `none` if memory is overrun. -/
def schemaSetMetadata (heap : Nat → Byte) (s : ASchema) (w : MdView) : Option ASchema :=
  (mdAlloc heap w).map fun text => s.setMetadata (metadataSet (str "ARROW:extension:metadata") text s.metadata)

/-- `kCrsWgs84`, src/geoarrow/metadata.c:590-617 -/
def crsWgs84 : List Byte :=
  str "{\"type\":\"GeographicCRS\",\"name\":\"WGS 84 (CRS84)\",\"datum_ensemble\":{\"name\":\"World Geodetic System 1984 " ++
  str "ensemble\",\"members\":[{\"name\":\"World Geodetic System 1984 (Transit)\",\"id\":{\"authority\":\"EPSG\",\"code\":1166}},{\"name\":\"World " ++
  str "Geodetic System 1984 (G730)\",\"id\":{\"authority\":\"EPSG\",\"code\":1152}},{\"name\":\"World Geodetic System 1984 " ++
  str "(G873)\",\"id\":{\"authority\":\"EPSG\",\"code\":1153}},{\"name\":\"World Geodetic System 1984 " ++
  str "(G1150)\",\"id\":{\"authority\":\"EPSG\",\"code\":1154}},{\"name\":\"World Geodetic System 1984 " ++
  str "(G1674)\",\"id\":{\"authority\":\"EPSG\",\"code\":1155}},{\"name\":\"World Geodetic System 1984 " ++
  str "(G1762)\",\"id\":{\"authority\":\"EPSG\",\"code\":1156}},{\"name\":\"World Geodetic System 1984 " ++
  str "(G2139)\",\"id\":{\"authority\":\"EPSG\",\"code\":1309}}],\"ellipsoid\":{\"name\":\"WGS " ++
  str "84\",\"semi_major_axis\":6378137,\"inverse_flattening\":298.257223563},\"accuracy\":" ++
  str "\"2.0\",\"id\":{\"authority\":\"EPSG\",\"code\":6326}},\"coordinate_system\":{\"subtype\":\"ellipsoidal\",\"axis\":[{\"name\":\"Geodetic " ++
  str "longitude\",\"abbreviation\":\"Lon\",\"direction\":\"east\",\"unit\":\"degree\"},{\"name\":\"Geodetic " ++
  str "latitude\",\"abbreviation\":\"Lat\",\"direction\":\"north\",\"unit\":\"degree\"}]},\"scope\":\"Not " ++
  str "known.\",\"area\":\"World.\",\"bbox\":{\"south_latitude\":-90,\"west_longitude\":-" ++
  str "180,\"north_latitude\":90,\"east_longitude\":180},\"id\":{\"authority\":\"OGC\",\"code\":\"CRS84\"}}"

/-- `GeoArrowMetadataSetLonLat`, src/geoarrow/metadata.c:619-623 -/
def metadataSetLonLat (w : MdView) : MdView := { w with crs := crsWgs84, crsType := 2 }

/-! ## The class -/

/-- `class GeometryDataType`, src/geoarrow/hpp/geometry_data_type.hpp:14, 340-342; `md.crs` is the member `crs_`. -/
structure DType where
  type : TypeId
  geometryType : Int
  dimensions : Int
  coordType : Int
  md : MdView
  deriving DecidableEq, Repr

/-- The private constructor, src/geoarrow/hpp/geometry_data_type.hpp:344-356 -/
def DType.new (v : SView) (w : MdView) : DType := ⟨v.type, v.geometryType, v.dimensions, v.coordType, w⟩

/-- A zeroed view. -/
def svZero : SView := ⟨none, none, 0, 0, 0, 0⟩

/-- `Make` from a type identifier, src/geoarrow/hpp/geometry_data_type.hpp:72-91. `std::string` has a NUL behind the text. -/
def dtMakeType (n : Nat) (type : TypeId) (metadata : List Byte) : CppRes DType :=
  if type = 0 then .throws
  else
    (CppRes.ofView (schemaViewInitFromType type svZero)).bind fun v =>
    (CppRes.ofParse (metadataViewInit (some 0) n metadata)).bind fun w => .ok (.new v w)

/-- `Make` from the parts, src/geoarrow/hpp/geometry_data_type.hpp:53-68 -/
def dtMakeParts (n : Nat) (geometryType dimensions coordType : Int) (metadata : List Byte) : CppRes DType :=
  let type := makeType geometryType dimensions coordType
  if type = 0 then .throws else dtMakeType n type metadata

/-- `Make` from an extension schema, src/geoarrow/hpp/geometry_data_type.hpp:96-107; `after` is the byte behind the metadata. -/
def dtMakeSchema (after : Option Byte) (n : Nat) (s : ASchema) : CppRes DType :=
  (CppRes.ofView (schemaViewInit s svZero)).bind fun v =>
  (CppRes.ofParse (metadataViewInit after n (v.extMetadata.getD []))).bind fun w => .ok (.new v w)

/-- `Make` from a storage schema, src/geoarrow/hpp/geometry_data_type.hpp:113-131 -/
def dtMakeStorage (n : Nat) (s : ASchema) (extName metadata : List Byte) : CppRes DType :=
  (CppRes.ofView (schemaViewInitFromStorage s extName svZero)).bind fun v =>
  (CppRes.ofParse (metadataViewInit (some 0) n metadata)).bind fun w => .ok (.new v w)

/-- `extension_metadata`, src/geoarrow/hpp/geometry_data_type.hpp:233-240 -/
def dtExtensionMetadata (heap : Nat → Byte) (d : DType) : CppRes (List Byte) :=
  match mdSerialize d.md [] 0 with
  | none => .ub
  | some (_, size) =>
    match mdSerialize d.md (heapBytes heap size.toNat) size with
    | none => .ub
    | some (out, _) => .ok out

/-- `WithGeometryType`, src/geoarrow/hpp/geometry_data_type.hpp:133-135 -/
def dtWithGeometryType (heap : Nat → Byte) (n : Nat) (g : Int) (d : DType) : CppRes DType :=
  (dtExtensionMetadata heap d).bind fun m => dtMakeParts n g d.dimensions d.coordType m

/-- `WithCoordType`, src/geoarrow/hpp/geometry_data_type.hpp:137-139 -/
def dtWithCoordType (heap : Nat → Byte) (n : Nat) (c : Int) (d : DType) : CppRes DType :=
  (dtExtensionMetadata heap d).bind fun m => dtMakeParts n d.geometryType d.dimensions c m

/-- `WithDimensions`, src/geoarrow/hpp/geometry_data_type.hpp:141-143; `XY`, `XYZ`, `XYM`, `XYZM` (lines 167-173) call it. -/
def dtWithDimensions (heap : Nat → Byte) (n : Nat) (dims : Int) (d : DType) : CppRes DType :=
  (dtExtensionMetadata heap d).bind fun m => dtMakeParts n d.geometryType dims d.coordType m

/-- `WithEdgeType`, src/geoarrow/hpp/geometry_data_type.hpp:145-149 -/
def dtWithEdgeType (e : Int) (d : DType) : DType := { d with md := { d.md with edge := e } }

/-- `WithCrs`, src/geoarrow/hpp/geometry_data_type.hpp:151-159 -/
def dtWithCrs (crs : List Byte) (t : Int) (d : DType) : DType := { d with md := { d.md with crs := crs, crsType := t } }

/-- `WithCrsLonLat`, src/geoarrow/hpp/geometry_data_type.hpp:161-165 -/
def dtWithCrsLonLat (d : DType) : DType := { d with md := metadataSetLonLat d.md }

/-- `Simple`, src/geoarrow/hpp/geometry_data_type.hpp:175-191 -/
def dtSimple (heap : Nat → Byte) (n : Nat) (d : DType) : CppRes DType :=
  if d.geometryType = GT.point ∨ d.geometryType = GT.multipoint then dtWithGeometryType heap n GT.point d
  else if d.geometryType = GT.linestring ∨ d.geometryType = GT.multilinestring then dtWithGeometryType heap n GT.linestring d
  else if d.geometryType = GT.polygon ∨ d.geometryType = GT.multipolygon then dtWithGeometryType heap n GT.polygon d
  else .throws

/-- `Multi`, src/geoarrow/hpp/geometry_data_type.hpp:193-209 -/
def dtMulti (heap : Nat → Byte) (n : Nat) (d : DType) : CppRes DType :=
  if d.geometryType = GT.point ∨ d.geometryType = GT.multipoint then dtWithGeometryType heap n GT.multipoint d
  else if d.geometryType = GT.linestring ∨ d.geometryType = GT.multilinestring then dtWithGeometryType heap n GT.multilinestring d
  else if d.geometryType = GT.polygon ∨ d.geometryType = GT.multipolygon then dtWithGeometryType heap n GT.multipolygon d
  else .throws

/-- `InitSchema`, src/geoarrow/hpp/geometry_data_type.hpp:211-216 -/
def dtInitSchema (heap : Nat → Byte) (d : DType) : CppRes ASchema :=
  match schemaInitExtension d.type with
  | .error _ => .throws
  | .ok s =>
    match schemaSetMetadata heap s d.md with
    | none => .ub
    | some s' => .ok s'

/-- `InitStorageSchema`, src/geoarrow/hpp/geometry_data_type.hpp:218-220 -/
def dtInitStorageSchema (d : DType) : CppRes ASchema :=
  match schemaInit d.type with
  | .error _ => .throws
  | .ok s => .ok s

/-- `extension_name`, src/geoarrow/hpp/geometry_data_type.hpp:222-231 -/
def dtExtensionName (d : DType) : CppRes (List Byte) :=
  match extensionNameFromType d.type with
  | none => .throws
  | some n => .ok (str n)

/-- `num_dimensions`, src/geoarrow/hpp/geometry_data_type.hpp:249-261 -/
def dtNumDimensions (d : DType) : Int :=
  if d.dimensions = 1 then 2 else if d.dimensions = 2 ∨ d.dimensions = 3 then 3 else if d.dimensions = 4 then 4 else -1

/-- `crs`, src/geoarrow/hpp/geometry_data_type.hpp:267-274 -/
def dtCrs (heap : Nat → Byte) (d : DType) : CppRes (List Byte) :=
  match unescapeCrs d.md.crs none 0 with
  | none => .ub
  | some (_, len) =>
    match unescapeCrs d.md.crs (some (heapBytes heap len.toNat)) len with
    | some (some out, _) => .ok out
    | _ => .ub

/-- `GeoArrowDimensionsString`, src/geoarrow/geoarrow_type_inline.h:107-122 -/
def dimensionsString (d : Int) : List Byte :=
  if d = 0 then str "unknown" else if d = 1 then str "xy" else if d = 2 then str "xyz" else if d = 3 then str "xym"
  else if d = 4 then str "xyzm" else str "<not valid>"

/-- `ToString`, src/geoarrow/hpp/geometry_data_type.hpp:276-337. `max_crs_size - 4` wraps around if it is negative; what is longer than
the text gives all of it. -/
def dtToString (heap : Nat → Byte) (maxCrs : Nat) (d : DType) : CppRes (List Byte) :=
  if d.type = 0 then .ok (str "<Uninitialized GeometryDataType>")
  else
    (dtExtensionName d).bind fun name =>
    let dims := if d.dimensions = 0 ∨ d.dimensions = 1 then [] else str "_" ++ (dimensionsString d.dimensions).drop 2
    let modifiers : List (List Byte) :=
      (if d.type = 100004 ∨ d.type = 100002 then [str "large"] else []) ++
      (if d.type = 100006 ∨ d.type = 100005 then [str "view"] else []) ++
      (if d.md.edge ≠ 0 then [edgeString d.md.edge] else []) ++
      (if d.coordType = 2 then [str "interleaved"] else [])
    let crs : CppRes (List Byte) :=
      if d.md.crsType = 0 then .ok []
      else if d.md.crsType = 1 then dtCrs heap d
      else (dtCrs heap d).bind fun c => .ok (crsTypeString d.md.crsType ++ str ":" ++ c)
    crs.bind fun c =>
    let c := if c ≠ [] then str "<" ++ c ++ str ">" else c
    let c := if maxCrs ≤ c.length then (if maxCrs < 4 then c else c.take (maxCrs - 4)) ++ str "...>" else c
    .ok ((modifiers.flatMap fun m => m ++ str " ") ++ name ++ dims ++ c)

end Verif
