import Verif.Model.Basic
/-!
# `geoarrow_type_inline.h`, part 1: byte swapping and type identifiers
-/
namespace Verif

/-- `GeoArrowBSwap32`, src/geoarrow/geoarrow_type_inline.h:14-17 -/
def bswap32 (x : BitVec 32) : BitVec 32 :=
  ((x &&& 0xFF#32) <<< 24) ||| ((x &&& 0xFF00#32) <<< 8) ||| ((x &&& 0xFF0000#32) >>> 8) |||
    ((x &&& 0xFF000000#32) >>> 24)

/-- `GeoArrowBSwap64`, src/geoarrow/geoarrow_type_inline.h:19-24 -/
def bswap64 (x : BitVec 64) : BitVec 64 :=
  ((x &&& 0xFF#64) <<< 56) ||| ((x &&& 0xFF00#64) <<< 40) ||| ((x &&& 0xFF0000#64) <<< 24) |||
    ((x &&& 0xFF000000#64) <<< 8) ||| ((x &&& 0xFF00000000#64) >>> 8) |||
    ((x &&& 0xFF0000000000#64) >>> 24) ||| ((x &&& 0xFF000000000000#64) >>> 40) |||
    ((x &&& 0xFF00000000000000#64) >>> 56)

/-- `enum GeoArrowGeometryType`, `GeoArrowDimensions`, `GeoArrowCoordType`, `GeoArrowType` values are C `int`s
(src/geoarrow/geoarrow_type.h:315-420). -/
abbrev TypeId := Int

namespace GT
/-- `enum GeoArrowGeometryType` (src/geoarrow/geoarrow_type.h:392-402) -/
def geometry : Int := 0
def point : Int := 1
def linestring : Int := 2
def polygon : Int := 3
def multipoint : Int := 4
def multilinestring : Int := 5
def multipolygon : Int := 6
def collection : Int := 7
def box : Int := 990
end GT

/-- `GEOARROW_TYPE_UNINITIALIZED` and the six serialized types (src/geoarrow/geoarrow_type.h:315-385) -/
def isUninitOrSerialized (type : TypeId) : Bool :=
  type == 0 || type == 100001 || type == 100002 || type == 100003 || type == 100004 || type == 100005 ||
    type == 100006

/-- `GeoArrowGeometryTypeFromType`, src/geoarrow/geoarrow_type_inline.h:36-65. C `%` truncates: `Int.tmod`. -/
def geometryTypeFromType (type : TypeId) : Int :=
  if isUninitOrSerialized type then GT.geometry
  else
    let g := if type ≥ 10001 then type - 10000 else type
    let g := g.tmod 1000
    if g = GT.box then GT.box
    else if g ≤ 6 ∧ g ≥ 1 then g
    else GT.geometry

/-- `GeoArrowDimensionsFromType`, src/geoarrow/geoarrow_type_inline.h:183-215. C `/` truncates: `Int.tdiv`. -/
def dimensionsFromType (type : TypeId) : Int :=
  if isUninitOrSerialized type then 0
  else
    let t := if type ≥ 10001 then type - 10000 else type
    let q := t.tdiv 1000
    if q = 0 then 1 else if q = 1 then 2 else if q = 2 then 3 else if q = 3 then 4 else 0

/-- `GeoArrowCoordTypeFromType`, src/geoarrow/geoarrow_type_inline.h:219-229 -/
def coordTypeFromType (type : TypeId) : Int :=
  if type ≥ 100001 then 0 else if type ≥ 10001 then 2 else if type ≥ 1 then 1 else 0

/-- `GeoArrowMakeType`, src/geoarrow/geoarrow_type_inline.h:234-250 -/
def makeType (geometryType dimensions coordType : Int) : TypeId :=
  if geometryType = GT.geometry then 0
  else if dimensions = 0 then 0
  else if coordType = 0 then 0
  else if geometryType = GT.box ∧ coordType ≠ 1 then 0
  else (dimensions - 1) * 1000 + (coordType - 1) * 10000 + geometryType

/-- `GeoArrowExtensionNameFromType`, src/geoarrow/geoarrow_type_inline.h:69-103 (`none` is `NULL`) -/
def extensionNameFromType (type : TypeId) : Option String :=
  if type = 100001 ∨ type = 100002 ∨ type = 100005 then some "geoarrow.wkb"
  else if type = 100003 ∨ type = 100004 ∨ type = 100006 then some "geoarrow.wkt"
  else
    let g := geometryTypeFromType type
    if g = GT.box then some "geoarrow.box"
    else if g = GT.point then some "geoarrow.point"
    else if g = GT.linestring then some "geoarrow.linestring"
    else if g = GT.polygon then some "geoarrow.polygon"
    else if g = GT.multipoint then some "geoarrow.multipoint"
    else if g = GT.multilinestring then some "geoarrow.multilinestring"
    else if g = GT.multipolygon then some "geoarrow.multipolygon"
    else none

/-- `_GeoArrowkNumOffsets[geometry_type]`, src/geoarrow/geoarrow_type_inline.h:281; reading outside the table is
`none`. -/
def numOffsets (g : Int) : Option Int :=
  if g < 0 then none else [-1, 0, 1, 2, 1, 2, 3, -1][g.toNat]?

/-- `_GeoArrowkNumDimensions[dimensions]`, src/geoarrow/geoarrow_type_inline.h:284 -/
def numDimensions (d : Int) : Option Int :=
  if d < 0 then none else [-1, 2, 3, 3, 4][d.toNat]?

end Verif
