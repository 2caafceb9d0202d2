import Verif.Model.CppInit
import Verif.Model.CppIter
/-!
# Generic code over C++ arrays: `hpp/geometry_type_traits.hpp`

Which class of arrays a type stands for, at compile time (`TypeTraits`, `GeometryTypeTraits`) and at run time (the `GEOARROW_DISPATCH_` macros).
-/
namespace Verif

/-- The classes of arrays: `PointArray<Coord>` ... `MultiPolygonArray<Coord>` by geometry type and dimensions, and `WKBArray<int32_t>` or
`WKBArray<int64_t>` -/
inductive CppClass where
  | native (g dims : Int)
  | wkb (large : Bool)
  deriving DecidableEq, Repr

/-- `DimensionTraits<dimensions>::coord_type`, src/geoarrow/hpp/geometry_type_traits.hpp:18-39; without a specialization nothing compiles. -/
def cppTraitCoord (dims : Int) : Option CppCoordT :=
  if dims = 1 then some ⟨false, false⟩
  else if dims = 2 then some ⟨true, false⟩
  else if dims = 3 then some ⟨false, true⟩
  else if dims = 4 then some ⟨true, true⟩
  else none

/-- `ResolveArrayType<geometry_type, dimensions>::array_type`, src/geoarrow/hpp/geometry_type_traits.hpp:41-66 -/
def cppResolveArray (g dims : Int) : Option CppClass :=
  if (g = 1 ∨ g = 2 ∨ g = 3 ∨ g = 4 ∨ g = 5 ∨ g = 6) ∧ (dims = 1 ∨ dims = 2 ∨ dims = 3 ∨ dims = 4) then some (.native g dims) else none

/-- `GeometryTypeTraits<geometry_type, dimensions>::type_id(coord_type)`, src/geoarrow/hpp/geometry_type_traits.hpp:82-85 -/
def cppTraitTypeId (g dims coordType : Int) : TypeId := (coordType - 1) * 10000 + (dims - 1) * 1000 + g

/-- What `TypeTraits<type>` has: the constants (absent for serialized types), the coordinate type and the class of arrays -/
structure CppTraits where
  constants : Option (Int × Int × Int)
  coord : Option CppCoordT
  array : Option CppClass
  deriving DecidableEq, Repr

/-- `TypeTraits<type>`, src/geoarrow/hpp/geometry_type_traits.hpp:90-120; `none` if it does not compile. C++ `/` and `%` truncate. Simplified: constants
beyond the values of their enumeration are accepted, as by compilers that do not check them. -/
def cppTypeTraits (type : TypeId) : Option CppTraits :=
  if type = 100003 ∨ type = 100004 then some ⟨none, none, none⟩
  else if type = 100001 then some ⟨none, some ⟨true, true⟩, some (.wkb false)⟩
  else if type = 100002 then some ⟨none, some ⟨true, true⟩, some (.wkb true)⟩
  else
    let coordType := type.tdiv 10000 + 1
    let dims := (type.tmod 10000).tdiv 1000 + 1
    let g := (type.tmod 10000).tmod 1000
    match cppTraitCoord dims, cppResolveArray g dims with
    | some t, some c => some ⟨some (coordType, dims, g), some t, some c⟩
    | _, _ => none

/-- `_GEOARROW_DISPATCH_NATIVE_ARRAY_CALL_DIMENSIONS`, src/geoarrow/hpp/geometry_type_traits.hpp:126-158; `none` is the exception. -/
def cppDispatchDims (g dims : Int) : Option CppClass :=
  if dims = 1 then cppResolveArray g 1
  else if dims = 2 then cppResolveArray g 2
  else if dims = 3 then cppResolveArray g 3
  else if dims = 4 then cppResolveArray g 4
  else none

/-- `GEOARROW_DISPATCH_NATIVE_ARRAY_CALL`, src/geoarrow/hpp/geometry_type_traits.hpp:170-204; `none` is the exception. -/
def cppDispatchNative (type : TypeId) : Option CppClass :=
  let g := geometryTypeFromType type
  let dims := dimensionsFromType type
  if g = 1 then cppDispatchDims 1 dims
  else if g = 2 then cppDispatchDims 2 dims
  else if g = 3 then cppDispatchDims 3 dims
  else if g = 4 then cppDispatchDims 4 dims
  else if g = 5 then cppDispatchDims 5 dims
  else if g = 6 then cppDispatchDims 6 dims
  else none

/-- `GEOARROW_DISPATCH_ARRAY_CALL`, src/geoarrow/hpp/geometry_type_traits.hpp:213-230; `none` is the exception. -/
def cppDispatch (type : TypeId) : Option CppClass :=
  if type = 100001 then some (.wkb false)
  else if type = 100002 ∨ type = 100003 ∨ type = 100004 then none
  else cppDispatchNative type

/-- How generic code ends: the dispatch threw, the array was not accepted, or everything was visited. -/
inductive CppRun (α : Type) where
  | threw
  | refused (rc : Code)
  | visited (v : CppVisit α)

/-- Generic code that is dispatched: `array.Init(view)` and then `array.VisitVertices<CoordDst>`, as in
src/geoarrow/hpp/geometry_type_traits_test.cc:61-75. 64-bit offsets are left out (nothing is dispatched to them). -/
def cppClassVertices (dst : CppCoordT) (v : AView) (ps : Int → CppP) : CppClass → Option (CppRun (List Dbl))
  | .native g dims =>
    match cppTraitCoord dims with
    | none => none
    | some t =>
      match cppArrInit t.n (cppNesting g) v with
      | .error rc => some (.refused rc)
      | .ok arr => (cppArrVerticesAs (cppMemOf v) t dst arr).map fun xs => .visited ⟨xs, none⟩
  | .wkb false => (cppBlobVertices (cppBlobsInit v) ps dst).map .visited
  | .wkb true => none

/-- The same with `array.VisitEdges`, for the coordinate type of the class (that of `TypeTraits` for WKB). -/
def cppClassEdges (v : AView) (ps : Int → CppP) : CppClass → Option (CppRun (List Dbl × List Dbl))
  | .native g dims =>
    match cppTraitCoord dims with
    | none => none
    | some t =>
      match cppArrInit t.n (cppNesting g) v with
      | .error rc => some (.refused rc)
      | .ok arr => (cppTypedEdges g (cppMemOf v) arr).map fun xs => .visited ⟨xs, none⟩
  | .wkb false => (cppBlobEdges (cppBlobsInit v) ps ⟨true, true⟩).map .visited
  | .wkb true => none

/-- `GEOARROW_DISPATCH_ARRAY_CALL(view->schema_view.type, Visit, view)` -/
def cppGenericVertices (dst : CppCoordT) (v : AView) (ps : Int → CppP) : Option (CppRun (List Dbl)) :=
  match cppDispatch v.schema.type with
  | none => some .threw
  | some c => cppClassVertices dst v ps c
def cppGenericEdges (v : AView) (ps : Int → CppP) : Option (CppRun (List Dbl × List Dbl)) :=
  match cppDispatch v.schema.type with
  | none => some .threw
  | some c => cppClassEdges v ps c

end Verif
