/-!
# Specification of the documented type identifiers (`enum GeoArrowType`)

Written out as a table from the documentation in src/geoarrow/geoarrow_type.h (lines 315-420): geometry types
POINT=1 .. MULTIPOLYGON=6 and BOX=990 (boxes only with separate coordinates); XY +0, XYZ +1000, XYM +2000,
XYZM +3000; separate +0, interleaved +10000.
-/
namespace Verif.Spec

/-- The 52 native type identifiers of `enum GeoArrowType`, literally. -/
def nativeTypes : List Int :=
  [1, 2, 3, 4, 5, 6, 1001, 1002, 1003, 1004, 1005, 1006, 2001, 2002, 2003, 2004, 2005, 2006,
   3001, 3002, 3003, 3004, 3005, 3006,
   10001, 10002, 10003, 10004, 10005, 10006, 11001, 11002, 11003, 11004, 11005, 11006,
   12001, 12002, 12003, 12004, 12005, 12006, 13001, 13002, 13003, 13004, 13005, 13006,
   990, 1990, 2990, 3990]

/-- The serialized identifiers WKB, LARGE_WKB, WKT, LARGE_WKT, WKB_VIEW, WKT_VIEW. -/
def serializedTypes : List Int := [100001, 100002, 100003, 100004, 100005, 100006]

/-- Part triples (geometry type, dimensions, coordinate type) that name a native type. -/
def ValidParts (g d c : Int) : Prop :=
  1 ≤ d ∧ d ≤ 4 ∧ ((1 ≤ g ∧ g ≤ 6 ∧ 1 ≤ c ∧ c ≤ 2) ∨ (g = 990 ∧ c = 1))

end Verif.Spec
