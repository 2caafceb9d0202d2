import Verif.Spec.Wkb
/-!
# Specification: well-known text

What text stands for a geometry, given how numbers are printed. Independent of the reader and the writer.
-/
namespace Verif.Spec
open Verif

/-- The keyword of a geometry. -/
def Geom.keyword : Geom → List Byte
  | .point _ _ => str "POINT"
  | .linestring _ _ => str "LINESTRING"
  | .polygon _ _ => str "POLYGON"
  | .multi .multipoint _ _ => str "MULTIPOINT"
  | .multi .multilinestring _ _ => str "MULTILINESTRING"
  | .multi .multipolygon _ _ => str "MULTIPOLYGON"
  | .multi .collection _ _ => str "GEOMETRYCOLLECTION"

def Geom.dims : Geom → Dims
  | .point d _ => d
  | .linestring d _ => d
  | .polygon d _ => d
  | .multi _ d _ => d

/-- What follows the keyword. -/
def Dims.suffix : Dims → List Byte
  | .xy => str ""
  | .xyz => str " Z"
  | .xym => str " M"
  | .xyzm => str " ZM"

/-- `EMPTY`, or the items in parentheses separated by commas. -/
def wktList (items : List (List Byte)) : List Byte :=
  if items = [] then str "EMPTY" else str "(" ++ (str ", ").intercalate items ++ str ")"

/-- Ordinates separated by spaces. -/
def wktCoordinate (pr : Dbl → List Byte) (c : Coord) : List Byte := (str " ").intercalate (c.map pr)

/-- A coordinate sequence. -/
def wktSequence (pr : Dbl → List Byte) (cs : List Coord) : List Byte := wktList (cs.map (wktCoordinate pr))

/-- A member of a flat multipoint, whose text would otherwise be `body`. -/
def wktFlatMember (pr : Dbl → List Byte) (g : Geom) (body : List Byte) : List Byte :=
  match g with
  | .point _ (c :: cs) => (str ", ").intercalate ((c :: cs).map (wktCoordinate pr))
  | _ => body

mutual
/-- The text after the tag. -/
def wktBody (pr : Dbl → List Byte) (flat : Bool) : Geom → List Byte
  | .point _ cs => wktSequence pr cs
  | .linestring _ cs => wktSequence pr cs
  | .polygon _ rs => wktList (rs.map (wktSequence pr))
  | .multi k _ ps => wktList (wktMembers pr flat k ps)
/-- The members of a collection carry their tag; the members of a flat multipoint lose their parentheses. -/
def wktMembers (pr : Dbl → List Byte) (flat : Bool) (k : MultiKind) : List Geom → List (List Byte)
  | [] => []
  | g :: gs =>
    (if k = .collection then g.keyword ++ g.dims.suffix ++ str " " ++ wktBody pr flat g
     else if k = .multipoint ∧ flat then wktFlatMember pr g (wktBody pr flat g)
     else wktBody pr flat g) :: wktMembers pr flat k gs
end

/-- Well-known text. -/
def wktText (pr : Dbl → List Byte) (flat : Bool) (g : Geom) : List Byte :=
  g.keyword ++ g.dims.suffix ++ str " " ++ wktBody pr flat g

mutual
/-- Multipoints hold points, multilinestrings linestrings and multipolygons polygons, at every depth. -/
def Geom.Typed : Geom → Prop
  | .multi k _ ps => Geom.TypedL k ps
  | _ => True
def Geom.TypedL (k : MultiKind) : List Geom → Prop
  | [] => True
  | g :: gs =>
    (match k, g with
      | .multipoint, .point _ _ => True
      | .multilinestring, .linestring _ _ => True
      | .multipolygon, .polygon _ _ => True
      | .collection, _ => True
      | _, _ => False) ∧ g.Typed ∧ Geom.TypedL k gs
end

end Verif.Spec
