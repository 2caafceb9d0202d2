import Verif.Spec.NativeWriter
/-!
# Specification: what appending geometry views to a writer of native arrays stores

Of the model, only the functions a client calls are used.
-/
namespace Verif.Spec
open Verif

/-- The coordinates of a geometry, with the dimensions `d`. -/
def Geom.coordsAs (d : Dims) (x : Geom) : List Coord := x.allCoords.map fun c => mapCoord c.1 d c.2

/-- A linestring, or the one member of a multilinestring. -/
def Geom.asLine (d : Dims) : Geom → Option (List Coord)
  | .linestring s cs => some (cs.map (mapCoord s d))
  | .multi .multilinestring _ [.linestring s cs] => some (cs.map (mapCoord s d))
  | _ => none

/-- The rings of a polygon, or those of the one member of a multipolygon. -/
def Geom.asRings (d : Dims) : Geom → Option (List (List Coord))
  | .polygon s rs => some (rs.map (·.map (mapCoord s d)))
  | .multi .multipolygon _ [.polygon s rs] => some (rs.map (·.map (mapCoord s d)))
  | _ => none

/-- The coordinates of a point or multipoint. -/
def Geom.asPoints (d : Dims) : Geom → Option (List Coord)
  | .point s cs => some (Geom.coordsAs d (.point s cs))
  | .multi .multipoint s ps => some (Geom.coordsAs d (.multi .multipoint s ps))
  | _ => none

/-- The members of a multilinestring, or a linestring as the one member. -/
def Geom.asLines (d : Dims) : Geom → Option (List (List Coord))
  | .linestring s cs => some [cs.map (mapCoord s d)]
  | .multi .multilinestring _ ps => some (ps.map (Geom.coordsAs d))
  | _ => none

/-- Rings of a polygon; nothing for other geometries. -/
def Geom.ringsAs (d : Dims) : Geom → List (List Coord)
  | .polygon s rs => rs.map (·.map (mapCoord s d))
  | _ => []

/-- The members of a multipolygon, or a polygon as the one member. -/
def Geom.asPolygons (d : Dims) : Geom → Option (List (List (List Coord)))
  | .polygon s rs => some [rs.map (·.map (mapCoord s d))]
  | .multi .multipolygon _ ps => some (ps.map (Geom.ringsAs d))
  | _ => none

/-- What is stored for a geometry without coordinates and for a null: no parts, or a point of NaNs. -/
def emptyAs (g : Int) (d : Dims) : Geom :=
  if g = 1 then .point d [nanCoord d]
  else if g = 2 then .linestring d []
  else if g = 3 then .polygon d []
  else if g = 4 then .multi .multipoint d []
  else if g = 5 then .multi .multilinestring d []
  else .multi .multipolygon d []

/-- What appending stores of a geometry in an array of a type (`enum GeoArrowGeometryType`) with dimensions `d`, `none` if such an array
cannot hold it. A geometry without coordinates is stored as an empty one of the type. Rings and members without coordinates of
other geometries are kept, except for the points of a multipoint. -/
def Geom.appended (g : Int) (d : Dims) (x : Geom) : Option Geom :=
  if x.allCoords.isEmpty then some (emptyAs g d)
  else if g = 1 then (if x.allCoords.length = 1 then some (.point d (x.coordsAs d)) else none)
  else if g = 2 then (x.asLine d).map fun cs => .linestring d cs
  else if g = 3 then (x.asRings d).map fun rs => .polygon d rs
  else if g = 4 then (x.asPoints d).map fun cs => .multi .multipoint d (cs.map fun c => .point d [c])
  else if g = 5 then (x.asLines d).map fun ls => .multi .multilinestring d (ls.map (.linestring d))
  else if g = 6 then (x.asPolygons d).map fun ps => .multi .multipolygon d (ps.map (.polygon d))
  else none

/-- A client appending views and nulls, stopping at the first error. -/
def appendAll (junk : Nat → Byte) (m : Mem) : List (Option View) → M NWriter Unit
  | [] => pure ()
  | none :: vs => do
    nwAppendNull junk
    appendAll junk m vs
  | some v :: vs => do
    nwAppend junk m v
    appendAll junk m vs

/-- A view that a writer with dimensions `d` reads correctly as the geometry `x`: byte-swapped nodes have all these dimensions. -/
def Readable (m : Mem) (d : Dims) (v : View) (x : Geom) : Prop :=
  ViewDenotes m v x ∧ x.Typed ∧ ∀ n ∈ v.nodes, n.swap = true → ∀ s : Dims, n.dims = s.code → ∀ a ∈ Dims.axes d, a ∈ Dims.axes s

/-- Views and nulls stand for features. -/
def Features (m : Mem) (d : Dims) : List (Option View) → List (Option Geom) → Prop
  | [], [] => True
  | none :: vs, none :: fs => Features m d vs fs
  | some v :: vs, some x :: fs => Readable m d v x ∧ Features m d vs fs
  | _, _ => False

/-- Nodes of views. -/
def numNodes (vs : List (Option View)) : Nat := (vs.map fun v => match v with | none => 0 | some v => v.nodes.length).sum

end Verif.Spec
