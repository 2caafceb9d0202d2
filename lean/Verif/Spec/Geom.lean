import Verif.Model.Visitor
/-!
# Specification: geometries as trees and their admissible callback sequences

Independent of how the library stores or traverses geometries.
-/
namespace Verif.Spec
open Verif

inductive Dims where
  | xy | xyz | xym | xyzm
  deriving DecidableEq, Repr

/-- Number of ordinates per coordinate. -/
def Dims.n : Dims → Nat
  | .xy => 2
  | .xyz => 3
  | .xym => 3
  | .xyzm => 4

/-- `enum GeoArrowDimensions` value. -/
def Dims.code : Dims → Nat
  | .xy => 1
  | .xyz => 2
  | .xym => 3
  | .xyzm => 4

inductive MultiKind where
  | multipoint | multilinestring | multipolygon | collection
  deriving DecidableEq, Repr

/-- `enum GeoArrowGeometryType` value. -/
def MultiKind.code : MultiKind → Nat
  | .multipoint => 4
  | .multilinestring => 5
  | .multipolygon => 6
  | .collection => 7

abbrev Coord := List Dbl

/-- A geometry: points and linestrings own a coordinate sequence, polygons a list of rings, everything else a list
of member geometries. -/
inductive Geom where
  | point (d : Dims) (cs : List Coord)
  | linestring (d : Dims) (cs : List Coord)
  | polygon (d : Dims) (rings : List (List Coord))
  | multi (k : MultiKind) (d : Dims) (parts : List Geom)
  deriving Repr

/-- `t` is a way of delivering the coordinate sequence `cs`: any number of `coords` calls whose contents concatenate
to `cs`. -/
def Chunked (nv : Nat) (cs : List Coord) (t : List Event) : Prop :=
  ∃ chunks : List (List Coord), chunks.flatten = cs ∧ t = chunks.map (Event.coords nv)

/-- Delivering the rings of a polygon one after the other. -/
def RingsTrace (nv : Nat) : List (List Coord) → List Event → Prop
  | [], t => t = []
  | r :: rs, t => ∃ t1 t2, Chunked nv r t1 ∧ RingsTrace nv rs t2 ∧ t = .ringStart :: t1 ++ .ringEnd :: t2

mutual
/-- `t` is an admissible callback sequence for the geometry: start, content in order, end. The only freedom is how
coordinate sequences are divided over `coords` calls. -/
def Geom.Trace : Geom → List Event → Prop
  | .point d cs, t => ∃ b, Chunked d.n cs b ∧ t = .geomStart 1 d.code :: b ++ [.geomEnd]
  | .linestring d cs, t => ∃ b, Chunked d.n cs b ∧ t = .geomStart 2 d.code :: b ++ [.geomEnd]
  | .polygon d rs, t => ∃ b, RingsTrace d.n rs b ∧ t = .geomStart 3 d.code :: b ++ [.geomEnd]
  | .multi k d ps, t => ∃ b, Geom.TraceL ps b ∧ t = .geomStart k.code d.code :: b ++ [.geomEnd]
/-- The callbacks of a list of geometries, one after the other. -/
def Geom.TraceL : List Geom → List Event → Prop
  | [], t => t = []
  | g :: gs, t => ∃ t1 t2, Geom.Trace g t1 ∧ Geom.TraceL gs t2 ∧ t = t1 ++ t2
end

/-- A feature holding one geometry. -/
def FeatureTrace (g : Geom) (t : List Event) : Prop :=
  ∃ b, g.Trace b ∧ t = .featStart :: b ++ [.featEnd]

mutual
/-- Every coordinate has as many ordinates as its geometry's dimensions say. -/
def Geom.WF : Geom → Prop
  | .point d cs => ∀ c ∈ cs, c.length = d.n
  | .linestring d cs => ∀ c ∈ cs, c.length = d.n
  | .polygon d rs => ∀ r ∈ rs, ∀ c ∈ r, c.length = d.n
  | .multi _ _ ps => Geom.WFL ps
def Geom.WFL : List Geom → Prop
  | [] => True
  | g :: gs => g.WF ∧ Geom.WFL gs
end

end Verif.Spec
