import Verif.Spec.Nodes
/-!
# Specification: dimensions by name
-/
namespace Verif.Spec
open Verif

inductive Axis where
  | x | y | z | m
  deriving DecidableEq, Repr

/-- The named ordinates of each dimension set, in order. -/
def Dims.axes : Dims → List Axis
  | .xy => [.x, .y]
  | .xyz => [.x, .y, .z]
  | .xym => [.x, .y, .m]
  | .xyzm => [.x, .y, .z, .m]

/-- Value of the ordinate called `a` in a coordinate with dimensions `d`; NaN if there is no such ordinate. -/
def ordNamed (d : Dims) (c : Coord) (a : Axis) : Dbl :=
  match (d.axes.zip c).find? (fun p => p.1 == a) with
  | some (_, v) => v
  | none => Dbl.nan

/-- The coordinate re-expressed in another dimension set: same-named ordinates kept, missing ones NaN. -/
def mapCoord (src dst : Dims) (c : Coord) : Coord := dst.axes.map (ordNamed src c)

mutual
/-- All coordinates of the points, linestrings and rings of a geometry in depth-first order, with their dimensions. -/
def Geom.allCoords : Geom → List (Dims × Coord)
  | .point d cs => cs.map (d, ·)
  | .linestring d cs => cs.map (d, ·)
  | .polygon d rs => rs.flatten.map (d, ·)
  | .multi _ _ ps => Geom.allCoordsL ps
def Geom.allCoordsL : List Geom → List (Dims × Coord)
  | [] => []
  | g :: gs => g.allCoords ++ Geom.allCoordsL gs
end

end Verif.Spec
