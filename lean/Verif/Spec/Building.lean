import Verif.Spec.Geom
/-!
# Specification: sizes of geometries and arguments of callbacks
-/
namespace Verif.Spec
open Verif

mutual
/-- Every number of coordinates, rings or members fits in 32 bits. -/
def Geom.Fits : Geom → Prop
  | .point _ cs => cs.length < 2 ^ 32
  | .linestring _ cs => cs.length < 2 ^ 32
  | .polygon _ rs => rs.length < 2 ^ 32 ∧ ∀ r ∈ rs, r.length < 2 ^ 32
  | .multi _ _ ps => ps.length < 2 ^ 32 ∧ Geom.FitsL ps
def Geom.FitsL : List Geom → Prop
  | [] => True
  | g :: gs => g.Fits ∧ Geom.FitsL gs
end

mutual
/-- All coordinates of a geometry in order. -/
def Geom.vertices : Geom → List Coord
  | .point _ cs => cs
  | .linestring _ cs => cs
  | .polygon _ rs => rs.flatten
  | .multi _ _ ps => Geom.verticesL ps
def Geom.verticesL : List Geom → List Coord
  | [] => []
  | g :: gs => g.vertices ++ Geom.verticesL gs
end

/-- Number of rings or members directly below. -/
def Geom.memberCount : Geom → Nat
  | .point _ _ => 0
  | .linestring _ _ => 0
  | .polygon _ rs => rs.length
  | .multi _ _ ps => ps.length

/-- A callback with a known geometry type and known dimensions, whose coordinates have as many ordinates as announced.
Null features are left out. -/
def BuilderEvent : Event → Prop
  | .geomStart gt dims => gt ≤ 7 ∧ 1 ≤ dims ∧ dims ≤ 4
  | .coords nv cs => ∀ c ∈ cs, c.length = nv
  | .nullFeat => False
  | _ => True

end Verif.Spec
