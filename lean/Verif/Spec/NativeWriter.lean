import Verif.Spec.NativeArray
import Verif.Spec.Axes
import Verif.Spec.Wkt
import Verif.Model.NativeWriter
/-!
# Specification: what the writer of native arrays is given and what it stores

Of the model, only the functions a client calls are used, to say which writers exist.
-/
namespace Verif.Spec
open Verif

/-- Writers made for a type and used in any way since, failed calls included. -/
inductive NWriterOf (type : TypeId) : NWriter → Prop where
  | init {junk w} : nwInit junk type = .ok w → NWriterOf type w
  | visit {junk w h e w'} : NWriterOf type w → nwInitVisitor junk w = .ok h → (h e w).state? = some w' → NWriterOf type w'
  | append {junk m v w w'} : NWriterOf type w → (nwAppend junk m v w).state? = some w' → NWriterOf type w'
  | appendNull {junk w w'} : NWriterOf type w → (nwAppendNull junk w).state? = some w' → NWriterOf type w'
  | finish {junk w w'} : NWriterOf type w → (nwFinish junk w).state? = some w' → NWriterOf type w'

/-- Writers to which nothing has been written: new ones, and ones that were just finished whatever was written before. -/
inductive NWriterStart (type : TypeId) : NWriter → Prop where
  | init {junk w} : nwInit junk type = .ok w → NWriterStart type w
  | finish {junk w a w'} : NWriterOf type w → nwFinish junk w = .ok a w' → NWriterStart type w'

/-- Geometries of a type (`enum GeoArrowGeometryType`). A point has at most one coordinate. -/
def HasType : Int → Geom → Prop
  | 1, .point _ cs => cs.length ≤ 1
  | 2, .linestring _ _ => True
  | 3, .polygon _ _ => True
  | 4, .multi .multipoint _ ps => ∀ p ∈ ps, ∃ d cs, p = .point d cs ∧ cs.length ≤ 1
  | 5, .multi .multilinestring _ ps => ∀ p ∈ ps, ∃ d cs, p = .linestring d cs
  | 6, .multi .multipolygon _ ps => ∀ p ∈ ps, ∃ d rs, p = .polygon d rs
  | _, _ => False

/-- The coordinates with all values NaN, standing for the coordinates of an empty point. -/
def nanCoord (d : Dims) : Coord := List.replicate d.n Dbl.nan

mutual
/-- What is stored of a geometry in an array with dimensions `d`: values are kept by the names of their dimensions, rings and members
without coordinates are dropped, an empty point becomes a point of NaNs. -/
def Geom.stored (d : Dims) : Geom → Geom
  | .point s cs => .point d (if cs = [] then [nanCoord d] else cs.map (mapCoord s d))
  | .linestring s cs => .linestring d (cs.map (mapCoord s d))
  | .polygon s rs => .polygon d ((rs.filter fun r => !r.isEmpty).map (·.map (mapCoord s d)))
  | .multi k _ ps => .multi k d (Geom.storedL d ps)
def Geom.storedL (d : Dims) : List Geom → List Geom
  | [] => []
  | p :: ps => if p.allCoords.isEmpty then Geom.storedL d ps else p.stored d :: Geom.storedL d ps
end

mutual
/-- Everything has dimensions `d`, points are not empty, and every ring and member has coordinates. -/
def Geom.NoEmptyParts (d : Dims) : Geom → Prop
  | .point s cs => s = d ∧ cs ≠ []
  | .linestring s _ => s = d
  | .polygon s rs => s = d ∧ ∀ r ∈ rs, r ≠ []
  | .multi _ s ps => s = d ∧ Geom.NoEmptyPartsL d ps
def Geom.NoEmptyPartsL (d : Dims) : List Geom → Prop
  | [] => True
  | p :: ps => p.allCoords ≠ [] ∧ p.NoEmptyParts d ∧ Geom.NoEmptyPartsL d ps
end

/-- Number of coordinates of features. -/
def numCoords (fs : List (Option Geom)) : Nat := (fs.map fun f => match f with | none => 0 | some x => x.allCoords.length).sum

/-- Nulls among features. -/
def numNulls (fs : List (Option Geom)) : Nat := (fs.filter Option.isNone).length

/-- A feature that is not a collection, its members being of the right type. -/
def Simple : Geom → Prop
  | .multi .collection _ _ => False
  | x => x.Typed

/-- Number of linestrings, rings and multipoints of a feature that is not a collection. -/
def sequences : Geom → Nat
  | .point _ _ => 0
  | .linestring _ _ => 1
  | .polygon _ rs => rs.length
  | .multi .multipoint _ _ => 1
  | .multi _ _ ps => (ps.map fun p => match p with | .linestring _ _ => 1 | .polygon _ rs => rs.length | _ => 0).sum

/-- A geometry with dimensions `d` has the coordinates of another one, in order and by the names of their dimensions. -/
def SameCoords (d : Dims) (x y : Geom) : Prop := y.allCoords = x.allCoords.map fun c => (d, mapCoord c.1 d c.2)

end Verif.Spec
