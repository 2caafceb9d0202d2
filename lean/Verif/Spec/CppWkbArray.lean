import Verif.Spec.CppArray
import Verif.Spec.Axes
import Verif.Spec.WkbTokens
import Verif.Model.CppWkbArray
/-!
# Specification: vertices and edges of geometries, and binary arrays
-/
namespace Verif.Spec
open Verif

/-- The vertices of a geometry in order, each converted to dimensions `dst`. -/
def Geom.verticesAs (dst : Dims) (g : Geom) : List Coord := g.allCoords.map fun c => mapCoord c.1 dst c.2

mutual
/-- The edges: every vertex of a point or multipoint as a degenerate edge; consecutive pairs of each linestring and ring;
those of the members of anything else. -/
def Geom.edgesAs (dst : Dims) : Geom → List (Coord × Coord)
  | .point d cs => cs.map fun c => (mapCoord d dst c, mapCoord d dst c)
  | .linestring d cs => pairs (cs.map (mapCoord d dst))
  | .polygon d rs => rs.flatMap fun r => pairs (r.map (mapCoord d dst))
  | .multi .multipoint _ ps => (Geom.allCoordsL ps).map fun c => (mapCoord c.1 dst c.2, mapCoord c.1 dst c.2)
  | .multi _ _ ps => Geom.edgesAsL dst ps
def Geom.edgesAsL (dst : Dims) : List Geom → List (Coord × Coord)
  | [] => []
  | g :: gs => g.edgesAs dst ++ Geom.edgesAsL dst gs
end

/-- Element `i` of the binary array: `none` is null, otherwise the bytes between its two offsets, which must be inside
the data. -/
def BlobAt (a : CppBlobs) (i : Nat) : Option (List Byte) → Prop
  | none => ∃ bits, a.validity = some bits ∧ bitAt bits (a.offset.toNat + i) = some false
  | some bs =>
    (∀ bits, a.validity = some bits → bitAt bits (a.offset.toNat + i) = some true) ∧
    ∃ b e : Nat, a.offsets[a.offset.toNat + i]? = some (b : Int) ∧ a.offsets[a.offset.toNat + i + 1]? = some (e : Int) ∧
      b ≤ e ∧ e ≤ a.data.length ∧ bs = (a.data.drop b).take (e - b)

/-- The binary array holds the given elements. -/
def Blobs (a : CppBlobs) (els : List (Option (List Byte))) : Prop :=
  a.length = els.length ∧ 0 ≤ a.offset ∧ ∀ i (h : i < els.length), BlobAt a i els[i]

/-- Elements that are null or encodings (shorter than 2^32 bytes) of the given geometries. -/
def EncodedAs : List (Option (List Byte)) → List (Option Geom) → Prop
  | [], gs => gs = []
  | none :: els, gs => ∃ gs', gs = none :: gs' ∧ EncodedAs els gs'
  | some b :: els, gs => ∃ g gs', gs = some g :: gs' ∧ WkbEnc g b ∧ b.length < 2 ^ 32 ∧ EncodedAs els gs'

end Verif.Spec
