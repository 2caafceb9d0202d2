import Verif.Spec.SerializedArray
import Verif.Spec.Wkb
import Verif.Spec.WktGrammar
/-!
# Specification: the features in an array of any supported type
-/
namespace Verif.Spec
open Verif

/-- Types of arrays that can be read: native geometries (`enum GeoArrowGeometryType` 1 to 6), XY boxes, WKB and WKT. -/
inductive ArrayKind where
  | native (g : Int) (d : Dims) (k : CoordKind) (valid : 1 ≤ g ∧ g ≤ 6)
  | boxes
  | wkb (k : BinLayout)
  | wkt (k : BinLayout)

/-- Type identifiers. -/
def ArrayKind.id : ArrayKind → Int
  | .native g d k _ => nativeId g d k
  | .boxes => boxId .xy
  | .wkb k => wkbId k
  | .wkt k => wktId k

/-- Slot `i` of an array is null or stands for a geometry. The limits on WKB are those of the reader. -/
def ArrayKind.SlotAt (parse : List Byte → Option Dbl) (a : AArray) (i : Nat) : ArrayKind → Option Geom → Prop
  | .native g d k _, f => FeatureAt g d k a i f
  | .boxes, f => BoxFeatureAt a i f
  | .wkb k, none => ElementAt k a i none
  | .wkb k, some g => g.height ≤ 255 ∧ ∃ b, WkbEnc g b ∧ b.length < 2 ^ 35 ∧ ElementAt k a i (some b)
  | .wkt k, none => ElementAt k a i none
  | .wkt k, some g => ∃ b, GeomToks parse g (lex b) ∧ ElementAt k a i (some b)

/-- The features of an array. -/
def ArrayKind.Features (parse : List Byte → Option Dbl) (kind : ArrayKind) (a : AArray) (fs : List (Option Geom)) : Prop :=
  a.length = fs.length ∧ ∀ (i : Nat) (f : Option Geom), fs[i]? = some f → kind.SlotAt parse a i f

end Verif.Spec
