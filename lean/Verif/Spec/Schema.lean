import Verif.Model.Schema
import Verif.Spec.Axes
/-!
# Specification: the storage layouts of the GeoArrow types

From the documentation of the format: coordinates are a struct of doubles named after the axes (separate) or a
fixed-size list of doubles (interleaved); other geometries are lists of these; a box is a struct of doubles called
`xmin`, `ymin`, ..., `xmax`, `ymax`, .... Uses of the model: the tree `ASchema` and the result `SView` only.
-/
namespace Verif.Spec
open Verif

def Axis.letter : Axis → Byte
  | .x => 0x78
  | .y => 0x79
  | .z => 0x7a
  | .m => 0x6d

/-- `xy`, `xyz`, `xym`, `xyzm` -/
def Dims.label (d : Dims) : List Byte := d.axes.map Axis.letter

/-- `t` is `s` or below it. -/
inductive Within : ASchema → ASchema → Prop where
  | self (s : ASchema) : Within s s
  | child {t c s : ASchema} : c ∈ s.children → Within t c → Within t s

/-- Every column has a format string, as the Arrow C data interface requires. -/
def HasFormats (s : ASchema) : Prop := ∀ t, Within t s → t.format ≠ none

/-- Value of decimal digits. -/
def decimal (ds : List Byte) : Nat := ds.foldl (fun a c => 10 * a + (c.toNat - 48)) 0

def IsBlank (c : Byte) : Prop := c = 32 ∨ c = 9 ∨ c = 10 ∨ c = 11 ∨ c = 12 ∨ c = 13

def IsDigit (c : Byte) : Prop := 48 ≤ c.toNat ∧ c.toNat ≤ 57

/-- A text of a whole number as C reads it: blanks, sign, digits. -/
def NumberText (text : List Byte) (n : Int) : Prop :=
  ∃ blanks sign digits, text = blanks ++ sign ++ digits ∧ (∀ c ∈ blanks, IsBlank c) ∧ digits ≠ [] ∧
    (∀ c ∈ digits, IsDigit c) ∧
    (((sign = [] ∨ sign = str "+") ∧ n = decimal digits) ∨ (sign = str "-" ∧ n = -(decimal digits : Int)))

/-- Declared sizes of fixed-size lists are 32-bit numbers. -/
def SizesFit (s : ASchema) : Prop :=
  ∀ t, Within t s → ∀ text n, t.format = some (str "+w:" ++ text) → NumberText text n → -2147483648 ≤ n ∧ n < 2147483648

/-- No dictionary and no flag except nullable. -/
def Plain (s : ASchema) : Prop := s.dictionary = false ∧ (s.flags = 0 ∨ s.flags = 2)

/-- A struct of doubles with these names. -/
def StructOfDoubles (names : List (List Byte)) (s : ASchema) : Prop :=
  s.format = some (str "+s") ∧ s.children.map ASchema.name = names.map some ∧ ∀ c ∈ s.children, c.format = some (str "g")

/-- Separate coordinates. -/
def Separate (d : Dims) (s : ASchema) : Prop := StructOfDoubles (d.axes.map fun a => [a.letter]) s

/-- Interleaved coordinates. The child is named after the dimensions; with any other name the dimensions follow from the
size, three meaning XYZ. -/
def Interleaved (d : Dims) (s : ASchema) : Prop :=
  Plain s ∧ ∃ text c, s.format = some (str "+w:" ++ text) ∧ NumberText text d.n ∧ s.children = [c] ∧
    c.format = some (str "g") ∧ (c.name = some d.label ∨ ((∀ d' : Dims, c.name ≠ some d'.label) ∧ d ≠ .xym))

/-- Coordinate types: separate 1, interleaved 2. -/
def Coordinates (d : Dims) (ct : Int) (s : ASchema) : Prop := (ct = 1 ∧ Separate d s) ∨ (ct = 2 ∧ Interleaved d s)

/-- Lists nested `n` deep around coordinates. -/
def Lists (d : Dims) (ct : Int) : Nat → ASchema → Prop
  | 0, s => Coordinates d ct s
  | n + 1, s => s.format = some (str "+l") ∧ ∃ c, s.children = [c] ∧ Lists d ct n c

/-- The struct of a box. -/
def BoxStruct (d : Dims) (s : ASchema) : Prop :=
  StructOfDoubles ((d.axes.map fun a => a.letter :: str "min") ++ d.axes.map fun a => a.letter :: str "max") s

/-- Extension name, geometry type, dimensions and coordinate type that the storage has. -/
inductive Native : List Byte → Int → Dims → Int → ASchema → Prop where
  | point {d ct s} : Lists d ct 0 s → Native (str "geoarrow.point") 1 d ct s
  | linestring {d ct s} : Lists d ct 1 s → Native (str "geoarrow.linestring") 2 d ct s
  | polygon {d ct s} : Lists d ct 2 s → Native (str "geoarrow.polygon") 3 d ct s
  | multipoint {d ct s} : Lists d ct 1 s → Native (str "geoarrow.multipoint") 4 d ct s
  | multilinestring {d ct s} : Lists d ct 2 s → Native (str "geoarrow.multilinestring") 5 d ct s
  | multipolygon {d ct s} : Lists d ct 3 s → Native (str "geoarrow.multipolygon") 6 d ct s
  | box {d s} : BoxStruct d s → Native (str "geoarrow.box") 990 d 1 s

/-- Formats of serialized columns. The code accepts every extension name that begins with `geoarrow.wkb`. -/
inductive Serialized : List Byte → Int → ASchema → Prop where
  | wkt {s} : s.format = some (str "u") → Serialized (str "geoarrow.wkt") 100003 s
  | largeWkt {s} : s.format = some (str "U") → Serialized (str "geoarrow.wkt") 100004 s
  | wktView {s} : s.format = some (str "vu") → Serialized (str "geoarrow.wkt") 100006 s
  | wkb {s x} : s.format = some (str "z") → Serialized (str "geoarrow.wkb" ++ x) 100001 s
  | largeWkb {s x} : s.format = some (str "Z") → Serialized (str "geoarrow.wkb" ++ x) 100002 s
  | wkbView {s x} : s.format = some (str "vz") → Serialized (str "geoarrow.wkb" ++ x) 100005 s

/-- The first value under a key. -/
def firstValue (key : String) (s : ASchema) : Option (List Byte) := (s.metadata.find? (fun kv => kv.1 = str key)).map (·.2)

/-- What a schema with extension name `ext` is. -/
def Describes (ext : List Byte) (s : ASchema) (v : SView) : Prop :=
  Plain s ∧ v.extName = some ext ∧ v.extMetadata = firstValue "ARROW:extension:metadata" s ∧
    ((∃ d : Dims, v.dimensions = d.code ∧ Native ext v.geometryType d v.coordType s ∧
        v.type = 1000 * (v.dimensions - 1) + 10000 * (v.coordType - 1) + v.geometryType) ∨
      (s.children = [] ∧ Serialized ext v.type s ∧ v.geometryType = 0 ∧ v.dimensions = 0 ∧ v.coordType = 0))

end Verif.Spec
