import Verif.Spec.Geom
import Verif.Spec.Schema
import Verif.Model.ArrayView
/-!
# Specification: what an Arrow array of a GeoArrow type contains

The Arrow columnar format: the slots of an array start at its `offset`; slot `i` of a list is the range of child slots
between two consecutive offsets; slot `i` of a struct is slot `i` of every child; slot `i` of a fixed-size list of `n` is the
child slots from `n * i` on. Of the model only the type `AArray` and loads from a buffer (`f64At`, `i32At`, `bitGet`) are used.
-/
namespace Verif.Spec
open Verif

/-- Coordinates are structs or fixed-size lists. -/
inductive CoordKind where
  | separate | interleaved
  deriving DecidableEq, Repr

/-- `enum GeoArrowCoordType` value. -/
def CoordKind.code : CoordKind → Int
  | .separate => 1
  | .interleaved => 2

/-- Slot `i` of an array of doubles. -/
def DoubleAt (a : AArray) (i : Int) (x : Dbl) : Prop :=
  ∃ b, a.buffers[1]? = some (some b) ∧ f64At b (a.offset + i) = some x

/-- Slot `i` of an array of coordinates with dimensions `d`. -/
def CoordAt (d : Dims) (k : CoordKind) (a : AArray) (i : Nat) (c : Coord) : Prop :=
  c.length = d.n ∧
  match k with
  | .separate => ∀ (j : Nat) (x : Dbl), c[j]? = some x → ∃ child, a.children[j]? = some child ∧ DoubleAt child (a.offset + i) x
  | .interleaved => ∀ (j : Nat) (x : Dbl), c[j]? = some x → ∃ child, a.children[0]? = some child ∧ DoubleAt child ((a.offset + i) * d.n + j) x

/-- Slot `i` of a list array is the slots `lo`, ..., `hi - 1` of the child. -/
def ListAt (a : AArray) (i lo hi : Nat) (child : AArray) : Prop :=
  (i : Int) < a.length ∧ a.children[0]? = some child ∧ lo ≤ hi ∧ (hi : Int) ≤ child.length ∧
  ∃ b, a.buffers[1]? = some (some b) ∧ i32At b (a.offset + i) = some (lo : Int) ∧ i32At b (a.offset + i + 1) = some (hi : Int)

/-- Slot `i` of a list array consists of parts, each found in its slot of the child. -/
def PartsAt {α : Type} (P : AArray → Nat → α → Prop) (a : AArray) (i : Nat) (xs : List α) : Prop :=
  ∃ lo hi child, ListAt a i lo hi child ∧ xs.length = hi - lo ∧ ∀ t x, xs[t]? = some x → P child (lo + t) x

/-- Slot `i` of an array of a geometry type (`enum GeoArrowGeometryType`) is a geometry. -/
inductive GeomAt (d : Dims) (k : CoordKind) (a : AArray) (i : Nat) : Int → Geom → Prop where
  | point {c} : CoordAt d k a i c → GeomAt d k a i 1 (.point d [c])
  | linestring {cs} : PartsAt (CoordAt d k) a i cs → GeomAt d k a i 2 (.linestring d cs)
  | polygon {rs} : PartsAt (PartsAt (CoordAt d k)) a i rs → GeomAt d k a i 3 (.polygon d rs)
  | multipoint {cs} : PartsAt (CoordAt d k) a i cs → GeomAt d k a i 4 (.multi .multipoint d (cs.map fun c => .point d [c]))
  | multilinestring {ls} : PartsAt (PartsAt (CoordAt d k)) a i ls →
      GeomAt d k a i 5 (.multi .multilinestring d (ls.map (.linestring d)))
  | multipolygon {ps} : PartsAt (PartsAt (PartsAt (CoordAt d k))) a i ps →
      GeomAt d k a i 6 (.multi .multipolygon d (ps.map (.polygon d)))

/-- Slot `i` is null: its validity bit is clear. -/
def NullAt (a : AArray) (i : Nat) : Prop :=
  ∃ bits, a.buffers[0]? = some (some bits) ∧ 0 ≤ a.offset ∧ bitGet bits (a.offset + i).toNat = some false

/-- Slot `i` is not null: there is no validity bitmap or its bit is set. -/
def ValidAt (a : AArray) (i : Nat) : Prop :=
  a.buffers[0]? = some none ∨
  ∃ bits, a.buffers[0]? = some (some bits) ∧ 0 ≤ a.offset ∧ bitGet bits (a.offset + i).toNat = some true

/-- Slot `i` of an array: null or a geometry. -/
def FeatureAt (g : Int) (d : Dims) (k : CoordKind) (a : AArray) (i : Nat) : Option Geom → Prop
  | none => NullAt a i
  | some x => ValidAt a i ∧ GeomAt d k a i g x

/-- `b` is the array `l` levels below `a` (following first children). -/
def Below : Nat → AArray → AArray → Prop
  | 0, a, b => b = a
  | l + 1, a, b => ∃ c, a.children[0]? = some c ∧ Below l c b

/-- Numbers of children and buffers of an array of coordinates with `n` values each. -/
def CoordShape (k : CoordKind) (n : Nat) (a : AArray) : Prop :=
  match k with
  | .separate => a.children.length = n ∧ ∀ c ∈ a.children, c.buffers.length = 2
  | .interleaved => ∃ c, a.children = [c] ∧ c.buffers.length = 2

/-- Numbers of children and buffers of lists nested `depth` deep around coordinates. -/
def ListShape (k : CoordKind) (n : Nat) : (depth : Nat) → AArray → Prop
  | 0, a => CoordShape k n a
  | depth + 1, a => a.buffers.length = 2 ∧ ∃ c, a.children = [c] ∧ ListShape k n depth c

/-- Levels of lists of a geometry type. -/
def listDepth (g : Int) : Nat :=
  if g = 2 ∨ g = 4 then 1 else if g = 3 ∨ g = 5 then 2 else if g = 6 then 3 else 0

/-- The first and last offset of every non-empty list array are in memory, and there is a slot for the validity bitmap. -/
def OffsetsReadable (depth : Nat) (a : AArray) : Prop :=
  ∀ l b, l < depth → Below l a b → 0 < b.length → ∃ buf, b.buffers[1]? = some (some buf) ∧
    (i32At buf b.offset).isSome ∧ (i32At buf (b.offset + b.length)).isSome

/-- The coordinate pointers of a view address the coordinates of `a`: with separate coordinates value `j` is read from the
data of child `j`, with interleaved ones from the data of the only child, `j` doubles further on. -/
def CoordsExposed (k : CoordKind) (v : AView) (a : AArray) : Prop :=
  match k with
  | .separate => ∀ j c, a.children[j]? = some c → v.values j = (c.buffers[1]?.getD none, c.offset)
  | .interleaved => ∀ c, a.children[0]? = some c → ∀ j : Nat, (j : Int) < v.nValues →
      v.values j = (c.buffers[1]?.getD none, c.offset + (j : Int))

/-- Levels `level`, `level + 1`, ..., `level + k` of a view describe `a` and what is below it: its offset and length, its
offsets buffer with the first and last offset of the slice (for an array without elements one zero), and the coordinates. -/
def Exposed (ck : CoordKind) (v : AView) (k level : Nat) (a : AArray) : Prop :=
  (∀ l b, l ≤ k → Below l a b → v.offset (level + l) = b.offset ∧ v.length (level + l) = b.length) ∧
  (∀ l b, l < k → Below l a b →
    if 0 < b.length then ∃ buf, b.buffers[1]? = some (some buf) ∧ v.offsets (level + l) = some buf ∧
      i32At buf b.offset = some (v.first (level + l)) ∧ i32At buf (b.offset + b.length) = some (v.last (level + l))
    else v.offsets (level + l) = some [0, 0, 0, 0] ∧ v.first (level + l) = 0 ∧ v.last (level + l) = 0) ∧
  (∀ b, Below k a b → CoordsExposed ck v b ∧
    v.nCoords = if 0 < level + k then v.last (level + k - 1) - v.first (level + k - 1) else b.length)

/-- Identifier of a native type: geometry type, dimensions, coordinates. -/
def nativeId (g : Int) (d : Dims) (k : CoordKind) : Int := g + 1000 * ((d.code : Int) - 1) + 10000 * (k.code - 1)

/-- Identifier of the boxes of some dimensions. -/
def boxId (d : Dims) : Int := 990 + 1000 * ((d.code : Int) - 1)

/-- Array views made for a type and used in any way since. -/
inductive ViewOf (type : Int) : AView → Prop where
  | fromType {v s} : arrayViewInitFromType type = .ok v s → ViewOf type v
  | fromSchema {c v s} : HasFormats c → SizesFit c → arrayViewInitFromSchema c = .ok v s → v.schema.type = type → ViewOf type v
  | setArray {v w a} : ViewOf type v → (arrayViewSetArray a v).state? = some w → ViewOf type w

/-- Slot `i` of an array of boxes: the minima of all dimensions, then the maxima. -/
def BoxAt (d : Dims) (a : AArray) (i : Nat) (lo hi : Coord) : Prop :=
  lo.length = d.n ∧ hi.length = d.n ∧
  ∀ (j : Nat) (x : Dbl), (lo ++ hi)[j]? = some x → ∃ child, a.children[j]? = some child ∧ DoubleAt child (a.offset + i) x

/-- The number a finite double stands for, times 2^1074. -/
def Dbl.scaled (x : Dbl) : Int :=
  let e : Nat := x.toNat / 2 ^ 52 % 2 ^ 11
  let f : Nat := x.toNat % 2 ^ 52
  let mag : Int := if e = 0 then (f : Int) else ((f + 2 ^ 52 : Nat) : Int) * 2 ^ (e - 1)
  if x.toNat / 2 ^ 63 = 1 then -mag else mag

def Dbl.IsNaN (x : Dbl) : Prop := x.toNat / 2 ^ 52 % 2 ^ 11 = 2047 ∧ x.toNat % 2 ^ 52 ≠ 0
def Dbl.IsInf (x : Dbl) : Prop := x.toNat / 2 ^ 52 % 2 ^ 11 = 2047 ∧ x.toNat % 2 ^ 52 = 0

/-- `x > y` of IEEE 754: never for NaN, infinities at the ends, otherwise by value. Infinities take part by their
scaled value, which exceeds that of all finite doubles. -/
def Dbl.Exceeds (x y : Dbl) : Prop := ¬ Dbl.IsNaN x ∧ ¬ Dbl.IsNaN y ∧ Dbl.scaled y < Dbl.scaled x

/-- The vertices of the rectangle, counter-clockwise from the minimum, closed. -/
def rectangle (xmin ymin xmax ymax : Dbl) : List Coord :=
  [[xmin, ymin], [xmax, ymin], [xmax, ymax], [xmin, ymax], [xmin, ymin]]

/-- The polygon that a box stands for. -/
def IsBox (xmin ymin xmax ymax : Dbl) (g : Geom) : Prop :=
  ((Dbl.Exceeds xmin xmax ∨ Dbl.Exceeds ymin ymax) ∧ g = .polygon .xy []) ∨
  (¬ (Dbl.Exceeds xmin xmax ∨ Dbl.Exceeds ymin ymax) ∧ g = .polygon .xy [rectangle xmin ymin xmax ymax])

/-- Slot `i` of an array of XY boxes as a feature. -/
def BoxFeatureAt (a : AArray) (i : Nat) : Option Geom → Prop
  | none => NullAt a i
  | some g => ValidAt a i ∧ ∃ xmin ymin xmax ymax, BoxAt .xy a i [xmin, ymin] [xmax, ymax] ∧ IsBox xmin ymin xmax ymax g

/-- Callbacks of one feature, null or not. -/
def OptFeatureTrace : Option Geom → List Event → Prop
  | none, t => t = [.featStart, .nullFeat, .featEnd]
  | some g, t => FeatureTrace g t

/-- Callbacks of features one after the other. -/
def FeaturesTrace : List (Option Geom) → List Event → Prop
  | [], t => t = []
  | f :: fs, t => ∃ t1 t2, OptFeatureTrace f t1 ∧ FeaturesTrace fs t2 ∧ t = t1 ++ t2

end Verif.Spec
