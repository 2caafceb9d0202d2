import Verif.Spec.Batch
import Verif.Spec.Axes
import Verif.Spec.NativeWriter
import Verif.Model.Kernel
/-!
# Specification: what kernels compute

Of the model, only the functions a client calls are used, to say which histories of calls there are.
-/
namespace Verif.Spec
open Verif

/-! ## Bounding boxes -/

/-- `m` is the least number of a list of doubles, NaN not counting; plus infinity if there is none. -/
def IsLeast (xs : List Dbl) (m : Dbl) : Prop :=
  (m ∈ xs ∧ ¬ Dbl.IsNaN m ∧ ∀ x ∈ xs, ¬ Dbl.Exceeds m x) ∨ ((∀ x ∈ xs, Dbl.IsNaN x) ∧ m = Dbl.inf)

/-- `m` is the greatest number of a list of doubles, NaN not counting; minus infinity if there is none. -/
def IsGreatest (xs : List Dbl) (m : Dbl) : Prop :=
  (m ∈ xs ∧ ¬ Dbl.IsNaN m ∧ ∀ x ∈ xs, ¬ Dbl.Exceeds x m) ∨ ((∀ x ∈ xs, Dbl.IsNaN x) ∧ m = Dbl.negInf)

/-- The bounds of coordinates, with dimensions of any kind. -/
structure IsBounds (cs : List (Dims × Coord)) (xmin ymin xmax ymax : Dbl) : Prop where
  xmin : IsLeast (cs.map fun c => ordNamed c.1 c.2 .x) xmin
  ymin : IsLeast (cs.map fun c => ordNamed c.1 c.2 .y) ymin
  xmax : IsGreatest (cs.map fun c => ordNamed c.1 c.2 .x) xmax
  ymax : IsGreatest (cs.map fun c => ordNamed c.1 c.2 .y) ymax

/-- An array of boxes with one row for each feature: null, or its bounds. -/
structure BoundsArray (out : AArray) (fs : List (Option Geom)) : Prop where
  length : out.length = fs.length
  offset : out.offset = 0
  nullCount : out.nullCount = numNulls fs
  children : out.children.length = 4 ∧ ∀ c ∈ out.children, c.length = fs.length ∧ c.offset = 0
  row : ∀ (i : Nat) (f : Option Geom), fs[i]? = some f → match f with
    | none => NullAt out i
    | some g => ValidAt out i ∧ ∃ xmin ymin xmax ymax, BoxAt .xy out i [xmin, ymin] [xmax, ymax] ∧ IsBounds g.allCoords xmin ymin xmax ymax

/-- An array with one box: the bounds of coordinates. -/
structure OneBox (out : AArray) (cs : List (Dims × Coord)) : Prop where
  length : out.length = 1
  offset : out.offset = 0
  nullCount : out.nullCount = 0
  children : out.children.length = 4 ∧ ∀ c ∈ out.children, c.length = 1 ∧ c.offset = 0
  row : ValidAt out 0 ∧ ∃ xmin ymin xmax ymax, BoxAt .xy out 0 [xmin, ymin] [xmax, ymax] ∧ IsBounds cs xmin ymin xmax ymax

/-! ## Types -/

/-- ISO code of the dimensions and type of a geometry. -/
def Dims.isoBase : Dims → Int
  | .xy => 0
  | .xyz => 1000
  | .xym => 2000
  | .xyzm => 3000

def Geom.isoCode : Geom → Int
  | .point d _ => d.isoBase + 1
  | .linestring d _ => d.isoBase + 2
  | .polygon d _ => d.isoBase + 3
  | .multi .multipoint d _ => d.isoBase + 4
  | .multi .multilinestring d _ => d.isoBase + 5
  | .multi .multipolygon d _ => d.isoBase + 6
  | .multi .collection d _ => d.isoBase + 7

/-- An array of 32-bit integers without nulls. -/
def IntArray (a : AArray) (vs : List Int) : Prop :=
  a.length = vs.length ∧ a.nullCount = 0 ∧ a.offset = 0 ∧ a.children = [] ∧
  ∃ b, a.buffers = [none, some b] ∧ ∀ (i : Nat) (v : Int), vs[i]? = some v → i32At b i = some v

/-! ## Histories -/

/-- Box kernels started for arrays of a type and used in any way since, failed pushes included. -/
inductive BoxKernelOf (parse : List Byte → Option Dbl) (type : Int) : Kernel BoxS → Prop where
  | start {r} : ReaderOf type r → BoxKernelOf parse type ⟨r, boxZero⟩
  | push {junk scratch a k k'} : BoxKernelOf parse type k → (boxPush junk parse scratch a k).state? = some k' → BoxKernelOf parse type k'

/-- Box kernels that were just started, or whose last push succeeded. -/
inductive BoxKernelStart (parse : List Byte → Option Dbl) (type : Int) : Kernel BoxS → Prop where
  | start {r} : ReaderOf type r → BoxKernelStart parse type ⟨r, boxZero⟩
  | push {junk scratch a k out k'} : BoxKernelOf parse type k → boxPush junk parse scratch a k = .ok out k' → BoxKernelStart parse type k'

/-- The elements of an array of bytes. -/
def Elements (k : BinLayout) (a : AArray) (es : List (Option (List Byte))) : Prop :=
  a.length = es.length ∧ ∀ (i : Nat) (e : Option (List Byte)), es[i]? = some e → ElementAt k a i e

/-- Bytes that the WKB reader refuses before it makes any callback. -/
def NotWkb (b : List Byte) : Prop := ∃ rc, WkbRead b [] (.fail rc)

/-- An array of WKB that begins with the given features; the next element is not WKB, and anything may follow. -/
def Broken (k : BinLayout) (a : AArray) (fs : List (Option Geom)) : Prop :=
  ∃ es b rest, Elements k a (es ++ some b :: rest) ∧ NotWkb b ∧ es.length = fs.length ∧
    ∀ (i : Nat) e f, es[i]? = some e → fs[i]? = some f → match e, f with
      | none, none => True
      | some b, some g => g.height ≤ 255 ∧ WkbEnc g b ∧ b.length < 2 ^ 35
      | _, _ => False

/-- One call of `push_batch`: the array, and how its features are to be understood. -/
structure Pushed where
  scratch : Int → WktR × WkbR
  array : AArray
  features : List (Option Geom)

/-- Pushing batches one after the other, all successfully, dropping what is output. -/
def PushAll {σ α : Type} (push : (Int → WktR × WkbR) → AArray → M (Kernel σ) α) (kind : ArrayKind) (parse : List Byte → Option Dbl) :
    List Pushed → Kernel σ → Kernel σ → Prop
  | [], k, k' => k' = k
  | p :: ps, k, k' => kind.Features parse p.array p.features ∧
      ∃ out k1, push p.scratch p.array k = .ok out k1 ∧ PushAll push kind parse ps k1 k'

/-- The features of all batches. -/
def allFeatures (ps : List Pushed) : List (Option Geom) := ps.flatMap Pushed.features

/-- The coordinates of features. -/
def featureCoords (fs : List (Option Geom)) : List (Dims × Coord) :=
  fs.flatMap fun f => match f with | none => [] | some g => g.allCoords

end Verif.Spec
