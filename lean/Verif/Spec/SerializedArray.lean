import Verif.Spec.NativeArray
import Verif.Spec.Program
import Verif.Model.ArrayReader
/-!
# Specification: elements of binary and string arrays, and reading them one by one

The three layouts of the Arrow format: 32-bit offsets, 64-bit offsets, views. Of the model: loads from memory, and the reader
of one element (in `WkbRead`, `WktRead`), which has its own specification.
-/
namespace Verif.Spec
open Verif

inductive BinLayout where
  | offsets32 | offsets64 | views
  deriving DecidableEq, Repr

/-- The bytes from `lo` up to `hi` of a buffer. -/
def BytesOf (buffer : Option (Option (List Byte))) (lo hi : Nat) (bytes : List Byte) : Prop :=
  (∃ d, buffer = some (some d) ∧ lo ≤ hi ∧ hi ≤ d.length ∧ bytes = (d.drop lo).take (hi - lo)) ∨
  (buffer = some none ∧ lo = 0 ∧ hi = 0 ∧ bytes = [])

/-- Element `i` of an array of bytes. -/
def BytesAt (k : BinLayout) (a : AArray) (i : Nat) (bytes : List Byte) : Prop :=
  match k with
  | .offsets32 => ∃ b, ∃ lo hi : Nat, a.buffers[1]? = some (some b) ∧ i32At b (a.offset + i) = some (lo : Int) ∧
      i32At b (a.offset + i + 1) = some (hi : Int) ∧ BytesOf a.buffers[2]? lo hi bytes
  | .offsets64 => ∃ b, ∃ lo hi : Nat, a.buffers[1]? = some (some b) ∧ i64At b (a.offset + i) = some (lo : Int) ∧
      i64At b (a.offset + i + 1) = some (hi : Int) ∧ BytesOf a.buffers[2]? lo hi bytes
  | .views =>
    -- sixteen bytes: the size, then the data themselves if there are at most twelve, or four bytes of prefix, the number
    -- of the buffer and the position in it
    ∃ b, ∃ n : Nat, a.buffers[1]? = some (some b) ∧ i32At b (4 * (a.offset + i)) = some (n : Int) ∧
      ((n ≤ 12 ∧ 16 * (a.offset + i) + 16 ≤ b.length ∧ bytes = (b.drop (16 * (a.offset + i) + 4).toNat).take n) ∨
       (12 < n ∧ ∃ k o : Nat, i32At b (4 * (a.offset + i) + 2) = some (k : Int) ∧ i32At b (4 * (a.offset + i) + 3) = some (o : Int) ∧
          ∃ d, a.buffers[2 + k]? = some (some d) ∧ o + n ≤ d.length ∧ bytes = (d.drop o).take n))

/-- Element `i`: null or bytes. -/
def ElementAt (k : BinLayout) (a : AArray) (i : Nat) : Option (List Byte) → Prop
  | none => NullAt a i
  | some bytes => ValidAt a i ∧ BytesAt k a i bytes

/-- An array of bytes as the Arrow format describes it, with a validity bitmap if it has nulls. -/
structure BinArrayOk (k : BinLayout) (a : AArray) : Prop where
  children : a.children = []
  buffers : if k = .views then 2 ≤ a.buffers.length else a.buffers.length = 3
  range : 0 ≤ a.offset ∧ 0 ≤ a.length ∧ a.offset + a.length < 2 ^ 63
  empty : a.length = 0 → a.offset = 0
  nulls : a.buffers[0]? = some none → a.nullCount = 0
  elements : ∀ i : Nat, (i : Int) < a.length → ∃ bytes, BytesAt k a i bytes

/-- Type identifiers. -/
def wkbId : BinLayout → Int
  | .offsets32 => 100001
  | .offsets64 => 100002
  | .views => 100005
def wktId : BinLayout → Int
  | .offsets32 => 100003
  | .offsets64 => 100004
  | .views => 100006

/-- What reading one element by itself does: its callbacks and how it ends. -/
abbrev Read := List Byte → List Event → Outcome Unit → Prop

/-- Reading with a new WKB reader. -/
def WkbRead : Read := fun bytes t o => Behaves (fun _ h => wkbVisit ⟨0, 0, false, []⟩ bytes h) t o
/-- Reading with a new WKT reader. -/
def WktRead (parse : List Byte → Option Dbl) : Read := fun bytes t o =>
  Behaves (fun _ h => wktVisit parse bytes h { pos := 0, left := 0, nv := 0, n := 0, coords := fun _ => 0 }) t o

/-- Elements one after the other: the null feature for nulls; the first element that cannot be read ends it all. -/
def ElementsRead (read : Read) : List (Option (List Byte)) → List Event → Outcome Unit → Prop
  | [], t, o => t = [] ∧ o = .done ()
  | none :: es, t, o => ∃ t', ElementsRead read es t' o ∧ t = [.featStart, .nullFeat, .featEnd] ++ t'
  | some b :: es, t, o => ∃ t1 o1, read b t1 o1 ∧
      ((o1 = .done () ∧ ∃ t2, ElementsRead read es t2 o ∧ t = t1 ++ t2) ∨ (o1 ≠ .done () ∧ o = o1 ∧ t = t1))

/-- Array readers made for a type and used in any way since: other arrays may have been set, successfully or not, and the
readers of single elements be in any state. -/
inductive ReaderOf (type : Int) : AReader → Prop where
  | init {r} : arrayReaderInit type = some r → ReaderOf type r
  | fromSchema {c r} : arrayReaderInitFromSchema c = some r → r.type = type → ReaderOf type r
  | setArray {r r' a} : ReaderOf type r → (arrayReaderSetArray a r).state? = some r' → ReaderOf type r'
  | visited {r wkt wkb} : ReaderOf type r → ReaderOf type { r with wkt := wkt, wkb := wkb }

end Verif.Spec
