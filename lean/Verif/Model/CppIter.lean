import Verif.Model.CppInit
import Verif.Model.CppWkbArray
/-!
# C++ iterators over sequences, and sequences made from pointers

src/geoarrow/hpp/array_util.hpp:40-258, 555-587, 649-843. `T = double`. A pointer is a block and an index into it (in doubles for aligned, in bytes for
unaligned sequences). Simplification: pointers may be moved anywhere (C++ allows it only inside the array and one behind), and 64-bit positions do not
wrap.
-/
namespace Verif

/-- The moves `++it`, `--it`, `it += n`, `it -= n` -/
inductive CppMove where
  | inc | dec | add (n : Int) | sub (n : Int)
  deriving DecidableEq, Repr

/-- `BaseRandomAccessIterator`, src/geoarrow/hpp/array_util.hpp:36-67: the index in the sequence (the sequence itself is an argument below) -/
structure CppIt where
  i : Int
  deriving DecidableEq, Repr

/-- src/geoarrow/hpp/array_util.hpp:41-56 -/
def CppIt.move (it : CppIt) : CppMove → CppIt
  | .inc => ⟨it.i + 1⟩
  | .dec => ⟨it.i - 1⟩
  | .add n => ⟨it.i + n⟩
  | .sub n => ⟨it.i - n⟩

/-- src/geoarrow/hpp/array_util.hpp:57-63 -/
def CppIt.diff (a b : CppIt) : Int := a.i - b.i
def CppIt.lt (a b : CppIt) : Bool := decide (a.i < b.i)
def CppIt.gt (a b : CppIt) : Bool := decide (a.i > b.i)
def CppIt.le (a b : CppIt) : Bool := decide (a.i ≤ b.i)
def CppIt.ge (a b : CppIt) : Bool := decide (a.i ≥ b.i)
def CppIt.eq (a b : CppIt) : Bool := decide (a.i = b.i)
def CppIt.ne (a b : CppIt) : Bool := decide (a.i ≠ b.i)

/-- `begin()` and `end()` of `CoordSequence`, `UnalignedCoordSequence`, `ListSequence`, `BinarySequence`,
src/geoarrow/hpp/array_util.hpp:649-651, 826-828, 938-940, 980-982 -/
def cppBegin : CppIt := ⟨0⟩
def cppEnd (length : Int) : CppIt := ⟨length⟩

/-- `CoordSequenceIterator::operator*` and `operator[]`, src/geoarrow/hpp/array_util.hpp:81-82 -/
def cppItCoord (mem : CppMem) (offset stride : Int) (values : List (Nat × Int)) (it : CppIt) : Option (List Dbl) :=
  cppCoordAt mem offset stride values it.i
def cppItCoordSub (mem : CppMem) (offset stride : Int) (values : List (Nat × Int)) (it : CppIt) (k : Int) : Option (List Dbl) :=
  cppCoordAt mem offset stride values (it.i + k)

/-- `ListSequenceIterator::operator*`, src/geoarrow/hpp/array_util.hpp:96-99. `stashed` is the iterator's copy of the child, which still has the offset
and length of the element dereferenced before. -/
def cppItList (offset : Int) (offsets : List Int) (child stashed : CppSq) (it : CppIt) : Option CppSq :=
  match cppAt offsets (offset + it.i), cppAt offsets (offset + it.i + 1) with
  | some a, some b => some (stashed.set (child.offset + a) (b - a))
  | _, _ => none

/-- `BinarySequenceIterator::operator*` and `operator[]`, src/geoarrow/hpp/array_util.hpp:119-121 -/
def cppItBlob (a : CppBlobs) (it : CppIt) : Option (List Byte) := a.blob it.i
def cppItBlobSub (a : CppBlobs) (it : CppIt) (k : Int) : Option (List Byte) := a.blob (it.i + k)

/-- `StridedIterator<double>`, src/geoarrow/hpp/array_util.hpp:126-175 -/
structure CppStrided where
  block : Nat
  pos : Int
  stride : Int
  deriving DecidableEq, Repr

/-- src/geoarrow/hpp/array_util.hpp:129-150 -/
def CppStrided.move (it : CppStrided) : CppMove → CppStrided
  | .inc => { it with pos := it.pos + it.stride }
  | .dec => { it with pos := it.pos - it.stride }
  | .add n => { it with pos := it.pos + n * it.stride }
  | .sub n => { it with pos := it.pos - n * it.stride }

/-- `*it`, src/geoarrow/hpp/array_util.hpp:162 -/
def CppStrided.deref (mem : CppMem) (it : CppStrided) : Option Dbl := cppAt (mem it.block) it.pos
/-- `it[i]`, src/geoarrow/hpp/array_util.hpp:163: `ptr_[i]` -/
def CppStrided.sub (mem : CppMem) (it : CppStrided) (i : Int) : Option Dbl := cppAt (mem it.block) (it.pos + i)
/-- `it++`, src/geoarrow/hpp/array_util.hpp:133-137 -/
def CppStrided.post (mem : CppMem) (it : CppStrided) : Option (Dbl × CppStrided) :=
  (cppAt (mem it.block) it.pos).map fun v => (v, { it with pos := it.pos + it.stride })
/-- `a - b`, src/geoarrow/hpp/array_util.hpp:151-153: division truncates; a stride of zero is undefined. -/
def CppStrided.diff (a b : CppStrided) : Option Int := if a.stride = 0 then none else some ((a.pos - b.pos).tdiv a.stride)
/-- Comparisons (of iterators of the same block), src/geoarrow/hpp/array_util.hpp:154-159 -/
def CppStrided.lt (a b : CppStrided) : Bool := decide (a.pos < b.pos)
def CppStrided.gt (a b : CppStrided) : Bool := decide (a.pos > b.pos)
def CppStrided.le (a b : CppStrided) : Bool := decide (a.pos ≤ b.pos)
def CppStrided.ge (a b : CppStrided) : Bool := decide (a.pos ≥ b.pos)
def CppStrided.eq (a b : CppStrided) : Bool := decide (a.pos = b.pos)
def CppStrided.ne (a b : CppStrided) : Bool := decide (a.pos ≠ b.pos)

/-- `CoordSequence::dbegin` and `dend`, src/geoarrow/hpp/array_util.hpp:653-658 -/
def cppDBegin (offset stride : Int) (values : List (Nat × Int)) (j : Nat) : Option CppStrided :=
  (values[j]?).map fun v => ⟨v.1, v.2 + offset * stride, stride⟩
def cppDEnd (offset length stride : Int) (values : List (Nat × Int)) (j : Nat) : Option CppStrided :=
  (values[j]?).map fun v => ⟨v.1, v.2 + (offset + length) * stride, stride⟩

/-- `CoordSequence::InitInterleaved` for `n` ordinates, src/geoarrow/hpp/array_util.hpp:556-573; `none` is a null pointer, `old` the value pointers
from before (null unless initialised earlier). -/
def cppInitInterleaved (n : Nat) (length : Int) (data : Option (Nat × Int)) (stride : Int) (old : List (Nat × Int)) : Except Code CppSq :=
  match data with
  | none => if length ≠ 0 then .error EINVAL else .ok (.coords 0 length stride old)
  | some p => .ok (.coords 0 length stride ((List.range n).map fun i : Nat => (p.1, p.2 + (i : Int))))

/-- `CoordSequence::InitSeparated`, src/geoarrow/hpp/array_util.hpp:577-587 -/
def cppInitSeparated (length : Int) (dimensions : List (Nat × Int)) (stride : Int) : CppSq := .coords 0 length stride dimensions

/-! ## Unaligned sequences -/

/-- Blocks of bytes -/
abbrev CppBytes := Nat → List Byte

/-- `SafeLoadAs<double>`: eight bytes, src/geoarrow/hpp/array_util.hpp:28-33; `LoadIdentity`, `LoadSwapped`, lines 177-194 -/
def cppLoadAt (swapped : Bool) (l : List Byte) (p : Int) : Option Dbl :=
  if 0 ≤ p ∧ p + 8 ≤ l.length then
    let bs := (l.drop p.toNat).take 8
    some (Dbl.ofBytes (if swapped then bs.reverse else bs))
  else none

/-- `UnalignedCoordSequence<Coord, Load>`, src/geoarrow/hpp/array_util.hpp:673-707; `swapped` is `Load = LoadSwapped`. -/
structure CppUnSq where
  swapped : Bool
  offset : Int
  length : Int
  stride : Int
  values : List (Nat × Int)

/-- `coord`, src/geoarrow/hpp/array_util.hpp:768-774 -/
def CppUnSq.coord (mem : CppBytes) (s : CppUnSq) (i : Int) : Option (List Dbl) :=
  s.values.mapM fun v => cppLoadAt s.swapped (mem v.1) (v.2 + (s.offset + i) * s.stride)

/-- `Slice`, src/geoarrow/hpp/array_util.hpp:783-788. It returns `UnalignedCoordSequence<Coord>`: for swapped sequences it does not compile. -/
def CppUnSq.slice (s : CppUnSq) (o l : Int) : CppUnSq := { s with offset := s.offset + o, length := l }

/-- `VisitVertices` before `CoordCast`, src/geoarrow/hpp/array_util.hpp:797-802 -/
def CppUnSq.vertices (mem : CppBytes) (s : CppUnSq) : Option (List (List Dbl)) := do
  let is ← cppRange s.length
  is.mapM (s.coord mem)

/-- `VisitEdges` before `CoordCast`, src/geoarrow/hpp/array_util.hpp:809-824 -/
def CppUnSq.edges (mem : CppBytes) (s : CppUnSq) : Option (List (List Dbl × List Dbl)) :=
  if s.length < 2 then some []
  else
    match s.vertices mem with
    | none => none
    | some [] => some []
    | some (c :: cs) => some (cppEdgeLoop c cs)

/-- `InitFrom(GeoArrowCoordView*)` for `n` ordinates, src/geoarrow/hpp/array_util.hpp:710-722: `nValues`, `nCoords`, `stride` and `values` are the members
of the view; the other `InitFrom` calls this one with a pointer to `const` and does not compile. -/
def cppUnInitFrom (swapped : Bool) (n : Nat) (nValues nCoords stride : Int) (values : Nat → Nat × Int) : Except Code CppUnSq :=
  if nValues % 2 ^ 32 < n then .error EINVAL
  else .ok ⟨swapped, 0, nCoords, stride * 8, (List.range n).map values⟩

/-- `InitInterleaved`, src/geoarrow/hpp/array_util.hpp:734-752 -/
def cppUnInitInterleaved (swapped : Bool) (n : Nat) (length : Int) (data : Option (Nat × Int)) (stride : Int) (old : List (Nat × Int)) :
    Except Code CppUnSq :=
  match data with
  | none => if length ≠ 0 then .error EINVAL else .ok ⟨swapped, 0, length, stride * 8, old⟩
  | some p => .ok ⟨swapped, 0, length, stride * 8, (List.range n).map fun i : Nat => (p.1, p.2 + (i : Int) * 8)⟩

/-- `InitSeparated`, src/geoarrow/hpp/array_util.hpp:756-766 -/
def cppUnInitSeparated (swapped : Bool) (length : Int) (dimensions : List (Nat × Int)) (stride : Int) : CppUnSq :=
  ⟨swapped, 0, length, stride * 8, dimensions⟩

/-- The conversion of a byte to `double`, used by the postfix increment below -/
def u8ToDbl (b : Byte) : Dbl :=
  if b = 0 then 0
  else
    let e := Nat.log2 b.toNat
    BitVec.ofNat 64 ((1023 + e) * 2 ^ 52 + (b.toNat - 2 ^ e) * 2 ^ (52 - e))

/-- `UnalignedStridedIterator<double, Load>`, src/geoarrow/hpp/array_util.hpp:196-258 -/
structure CppUnIt where
  swapped : Bool
  block : Nat
  pos : Int
  stride : Int

/-- src/geoarrow/hpp/array_util.hpp:201-222 -/
def CppUnIt.move (it : CppUnIt) : CppMove → CppUnIt
  | .inc => { it with pos := it.pos + it.stride }
  | .dec => { it with pos := it.pos - it.stride }
  | .add n => { it with pos := it.pos + n * it.stride }
  | .sub n => { it with pos := it.pos - n * it.stride }

/-- `*it` and `it[i]`, src/geoarrow/hpp/array_util.hpp:244-245 -/
def CppUnIt.deref (mem : CppBytes) (it : CppUnIt) : Option Dbl := cppLoadAt it.swapped (mem it.block) it.pos
def CppUnIt.sub (mem : CppBytes) (it : CppUnIt) (i : Int) : Option Dbl := cppLoadAt it.swapped (mem it.block) (it.pos + i * it.stride)
/-- `it++`, src/geoarrow/hpp/array_util.hpp:205-209: `T retval = *ptr_` reads one byte. -/
def CppUnIt.post (mem : CppBytes) (it : CppUnIt) : Option (Dbl × CppUnIt) :=
  (cppAt (mem it.block) it.pos).map fun b => (u8ToDbl b, { it with pos := it.pos + it.stride })
/-- src/geoarrow/hpp/array_util.hpp:223-225 -/
def CppUnIt.diff (a b : CppUnIt) : Option Int := if a.stride = 0 then none else some ((a.pos - b.pos).tdiv a.stride)
/-- src/geoarrow/hpp/array_util.hpp:226-243 -/
def CppUnIt.lt (a b : CppUnIt) : Bool := decide (a.pos < b.pos)
def CppUnIt.gt (a b : CppUnIt) : Bool := decide (a.pos > b.pos)
def CppUnIt.le (a b : CppUnIt) : Bool := decide (a.pos ≤ b.pos)
def CppUnIt.ge (a b : CppUnIt) : Bool := decide (a.pos ≥ b.pos)
def CppUnIt.eq (a b : CppUnIt) : Bool := decide (a.pos = b.pos)
def CppUnIt.ne (a b : CppUnIt) : Bool := decide (a.pos ≠ b.pos)

/-- `UnalignedCoordSequence::dbegin` and `dend`, src/geoarrow/hpp/array_util.hpp:832-838 -/
def CppUnSq.dbegin (s : CppUnSq) (j : Nat) : Option CppUnIt :=
  (s.values[j]?).map fun v => ⟨s.swapped, v.1, v.2 + s.offset * s.stride, s.stride⟩
def CppUnSq.dend (s : CppUnSq) (j : Nat) : Option CppUnIt :=
  (s.values[j]?).map fun v => ⟨s.swapped, v.1, v.2 + (s.offset + s.length) * s.stride, s.stride⟩

/-! ## Sequences of blobs from an array view -/

/-- `BinarySequence<int32_t>::InitFrom` and `Array::Init`, src/geoarrow/hpp/array_util.hpp:964-970, 1071-1075; with the view of a serialized array -/
def cppBlobsInit (v : AView) : CppBlobs :=
  ⟨v.offset 0, v.length 0, i32sOf (v.offsets 0), v.data.getD [], v.validity⟩

end Verif
