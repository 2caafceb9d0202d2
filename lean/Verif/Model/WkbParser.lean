import Verif.Model.Basic
/-!
# The C++ WKB parser

src/geoarrow/hpp/wkb_util.hpp
-/
namespace Verif

/-- `struct WKBSequence`, src/geoarrow/hpp/wkb_util.hpp:52-59. `pos` is `data` relative to the start of the blob. -/
structure CppSeq where
  pos : Nat
  length : Nat
  stride : Nat
  dims : Nat
  endian : Byte
  deriving DecidableEq, Repr

/-- `class WKBGeometry`, src/geoarrow/hpp/wkb_util.hpp:181-262: type, dimensions, SRID, the first `num_sequences_` entries
of `sequences_` and the first `num_geometries_` entries of `geometries_`. Entries beyond those counts, kept for reuse,
are not observable and not modelled. -/
inductive CppGeom where
  | mk (gt dims srid : Nat) (seqs : List CppSeq) (geoms : List CppGeom)
  deriving Repr

/-- The members of `class WKBParser`, src/geoarrow/hpp/wkb_util.hpp:331-337. `pos` is `cursor_ - data_`. -/
structure CppP where
  pos : Nat
  remaining : Nat
  endian : Byte
  dims : Nat
  stride : Nat
  deriving DecidableEq, Repr

/-- `enum Status`, src/geoarrow/hpp/wkb_util.hpp:268-281. -/
def TOO_FEW_BYTES : Code := 1
def TOO_MANY_BYTES : Code := 2
def INVALID_ENDIAN : Code := 3
def INVALID_GEOMETRY_TYPE : Code := 4

/-- `SafeLoadAs` / `LoadIdentity`: `n` bytes at offset `pos`, src/geoarrow/hpp/array_util.hpp:30-35, 173-177; `none` when
any byte lies outside the blob (undefined behaviour). -/
def cppLoad (blob : List Byte) (pos n : Nat) : Option (List Byte) :=
  if pos + n ≤ blob.length then some ((blob.drop pos).take n) else none

/-- `LoadIdentity` or `LoadSwapped` followed by reinterpretation as a little-endian integer,
src/geoarrow/hpp/array_util.hpp:173-190, src/geoarrow/hpp/wkb_util.hpp:33-48. Which of the two is picked follows
`last_endian_ == kLittleEndian` (wkb_util.hpp:130, 147, 516). -/
def cppLoadAs (blob : List Byte) (endian : Byte) (pos n : Nat) : Option Nat :=
  (cppLoad blob pos n).map fun bs => leVal (if endian = 1 then bs else bs.reverse)

/-- `CheckRemaining`, src/geoarrow/hpp/wkb_util.hpp:494-500 -/
def cppCheck (bytes : Nat) : M CppP Unit := fun s => if bytes ≤ s.remaining then .ok () s else .err TOO_FEW_BYTES s

/-- `Advance`, src/geoarrow/hpp/wkb_util.hpp:526-529; `remaining_` is a `size_t`, so subtracting too much wraps. -/
def cppAdvance (bytes : Nat) : M CppP Unit :=
  M.modify fun s => { s with pos := s.pos + bytes, remaining := if bytes ≤ s.remaining then s.remaining - bytes
                                                                else s.remaining + 2 ^ 64 - bytes }

/-- `ReadEndianUnchecked`, src/geoarrow/hpp/wkb_util.hpp:502-512 -/
def cppReadEndian (blob : List Byte) : M CppP Unit := fun s =>
  match blob[s.pos]? with
  | none => .ub
  | some b =>
    if b = 1 ∨ b = 0 then cppAdvance 1 { s with endian := b } else .err INVALID_ENDIAN { s with endian := b }

/-- `ReadUInt32Unchecked`, src/geoarrow/hpp/wkb_util.hpp:514-524 -/
def cppReadU32 (blob : List Byte) : M CppP Nat := fun s =>
  match cppLoadAs blob s.endian s.pos 4 with
  | none => .ub
  | some v => (cppAdvance 4 >>= fun _ => pure v) s

/-- Type, has_z and has_m from the type word, src/geoarrow/hpp/wkb_util.hpp:370-385, 398 -/
def cppTypeWord (w : Nat) : Nat × Bool × Bool :=
  let z := w &&& 0x80000000 != 0
  let m := w &&& 0x40000000 != 0
  let g := w &&& 0x00ffffff
  if g / 1000 = 1 then (g % 1000, true, m)
  else if g / 1000 = 2 then (g % 1000, z, true)
  else if g / 1000 = 3 then (g % 1000, true, true)
  else (g % 1000, z, m)

/-- src/geoarrow/hpp/wkb_util.hpp:388-396 -/
def cppDims (z m : Bool) : Nat := if z && m then 4 else if z then 2 else if m then 3 else 1

/-- Header part of `ParseGeometry`, src/geoarrow/hpp/wkb_util.hpp:346-398. Returns the SRID and the type. -/
def cppHeader (blob : List Byte) : M CppP (Nat × Nat) := do
  cppCheck 5
  cppReadEndian blob
  let w ← cppReadU32 blob
  let srid ← (if w &&& 0x20000000 != 0 then (do cppCheck 4; cppReadU32 blob) else pure 0xffffffff)
  let t := cppTypeWord w
  M.modify fun s => { s with stride := 2 + t.2.1.toNat + t.2.2.toNat, dims := cppDims t.2.1 t.2.2 }
  pure (srid, t.1)

/-- `NewSequenceAtCursor`, src/geoarrow/hpp/wkb_util.hpp:484-492 -/
def cppNewSequence (size : Nat) : M CppP CppSeq := fun s => .ok ⟨s.pos, size, s.stride, s.dims, s.endian⟩ s

/-- `ParsePoint`, src/geoarrow/hpp/wkb_util.hpp:420-430; `bytes_required` is a `uint32_t`. -/
def cppParsePoint : M CppP CppSeq := do
  let s ← M.get
  let bytes := u32 (s.stride * 8)
  cppCheck bytes
  let q ← cppNewSequence 1
  cppAdvance bytes
  pure q

/-- `ParseSequence`, src/geoarrow/hpp/wkb_util.hpp:432-448; `bytes_required` is a `size_t`. -/
def cppParseSequence (blob : List Byte) : M CppP CppSeq := do
  cppCheck 4
  let size ← cppReadU32 blob
  let s ← M.get
  let bytes := (8 * size * s.stride) % 2 ^ 64
  cppCheck bytes
  let q ← cppNewSequence size
  cppAdvance bytes
  pure q

/-- A loop appending `k` parsed items, src/geoarrow/hpp/wkb_util.hpp:457-462, 474-479. -/
def cppRepeat {α} (item : M CppP α) : Nat → M CppP (List α)
  | 0 => pure []
  | k + 1 => do
    let x ← item
    let xs ← cppRepeat item k
    pure (x :: xs)

/-- `ParseGeometry`, `ParsePolygon`, `ParseCollection`, src/geoarrow/hpp/wkb_util.hpp:346-418, 450-482; `child` parses a
member. What a failing parse leaves in `out` is not modelled. -/
def cppGeometryBody (blob : List Byte) (child : M CppP CppGeom) : M CppP CppGeom := do
  let h ← cppHeader blob
  let s ← M.get
  if h.2 = 1 then do
    let q ← cppParsePoint
    pure (.mk 1 s.dims h.1 [q] [])
  else if h.2 = 2 then do
    let q ← cppParseSequence blob
    pure (.mk 2 s.dims h.1 [q] [])
  else if h.2 = 3 then do
    cppCheck 4
    let size ← cppReadU32 blob
    let qs ← cppRepeat (cppParseSequence blob) size
    pure (.mk 3 s.dims h.1 qs [])
  else if h.2 = 4 ∨ h.2 = 5 ∨ h.2 = 6 ∨ h.2 = 7 then do
    cppCheck 4
    let size ← cppReadU32 blob
    let gs ← cppRepeat child size
    pure (.mk h.2 s.dims h.1 [] gs)
  else M.fail INVALID_GEOMETRY_TYPE

/-- `ParseGeometry` with at most `fuel` nested calls; running out counts as undefined behaviour, and never happens
(`C15_parser_inside`). The C++ recursion has no such limit; stack exhaustion is not modelled. -/
def cppGeometry (blob : List Byte) : Nat → M CppP CppGeom
  | 0 => M.undef
  | fuel + 1 => cppGeometryBody blob (cppGeometry blob fuel)

/-- What a caller of `Parse` sees: status, the geometry if it was parsed completely, the final cursor if set. -/
structure CppOut where
  status : Code
  out : Option CppGeom
  cursor : Option Nat

/-- `WKBParser::Parse(data, size, out, cursor)`, src/geoarrow/hpp/wkb_util.hpp:294-312, on a parser whose other members
hold whatever earlier calls left; `none` is undefined behaviour. -/
def cppParse (p : CppP) (blob : List Byte) (size : Nat) : Option CppOut :=
  match cppGeometry blob (size + 1) { p with pos := 0, remaining := size } with
  | .ub => none
  | .err rc _ => some ⟨rc, none, none⟩
  | .ok g s => some ⟨if s.pos < size then TOO_MANY_BYTES else 0, some g, some s.pos⟩

/-- `WKBParser::Parse(GeoArrowBufferView, ...)`, src/geoarrow/hpp/wkb_util.hpp:286-290: the size is cast to `uint32_t`. -/
def cppParseView (p : CppP) (blob : List Byte) : Option CppOut := cppParse p blob (u32 blob.length)

/-- Ordinates per coordinate by dimensions: `XY`, `XYZ`, `XYM`, `XYZM`, src/geoarrow/hpp/wkb_util.hpp:84-99. Any other
value throws; parsed sequences never have one. -/
def cppCoordSize : Nat → Option Nat
  | 1 => some 2
  | 2 => some 3
  | 3 => some 3
  | 4 => some 4
  | _ => none

/-- `UnalignedCoordSequence::coord` after `InitInterleaved(length, data, stride)`,
src/geoarrow/hpp/array_util.hpp:734-752, 768-774; `n` ordinates. -/
def cppSeqCoord (blob : List Byte) (q : CppSeq) (n i : Nat) : Option (List Dbl) :=
  (List.range n).mapM fun j => (cppLoadAs blob q.endian (q.pos + j * 8 + i * (q.stride * 8)) 8).map (BitVec.ofNat 64)

/-- `WKBSequence::VisitVertices` with the destination coordinate type equal to the source's: the coordinates passed to
the callback, in order. src/geoarrow/hpp/wkb_util.hpp:82-100, 128-143, src/geoarrow/hpp/array_util.hpp:797-802. -/
def cppSeqVertices (blob : List Byte) (q : CppSeq) : Option (List (List Dbl)) := do
  let n ← cppCoordSize q.dims
  (List.range q.length).mapM fun i => cppSeqCoord blob q n i

end Verif
