import Verif.Model.TypeInline
import Verif.Model.Visitor
/-!
# Geometry nodes, coordinate sequences and visiting a geometry view

src/geoarrow/geoarrow_type_inline.h (NodeWriteSequence) and src/geoarrow/geometry.c (Visit).
-/
namespace Verif

/-- A pointer into one allocation: block number and byte offset. Offsets are `Int` so that pointer arithmetic with
negative strides is expressible. Block 0 is the constant `_GeoArrowkEmptyPointCoords`. -/
structure Ptr where
  blk : Nat
  off : Int
  deriving DecidableEq, Repr

/-- `p + n` -/
def Ptr.add (p : Ptr) (n : Int) : Ptr := ⟨p.blk, p.off + n⟩

/-- Memory readable by the library: the bytes of every block. -/
abbrev Mem := Nat → List Byte

/-- `memcpy` of `n` bytes from `p`; `none` when any byte lies outside the block (undefined behaviour). -/
def Mem.load (m : Mem) (p : Ptr) (n : Nat) : Option (List Byte) :=
  if 0 ≤ p.off ∧ p.off + n ≤ (m p.blk).length then some (((m p.blk).drop p.off.toNat).take n) else none

/-- `_GeoArrowkEmptyPointCoords`: four little-endian NaNs, src/geoarrow/geoarrow_type_inline.h:356-366 -/
def emptyPointCoords : List Byte :=
  [0x00, 0x00, 0x00, 0x00, 0x00, 0x00, 0xf8, 0x7f, 0x00, 0x00, 0x00, 0x00, 0x00, 0x00, 0xf8, 0x7f,
   0x00, 0x00, 0x00, 0x00, 0x00, 0x00, 0xf8, 0x7f, 0x00, 0x00, 0x00, 0x00, 0x00, 0x00, 0xf8, 0x7f]

/-- C arrays `T[4]`. -/
structure Quad (α : Type) where
  a : α
  b : α
  c : α
  d : α
  deriving DecidableEq, Repr

/-- indexing (used for indices 0..3 only) -/
def Quad.get {α} (q : Quad α) : Nat → α
  | 0 => q.a
  | 1 => q.b
  | 2 => q.c
  | _ => q.d

def Quad.ofFn {α} (f : Nat → α) : Quad α := ⟨f 0, f 1, f 2, f 3⟩

/-- `struct GeoArrowGeometryNode`, src/geoarrow/geoarrow_type.h:463-547 (`user_data` omitted).
`swap` is bit 0 of `flags` (`GEOARROW_GEOMETRY_NODE_FLAG_SWAP_ENDIAN`), the only defined flag. -/
structure Node where
  coords : Quad Ptr
  stride : Quad Int
  size : Nat
  gt : Nat
  dims : Nat
  swap : Bool
  level : Nat
  deriving DecidableEq, Repr

/-- `struct GeoArrowGeometryView`, src/geoarrow/geoarrow_type.h:552-565: root pointer and `size_nodes`; here the
nodes it may access. -/
structure View where
  nodes : List Node
  deriving DecidableEq, Repr

/-- `_GeoArrowkNumDimensions[d]` for the only dimensions with a non-negative entry; `none` models an index outside the
table, or `UNKNOWN`, whose entry -1 becomes 2^32-1 in the `uint32_t`/loop uses below and indexes outside `src[4]`.
src/geoarrow/geoarrow_type_inline.h:284 -/
def nvals (d : Nat) : Option Nat :=
  match d with
  | 1 => some 2
  | 2 => some 3
  | 3 => some 3
  | 4 => some 4
  | _ => none

/-- `memcpy(dst, src, n)` into a buffer at an offset; `none` when it would write outside the buffer. -/
def bufWrite (buf : List Byte) (off : Nat) (bs : List Byte) : Option (List Byte) :=
  if off + bs.length ≤ buf.length then some (buf.take off ++ bs ++ buf.drop (off + bs.length)) else none

/-- Inner loop `for (j = 0; j < n_values; j++)` of NodeWriteSequence starting at `j`: copies one ordinate and advances
`src[j]`; returns the new cursors and buffer. src/geoarrow/geoarrow_type_inline.h:479-483. `k` counts the remaining
iterations. -/
def writeOrds (m : Mem) (stride : Quad Int) : (k j : Nat) → (src : Nat → Ptr) → (off : Nat) → List Byte →
    Option ((Nat → Ptr) × List Byte)
  | 0, _, src, _, buf => some (src, buf)
  | k + 1, j, src, off, buf =>
    match m.load (src j) 8 with
    | none => none
    | some bs =>
      match bufWrite buf off bs with
      | none => none
      | some buf' =>
        writeOrds m stride k (j + 1) (fun i => if i = j then (src j).add (stride.get j) else src i) (off + 8) buf'

/-- Outer loop `for (i = 0; i < n_coords; i++)`, src/geoarrow/geoarrow_type_inline.h:478-484. -/
def writeCoordsLoop (m : Mem) (stride : Quad Int) (nv : Nat) : (n : Nat) → (src : Nat → Ptr) → (off : Nat) →
    List Byte → Option (List Byte)
  | 0, _, _, buf => some buf
  | n + 1, src, off, buf =>
    match writeOrds m stride nv 0 src off buf with
    | none => none
    | some (src', buf') => writeCoordsLoop m stride nv n src' (off + 8 * nv) buf'

/-- In-place byte swap of `n` doubles starting at `off`, src/geoarrow/geoarrow_type_inline.h:486-494. -/
def swapLoop : (n off : Nat) → List Byte → List Byte
  | 0, _, buf => buf
  | n + 1, off, buf =>
    let tmp := Dbl.ofBytes ((buf.drop off).take 8)
    swapLoop n (off + 8) (buf.take off ++ Dbl.bytes (bswap64 tmp) ++ buf.drop (off + 8))

/-- `GeoArrowGeometryNodeWriteSequence(node, dst, dst_size)`, src/geoarrow/geoarrow_type_inline.h:465-496, with
`dst_size = dst.length`. Returns the reported byte count and the buffer contents afterwards; `none` is undefined
behaviour. `n_values * n_coords` is computed in `uint32_t` and wraps. The swap pass covers the last
`bytes_required` bytes before the end of what was written. -/
def nodeWriteSequence (m : Mem) (node : Node) (dst : List Byte) : Option (Nat × List Byte) :=
  match nvals node.dims with
  | none => none
  | some nv =>
    let required := u32 (nv * node.size) * 8
    if dst.length < required then some (required, dst)
    else
      match writeCoordsLoop m node.stride nv node.size node.coords.get 0 dst with
      | none => none
      | some buf =>
        let written := nv * node.size * 8
        if node.swap then some (required, swapLoop (required / 8) (written - required) buf)
        else some (required, buf)

/-- Reading `n` coordinates of `nv` doubles out of the stack buffer `double coords[384]`
(the `GeoArrowCoordView` set up in src/geoarrow/geometry.c:416-421). -/
def decodeCoords (nv : Nat) : (n : Nat) → List Byte → List (List Dbl)
  | 0, _ => []
  | n + 1, bs =>
    (List.range nv).map (fun j => Dbl.ofBytes ((bs.drop (8 * j)).take 8)) :: decodeCoords nv n (bs.drop (8 * nv))

/-- `COORD_CACHE_SIZE_ELEMENTS`, src/geoarrow/geometry.c:411 -/
def coordCacheSize : Nat := 384

/-- `n * stride` bytes further in every dimension, src/geoarrow/geometry.c:438-440 -/
def Node.advance (node : Node) (nv n : Nat) : Node :=
  { node with coords := Quad.ofFn fun i =>
      if i < nv then (node.coords.get i).add ((n : Int) * node.stride.get i) else node.coords.get i }

/-- Last chunk of a sequence: `n` coordinates left, src/geoarrow/geometry.c:443-447 -/
def visitLastChunk {σ} (m : Mem) (h : Handler σ) (nv : Nat) (node : Node) (n : Nat) (cache : List Byte) : M σ Unit :=
  match nodeWriteSequence m { node with size := n } cache with
  | none => M.undef
  | some (_, cache') => h (.coords nv (decodeCoords nv n cache'))

/-- The `while (n_coords > chunk_size)` loop with `n` coordinates left and the buffer contents `cache` (initially
uninitialised; its contents never matter), then the last chunk. src/geoarrow/geometry.c:430-447.
`fuel` bounds the iterations (the caller passes `n`, which suffices because each iteration consumes `chunk ≥ 1`). -/
def visitSequenceLoop {σ} (m : Mem) (h : Handler σ) (nv chunk : Nat) :
    (fuel : Nat) → Node → (n : Nat) → (cache : List Byte) → M σ Unit
  | 0, node, n, cache => visitLastChunk m h nv node n cache
  | fuel + 1, node, n, cache =>
    if chunk < n then
      match nodeWriteSequence m { node with size := chunk } cache with
      | none => M.undef
      | some (_, cache') => do
        h (.coords nv (decodeCoords nv chunk cache'))
        visitSequenceLoop m h nv chunk fuel (node.advance nv chunk) (n - chunk) cache'
    else visitLastChunk m h nv node n cache

/-- `GeoArrowGeometryVisitSequence`, src/geoarrow/geometry.c:412-448 -/
def visitSequence {σ} (m : Mem) (h : Handler σ) (node : Node) : M σ Unit :=
  match nvals node.dims with
  | none => M.undef
  | some nv =>
    visitSequenceLoop m h nv (coordCacheSize / nv) node.size node node.size
      (List.replicate (8 * coordCacheSize) 0)

/-- Ring loop of a polygon, src/geoarrow/geometry.c:469-473: `k` rings left, next ring node at index `idx`. -/
def visitRings {σ} (m : Mem) (h : Handler σ) (nodes : List Node) : (k idx : Nat) → M σ Unit
  | 0, _ => pure ()
  | k + 1, idx => do
    h .ringStart
    match nodes[idx]? with
    | none => M.undef
    | some r => visitSequence m h r
    h .ringEnd
    visitRings m h nodes k (idx + 1)

/-- Child loop of a multi geometry, src/geoarrow/geometry.c:481-487: `k` children left, next child at `idx`; `vn` is the
recursive call `GeoArrowGeometryVisitNode(child, n_nodes, v)`. -/
def visitChildren {σ} (vn : (idx : Nat) → (n : Int) → M σ Int) : (k idx : Nat) → (n : Int) → M σ Int
  | 0, _, n => pure n
  | k + 1, idx, n => do
    let n' ← vn idx n
    visitChildren vn k (idx + (n - n').toNat) n'

/-- `GeoArrowGeometryVisitNode(node, n_nodes, v)`, src/geoarrow/geometry.c:450-497. `idx` is the position of `node` in
the node array, `n` the value of `*n_nodes`; returns the new `*n_nodes`. Note that the check `(*n_nodes)-- <= 0`
(lines 453-455) only sets an error message and carries on, so it has no effect on control flow.
Reading a node outside the array is undefined behaviour. `fuel` bounds the recursion depth; see
`Verif.Proof.Geometry` for its irrelevance. -/
def visitNode {σ} (m : Mem) (h : Handler σ) (nodes : List Node) : (fuel idx : Nat) → (n : Int) → M σ Int
  | 0, _, _ => M.undef
  | fuel + 1, idx, n =>
    let n := n - 1
    match nodes[idx]? with
    | none => M.undef
    | some node => do
      h (.geomStart node.gt node.dims)
      if node.gt = 1 ∨ node.gt = 2 then
        visitSequence m h node
        h .geomEnd
        pure n
      else if node.gt = 3 then
        if n < node.size then M.fail EINVAL
        else
          visitRings m h nodes node.size (idx + 1)
          h .geomEnd
          pure (n - node.size)
      else if 4 ≤ node.gt ∧ node.gt ≤ 7 then
        let n' ← visitChildren (visitNode m h nodes fuel) node.size (idx + 1) n
        h .geomEnd
        pure n'
      else M.fail EINVAL

/-- `GeoArrowGeometryViewVisit`, src/geoarrow/geometry.c:499-512 (and `GeoArrowGeometryVisit`, 514-527, which is the
same code on an owning geometry). -/
def viewVisit {σ} (m : Mem) (h : Handler σ) (v : View) : M σ Unit := do
  h .featStart
  let n ← visitNode m h v.nodes (v.nodes.length + 1) 0 v.nodes.length
  if n ≠ 0 then M.fail EINVAL
  else h .featEnd

/-- A freshly appended node: all zero except that the coordinate pointers address the empty-point constant with stride
0, src/geoarrow/geoarrow_type_inline.h:368-382, 430-442. -/
def blankNode : Node :=
  { coords := ⟨⟨0, 0⟩, ⟨0, 0⟩, ⟨0, 0⟩, ⟨0, 0⟩⟩, stride := ⟨0, 0, 0, 0⟩, size := 0, gt := 0, dims := 0,
    swap := false, level := 0 }

end Verif
