import Verif.Model.Geometry
/-!
# Dimension mapping and generic coordinate copies

src/geoarrow/geoarrow_type_inline.h:301-353, 446-461, 506-626
-/
namespace Verif

/-- `GeoArrowMapDimensions(src_dim, dst_dim, dim_map)`, src/geoarrow/geoarrow_type_inline.h:301-353. Dimension
codes: XY=1, XYZ=2, XYM=3, XYZM=4. -/
def mapDimensions (srcDim dstDim : Nat) : Quad Int :=
  if dstDim = 3 then
    if srcDim = 3 then ⟨0, 1, 2, -1⟩ else if srcDim = 4 then ⟨0, 1, 3, -1⟩ else ⟨0, 1, -1, -1⟩
  else if dstDim = 2 then
    if srcDim = 2 ∨ srcDim = 4 then ⟨0, 1, 2, -1⟩ else ⟨0, 1, -1, -1⟩
  else if dstDim = 4 then
    if srcDim = 2 then ⟨0, 1, 2, -1⟩
    else if srcDim = 3 then ⟨0, 1, -1, 2⟩
    else if srcDim = 4 then ⟨0, 1, 2, 3⟩
    else ⟨0, 1, -1, -1⟩
  else ⟨0, 1, -1, -1⟩

/-- Memory of doubles: blocks of cells; `none` is a cell outside any allocation. -/
abbrev DMem := Nat → Nat → Option Dbl

/-- Store to one cell; `none` if the cell is not allocated. -/
def DMem.store (d : DMem) (c : Nat × Nat) (x : Dbl) : Option DMem :=
  if (d c.1 c.2).isSome then some (fun b i => if b = c.1 ∧ i = c.2 then some x else d b i) else none

/-- `struct GeoArrowCoordView` / `GeoArrowWritableCoordView` (src/geoarrow/geoarrow_type.h:664-704): `values[4]`
as (block, element index), `coords_stride`, `n_values`. -/
structure CoordView where
  vals : Quad (Nat × Nat)
  stride : Nat
  nValues : Nat
  deriving DecidableEq, Repr

/-- Address of `GEOARROW_COORD_VIEW_VALUE(v, row, col)`, src/geoarrow/geoarrow_type.h:709-710 -/
def CoordView.cell (v : CoordView) (row col : Nat) : Nat × Nat :=
  ((v.vals.get col).1, (v.vals.get col).2 + row * v.stride)

/-- Read `GEOARROW_COORD_VIEW_VALUE(v, row, col)` -/
def CoordView.get (v : CoordView) (d : DMem) (row col : Nat) : Option Dbl := d (v.cell row col).1 (v.cell row col).2

/-- `for (i = 0; i < n; i++) dst(dst_offset + i, dcol) = src(src_offset + i, scol)` with `k` iterations left
starting at `i`; src/geoarrow/geoarrow_type_inline.h:605-608, 621-624. `src` and `dst` memory are disjoint. -/
def copyCol (S : DMem) (src : CoordView) (srcOff scol : Nat) (dst : CoordView) (dstOff dcol : Nat) :
    (k i : Nat) → DMem → Option DMem
  | 0, _, D => some D
  | k + 1, i, D =>
    match src.get S (srcOff + i) scol with
    | none => none
    | some x =>
      match D.store (dst.cell (dstOff + i) dcol) x with
      | none => none
      | some D' => copyCol S src srcOff scol dst dstOff dcol k (i + 1) D'

/-- `memcpy(&dst(dst_offset + i, dcol), _GeoArrowkEmptyPointCoords, 8)` for `n` rows,
src/geoarrow/geoarrow_type_inline.h:600-603, 616-619. -/
def fillCol (dst : CoordView) (dstOff dcol : Nat) : (k i : Nat) → DMem → Option DMem
  | 0, _, D => some D
  | k + 1, i, D =>
    match D.store (dst.cell (dstOff + i) dcol) (Dbl.ofBytes (emptyPointCoords.take 8)) with
    | none => none
    | some D' => fillCol dst dstOff dcol k (i + 1) D'

/-- First loop: X and Y of every row, src/geoarrow/geoarrow_type_inline.h:585-590. -/
def copyXY (S : DMem) (src : CoordView) (srcOff : Nat) (dst : CoordView) (dstOff : Nat) :
    (k i : Nat) → DMem → Option DMem
  | 0, _, D => some D
  | k + 1, i, D => do
    let x ← src.get S (srcOff + i) 0
    let D ← D.store (dst.cell (dstOff + i) 0) x
    let y ← src.get S (srcOff + i) 1
    let D ← D.store (dst.cell (dstOff + i) 1) y
    copyXY S src srcOff dst dstOff k (i + 1) D

/-- One of the trailing dimensions: copy if mapped, NaN if not. src/geoarrow/geoarrow_type_inline.h:599-609, 615-625 -/
def copyMapped (S : DMem) (src : CoordView) (srcOff : Nat) (dst : CoordView) (dstOff dcol : Nat) (mapped : Int)
    (n : Nat) (D : DMem) : Option DMem :=
  if mapped = -1 then fillCol dst dstOff dcol n 0 D
  else copyCol S src srcOff mapped.toNat dst dstOff dcol n 0 D

/-- `GeoArrowCoordViewCopy`, src/geoarrow/geoarrow_type_inline.h:578-626. `S` is the memory read, `D` the memory
written (no aliasing); `none` is undefined behaviour. -/
def coordViewCopy (S : DMem) (src : CoordView) (srcDim srcOff : Nat) (D : DMem) (dst : CoordView)
    (dstDim dstOff n : Nat) : Option DMem := do
  let D ← copyXY S src srcOff dst dstOff n 0 D
  if dst.nValues = 2 then some D
  else
    let map := mapDimensions srcDim dstDim
    let D ← copyMapped S src srcOff dst dstOff 2 (map.get 2) n D
    if dst.nValues = 3 then some D
    else copyMapped S src srcOff dst dstOff 3 (map.get 3) n D

/-! ## Extraction from a geometry view -/

/-- `GeoArrowGeometryViewNumCoords`, src/geoarrow/geoarrow_type_inline.h:446-461; the count is a `uint32_t`. -/
def viewNumCoords (v : View) : Nat :=
  v.nodes.foldl (fun count node => if node.gt = 1 ∨ node.gt = 2 then u32 (count + node.size) else count) 0

/-- Output memory: doubles addressed by byte pointers (the caller's cells do not overlap). -/
abbrev OMem := Ptr → Option Dbl

def OMem.store (o : OMem) (p : Ptr) (x : Dbl) : Option OMem :=
  if (o p).isSome then some (fun q => if q = p then some x else o q) else none

/-- Copy loop for one output dimension of one node, src/geoarrow/geoarrow_type_inline.h:543-557: `k` doubles left. -/
def copyOrds (m : Mem) (swap : Bool) (sstride dstride : Int) :
    (k : Nat) → (src dst : Ptr) → OMem → Option (Ptr × OMem)
  | 0, _, dst, o => some (dst, o)
  | k + 1, src, dst, o =>
    match m.load src 8 with
    | none => none
    | some bs =>
      let v := Dbl.ofBytes bs
      match o.store dst (if swap then bswap64 v else v) with
      | none => none
      | some o' => copyOrds m swap sstride dstride k (src.add sstride) (dst.add dstride) o'

/-- Loop over output dimensions `i` for one node, src/geoarrow/geoarrow_type_inline.h:537-558; `src[0]` is the NaN
constant with stride 0 and `src[map[i] + 1]` the source dimension. `k` dimensions left. -/
def copyNodeDims (m : Mem) (node : Node) (outStride : Quad Int) (map : Quad Int) :
    (k i : Nat) → (Nat → Ptr) → OMem → Option ((Nat → Ptr) × OMem)
  | 0, _, cur, o => some (cur, o)
  | k + 1, i, cur, o =>
    let mi := map.get i
    let src : Ptr := if mi = -1 then ⟨0, 0⟩ else node.coords.get mi.toNat
    let sstride : Int := if mi = -1 then 0 else node.stride.get mi.toNat
    match copyOrds m node.swap sstride (outStride.get i) node.size src (cur i) o with
    | none => none
    | some (p, o') =>
      copyNodeDims m node outStride map k (i + 1) (fun j => if j = i then p else cur j) o'

/-- Loop over nodes, src/geoarrow/geoarrow_type_inline.h:522-569. -/
def copyNodes (m : Mem) (outStride : Quad Int) (outDims nOut : Nat) :
    List Node → (Nat → Ptr) → OMem → Option OMem
  | [], _, o => some o
  | node :: ns, cur, o =>
    if node.gt = 1 ∨ node.gt = 2 then
      match copyNodeDims m node outStride (mapDimensions node.dims outDims) nOut 0 cur o with
      | none => none
      | some (cur', o') => copyNodes m outStride outDims nOut ns cur' o'
    else copyNodes m outStride outDims nOut ns cur o

/-- `GeoArrowGeometryViewCopyCoordsGeneric`, src/geoarrow/geoarrow_type_inline.h:506-571; `none` is undefined
behaviour. -/
def viewCopyCoordsGeneric (m : Mem) (v : View) (out : Quad Ptr) (outStride : Quad Int) (outDims : Nat) (o : OMem) :
    Option OMem :=
  match nvals outDims with
  | none => none
  | some nOut => copyNodes m outStride outDims nOut v.nodes out.get o

end Verif
