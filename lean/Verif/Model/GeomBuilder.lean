import Verif.Model.Geometry
/-!
# Owning geometries: the builder visitor and `GeoArrowGeometryDeepCopy` (src/geoarrow/geometry.c)

The coordinates of an owning geometry are one block of memory; when it grows, a new block replaces it and every pointer is
moved over. Simplifications: the array of nodes is a list (its growth moves no pointer that is kept), and allocation
succeeds.
-/
namespace Verif

/-- `struct GeoArrowGeometry` with its private data, src/geoarrow/geometry.c:7-14. `data` are the `size_bytes` bytes in use
of the coordinate block `blk`, which has room for `cap`; `next` is the number of the next block to be allocated. -/
structure GeomB where
  nodes : List Node
  blk : Nat
  data : List Byte
  cap : Nat
  level : Nat
  next : Nat
  deriving DecidableEq, Repr

/-- `GeoArrowGeometryInit`, src/geoarrow/geometry.c:16-33 -/
def geomInit : GeomB := { nodes := [], blk := 1, data := [], cap := 0, level := 0, next := 2 }

/-- What can be read through the pointers of an owning geometry: the constant of empty points and its own block. -/
def GeomB.mem (b : GeomB) : Mem := fun i => if i = 0 then emptyPointCoords else if i = b.blk then b.data else []

/-- The address of `_GeoArrowkEmptyPointCoords`. -/
def emptyPtr : Ptr := ⟨0, 0⟩

/-- One pointer moved to the new block, src/geoarrow/geometry.c:177-182. The difference of pointers into different blocks is
undefined. -/
def movePtr (old new : Nat) (p : Ptr) : Option Ptr :=
  if p = emptyPtr then some p else if p.blk = old then some ⟨new, p.off⟩ else none

/-- The four pointers of a node, src/geoarrow/geometry.c:176-183 -/
def moveNode (old new : Nat) (n : Node) : Option Node :=
  match movePtr old new n.coords.a, movePtr old new n.coords.b, movePtr old new n.coords.c, movePtr old new n.coords.d with
  | some a, some b, some c, some d => some { n with coords := ⟨a, b, c, d⟩ }
  | _, _, _, _ => none

/-- All nodes, src/geoarrow/geometry.c:174-186 -/
def moveNodes (old new : Nat) : List Node → Option (List Node)
  | [] => some []
  | n :: ns =>
    match moveNode old new n, moveNodes old new ns with
    | some n', some ns' => some (n' :: ns')
    | _, _ => none

/-- `GeoArrowGeometryReserveCoords` and `GeoArrowGeometryReallocCoords`, src/geoarrow/geometry.c:157-214. `doubles` is -1 for
unknown dimensions. -/
def gbReserve (doubles : Int) : M GeomB Unit := fun b =>
  if (b.data.length : Int) + doubles * 8 > b.cap then
    match moveNodes b.blk b.next b.nodes with
    | none => .ub
    | some ns =>
      .ok () { b with nodes := ns, blk := b.next, next := b.next + 1,
                      cap := if (b.data.length : Int) + doubles * 8 > b.data.length * 2 then ((b.data.length : Int) + doubles * 8).toNat
                             else b.data.length * 2 }
  else .ok () b

/-- Pointers and strides of a sequence that starts at the end of the coordinates, src/geoarrow/geometry.c:257-260 -/
def seqNode (n : Node) (blk start : Nat) (nv : Int) : Node :=
  { n with coords := Quad.ofFn fun i => if (i : Int) < nv then ⟨blk, (start : Int) + i * 8⟩ else n.coords.get i,
           stride := Quad.ofFn fun i => if (i : Int) < nv then nv * 8 else n.stride.get i }

/-- Replace the last node. -/
def setLast (ns : List Node) (n : Node) : List Node := ns.dropLast ++ [n]

/-- `geom_start_geometry`, src/geoarrow/geometry.c:234-274; type, dimensions and level are stored in one byte each. -/
def gbGeomStart (gt dims : Nat) : M GeomB Unit := do
  M.modify fun b => { b with nodes := b.nodes ++ [{ blankNode with gt := gt % 256, dims := dims % 256, level := b.level % 256 }] }
  if gt = 1 ∨ gt = 2 then
    match numDimensions dims with
    | none => M.undef
    | some nv => do
      gbReserve nv
      M.modify fun b =>
        { b with nodes := setLast b.nodes (seqNode (b.nodes.getLastD blankNode) b.blk b.data.length nv) }
  else pure ()
  let b ← M.get
  if b.level = 31 then M.fail EINVAL
  else M.modify fun b => { b with level := b.level + 1 }

/-- `ring_start_geometry`, src/geoarrow/geometry.c:276-286 -/
def gbRingStart : M GeomB Unit := do
  let b ← M.get
  match b.nodes.getLast? with
  | none => M.fail EINVAL
  | some last => gbGeomStart 2 last.dims

/-- `coords_geometry`, src/geoarrow/geometry.c:288-312. Writing more than was reserved is undefined. -/
def gbCoords (nv : Nat) (cs : List (List Dbl)) : M GeomB Unit := do
  let b ← M.get
  match b.nodes with
  | [] => M.fail EINVAL
  | _ => do
    gbReserve ((cs.length : Int) * nv)
    fun b =>
      if b.data.length + (cs.flatMap fun c => c.flatMap Dbl.bytes).length > b.cap then .ub
      else .ok () { b with data := b.data ++ cs.flatMap fun c => c.flatMap Dbl.bytes }

/-- `ring_end_geometry` and `geom_end_geometry`, src/geoarrow/geometry.c:314-342 -/
def gbClose : M GeomB Unit := do
  let b ← M.get
  if b.level = 0 then M.fail EINVAL
  else M.modify fun b => { b with level := b.level - 1 }

/-- Locals of the loop in `feat_end_geometry`: `end` and `sizes[32]`, src/geoarrow/geometry.c:363-369 -/
structure RollSt where
  fin : Ptr
  sizes : Nat → Nat

/-- One step of the loop, src/geoarrow/geometry.c:371-390. Undefined: indices of `sizes` above 31, differences of pointers
into different blocks and division by zero. -/
def rollNode (n : Node) (st : RollSt) : Option (Node × RollSt) :=
  if n.level > 31 then none
  else
    let sizes := fun l => if l = n.level then u32 (st.sizes l + 1) else st.sizes l
    if n.gt = 1 ∨ n.gt = 2 then
      if st.fin.blk ≠ n.coords.a.blk ∨ n.stride.a = 0 then none
      else some ({ n with size := (((st.fin.off - n.coords.a.off).tdiv n.stride.a) % 4294967296).toNat }, ⟨n.coords.a, sizes⟩)
    else if 3 ≤ n.gt ∧ n.gt ≤ 7 then
      if n.level + 1 > 31 then none
      else some ({ n with size := sizes (n.level + 1) }, ⟨st.fin, fun l => if l = n.level + 1 then 0 else sizes l⟩)
    else some (n, ⟨st.fin, sizes⟩)

/-- The loop from the last node to the first, src/geoarrow/geometry.c:370-391 -/
def rollNodes : List Node → RollSt → Option (List Node × RollSt)
  | [], st => some ([], st)
  | n :: ns, st =>
    match rollNodes ns st with
    | none => none
    | some (ns', st') =>
      match rollNode n st' with
      | none => none
      | some (n', st'') => some (n' :: ns', st'')

/-- `feat_end_geometry`, src/geoarrow/geometry.c:344-394 -/
def gbFeatEnd : M GeomB Unit := fun b =>
  match b.nodes with
  | [] => .err EINVAL b
  | _ =>
    if b.data.length = 0 then .ok () b
    else
      match rollNodes b.nodes ⟨⟨b.blk, b.data.length⟩, fun _ => 0⟩ with
      | none => .ub
      | some (ns, _) => .ok () { b with nodes := ns }

/-- The visitor of `GeoArrowGeometryInitVisitor`, src/geoarrow/geometry.c:216-232, 396-409 -/
def geomBuilder : Handler GeomB
  | .featStart => M.modify fun b => { b with nodes := [], data := [], level := 0 }
  | .nullFeat => M.modify fun b => { b with nodes := b.nodes ++ [blankNode] }
  | .geomStart gt dims => gbGeomStart gt dims
  | .ringStart => gbRingStart
  | .coords nv cs => gbCoords nv cs
  | .ringEnd => gbClose
  | .geomEnd => gbClose
  | .featEnd => gbFeatEnd

/-- `GeoArrowGeometryAsView`: the view of an owning geometry. -/
def GeomB.view (b : GeomB) : View := ⟨b.nodes⟩

/-! ## Deep copies -/

/-- The first loop of `GeoArrowGeometryDeepCopy`: bytes needed for all sequences, src/geoarrow/geometry.c:101-114 -/
def deepBytes (m : Mem) : List Node → Option Nat
  | [] => some 0
  | n :: ns =>
    if n.gt = 1 ∨ n.gt = 2 then
      match nodeWriteSequence m n [], deepBytes m ns with
      | some (k, _), some rest => some (k + rest)
      | _, _ => none
    else deepBytes m ns

/-- `ArrowBufferResize` without shrinking: the old contents, then bytes of no particular value. -/
def bufResize (old : List Byte) (n : Nat) : List Byte := old.take n ++ List.replicate (n - old.length) 0

/-- The second loop, src/geoarrow/geometry.c:123-149: coordinates are written from `off` on; pointers and strides follow, the
other members of the nodes are those of the source, flags included. -/
def deepNodes (m : Mem) (blk : Nat) : List Node → (off : Nat) → (buf : List Byte) → Option (List Node × List Byte)
  | [], _, buf => some ([], buf)
  | n :: ns, off, buf =>
    if n.gt = 1 ∨ n.gt = 2 then
      match nvals n.dims with
      | none => none
      | some nv =>
        match nodeWriteSequence m n (buf.drop off) with
        | none => none
        | some (k, tail) =>
          match deepNodes m blk ns (off + k) (buf.take off ++ tail) with
          | none => none
          | some (ns', buf') => some (seqNode n blk off nv :: ns', buf')
    else
      match deepNodes m blk ns off buf with
      | none => none
      | some (ns', buf') => some (n :: ns', buf')

/-- `GeoArrowGeometryDeepCopy`, src/geoarrow/geometry.c:96-152: `m` is the memory of the source; the coordinate block of the
destination may move. -/
def deepCopy (m : Mem) (src : View) : M GeomB Unit := fun b =>
  match deepBytes m src.nodes with
  | none => .ub
  | some total =>
    let blk := if total > b.cap then b.next else b.blk
    match deepNodes m blk src.nodes 0 (bufResize b.data total) with
    | none => .ub
    | some (ns, buf) =>
      .ok () { b with nodes := ns, data := buf, blk := blk, next := if total > b.cap then b.next + 1 else b.next, cap := max b.cap total }

end Verif
