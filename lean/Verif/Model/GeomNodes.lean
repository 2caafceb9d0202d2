import Verif.Model.GeomBuilder
/-!
# The array of nodes of an owning geometry (src/geoarrow/geometry.c, src/geoarrow/geoarrow_type_inline.h)

`Verif.Model.GeomBuilder` keeps the nodes in a list; this file has the array itself: the members `root`, `size_nodes` and `capacity_nodes`
that the caller sees, the `ArrowBuffer` behind them, and the blocks of memory. Simplified: sums of sizes in bytes do not leave 64 bits
(products do, see `nodesToBytes`); the coordinates are left out; of nanoarrow the release build is modelled, in which
`NANOARROW_DCHECK` does nothing.
-/
namespace Verif

/-- `ENOMEM` of Linux -/
def ENOMEM : Code := 12

/-- A block of nodes; `none` is a node whose memory nobody has written to. -/
abbrev NodeBlock := List (Option Node)

/-- `struct GeoArrowGeometry`, src/geoarrow/geoarrow_type.h:571-586, with the buffer `nodes` of `struct GeoArrowGeometryPrivate`,
src/geoarrow/geometry.c:6-13 (`buf…`, sizes in bytes), and the memory: `heap a` is the block at address `a`, `none` if there is none (or no longer);
`next` is the next address that `realloc` returns. -/
structure GeomN where
  heap : Nat → Option NodeBlock
  next : Nat
  root : Option Nat
  size : Int
  cap : Int
  bufData : Option Nat
  bufSize : Int
  bufCap : Int

/-- `GeoArrowGeometryInit`, src/geoarrow/geometry.c:15-33 -/
def nodesInit : GeomN :=
  { heap := fun _ => none, next := 0, root := none, size := 0, cap := 0, bufData := none, bufSize := 0, bufCap := 0 }

/-- `(int64_t)(n * sizeof(struct GeoArrowGeometryNode))`, src/geoarrow/geometry.c:63, 80: the product is taken in 64 bits; a node has 64 bytes,
src/geoarrow/geoarrow_type.h:463-547. -/
def nodesToBytes (n : Int) : Int := Int.bmod (n * 64) (2 ^ 64)

/-- What `realloc` puts in the new block: what the old one held, as far as it goes. `none` if the old one has been freed. -/
def GeomN.moved (g : GeomN) (slots : Nat) : Option NodeBlock :=
  match g.bufData with
  | none => some (List.replicate slots none)
  | some a =>
    match g.heap a with
    | none => none
    | some b => some (b.take slots ++ List.replicate (slots - b.length) none)

/-- `buffer->data = allocator.reallocate(…)` and the test that follows, src/vendor/nanoarrow/nanoarrow.h:2538-2548, 2563-2574. `ok` says whether there
is memory. When `realloc` fails, the old block stays where it is. -/
def nodesRealloc (ok : Bool) (bytes : Int) : M GeomN Unit := fun g =>
  if ok then
    match g.moved (bytes / 64).toNat with
    | none => .ub
    | some b =>
      .ok () { g with heap := fun i => if i = g.next then some b else if g.bufData = some i then none else g.heap i,
                      next := g.next + 1, bufData := some g.next, bufCap := bytes }
  else .err ENOMEM { g with bufData := none, bufSize := 0, bufCap := 0 }

/-- `ArrowBufferResize` without shrinking, src/vendor/nanoarrow/nanoarrow.h:2527-2552 -/
def nodesBufResize (ok : Bool) (bytes : Int) : M GeomN Unit := fun g =>
  if bytes < 0 then .err EINVAL g
  else if bytes > g.bufCap then M.bind (nodesRealloc ok bytes) (fun _ => M.modify fun g => { g with bufSize := bytes }) g
  else .ok () { g with bufSize := bytes }

/-- `ArrowBufferReserve`, src/vendor/nanoarrow/nanoarrow.h:2554-2576, with `_ArrowGrowByFactor`, 2436-2443 -/
def nodesReserve (ok : Bool) (additional : Int) : M GeomN Unit := fun g =>
  if g.bufSize + additional ≤ g.bufCap then .ok () g
  else nodesRealloc ok (if g.bufCap * 2 > g.bufSize + additional then g.bufCap * 2 else g.bufSize + additional) g

/-- `GeoArrowGeometrySyncGeomToNodes`, src/geoarrow/geometry.c:54-64 -/
def syncGeomToNodes (g : GeomN) : GeomN := { g with bufSize := nodesToBytes g.size }

/-- `GeoArrowGeometrySyncNodesToGeom`, src/geoarrow/geometry.c:66-73 -/
def syncNodesToGeom (g : GeomN) : GeomN := { g with root := g.bufData, size := g.bufSize / 64, cap := g.bufCap / 64 }

/-- `GeoArrowGeometryResizeNodes`, src/geoarrow/geometry.c:75-83 -/
def resizeNodes (ok : Bool) (n : Int) : M GeomN Unit := do
  nodesBufResize ok (nodesToBytes n)
  M.modify syncNodesToGeom

/-- `GeoArrowGeometryResizeNodesInline`, src/geoarrow/geoarrow_type_inline.h:418-426 -/
def resizeNodesInline (ok : Bool) (n : Int) : M GeomN Unit := fun g =>
  if n < g.cap then .ok () { g with size := n } else resizeNodes ok n g

/-- `root[i] = n`; outside of the block it is undefined. -/
def nodesStore (i : Int) (n : Node) : M GeomN Unit := fun g =>
  match g.root with
  | none => .ub
  | some a =>
    match g.heap a with
    | none => .ub
    | some b =>
      if 0 ≤ i ∧ i < b.length then .ok () { g with heap := fun j => if j = a then some (b.set i.toNat (some n)) else g.heap j }
      else .ub

/-- The first branch of `GeoArrowGeometryAppendNodeInline`, src/geoarrow/geoarrow_type_inline.h:432-438; the result is the index of the node
that `*out` points to. -/
def appendRoom : M GeomN Int := fun g =>
  match nodesStore g.size blankNode g with
  | .ok _ g' => .ok g.size { g' with size := g.size + 1 }
  | .err c g' => .err c g'
  | .ub => .ub

/-- `GeoArrowGeometryAppendNode`, src/geoarrow/geometry.c:85-94. Were there no room after `ArrowBufferReserve`, the two functions would call each other
for ever; this is undefined here. -/
def appendNode (ok : Bool) : M GeomN Int := do
  M.modify syncGeomToNodes
  nodesReserve ok 64
  M.modify syncNodesToGeom
  fun g => if g.size < g.cap then appendRoom g else .ub

/-- `GeoArrowGeometryAppendNodeInline`, src/geoarrow/geoarrow_type_inline.h:430-443 -/
def appendNodeInline (ok : Bool) : M GeomN Int := fun g =>
  if g.size < g.cap then appendRoom g else appendNode ok g

/-- `memcpy(dst->root, src.root, …)`, src/geoarrow/geometry.c:38-40; the source lies elsewhere. -/
def nodesFill (src : List Node) : M GeomN Unit := fun g =>
  match src with
  | [] => .ok () g
  | _ =>
    match g.root with
    | none => .ub
    | some a =>
      match g.heap a with
      | none => .ub
      | some b =>
        if src.length ≤ b.length then
          .ok () { g with heap := fun j => if j = a then some (src.map some ++ b.drop src.length) else g.heap j }
        else .ub

/-- `GeoArrowGeometryShallowCopy`, src/geoarrow/geometry.c:35-43 -/
def shallowCopy (ok : Bool) (src : View) : M GeomN Unit := do
  resizeNodes ok src.nodes.length
  nodesFill src.nodes

/-- `GeoArrowGeometryReset`, src/geoarrow/geometry.c:45-52 -/
def nodesReset (g : GeomN) : GeomN :=
  { g with heap := fun i => if g.bufData = some i then none else g.heap i, bufData := none, bufSize := 0, bufCap := 0 }

/-- What `GeoArrowGeometryAsView` lets one read, src/geoarrow/geoarrow_type_inline.h:372-378: `size_nodes` nodes from `root` on. `none`
if that is more than the block holds, or if it has been freed. -/
def GeomN.nodes (g : GeomN) : Option NodeBlock :=
  match g.root with
  | none => if g.size = 0 then some [] else none
  | some a =>
    match g.heap a with
    | none => none
    | some b => if 0 ≤ g.size ∧ g.size ≤ b.length then some (b.take g.size.toNat) else none

/-! ## Nodes over arrays of the caller -/

/-- `GeoArrowGeometryNodeSetInterleaved`, src/geoarrow/geoarrow_type_inline.h:384-397. `p` and `bytes` are `coords.data` and `coords.size_bytes`. Known
dimensions only. -/
def nodeSetInterleaved (n : Node) (gt dims nv : Nat) (p : Ptr) (bytes : Nat) : Node :=
  { n with gt := gt % 256, dims := dims % 256, size := u32 (bytes / (nv * 8)),
           stride := Quad.ofFn fun _ => nv * 8, coords := Quad.ofFn fun i => p.add (i * 8) }

/-- `GeoArrowGeometryNodeSetSeparated`, src/geoarrow/geoarrow_type_inline.h:402-414. Known dimensions only. -/
def nodeSetSeparated (n : Node) (gt dims nv : Nat) (p : Ptr) (bytes : Nat) : Node :=
  { n with gt := gt % 256, dims := dims % 256, size := u32 (bytes / nv / 8),
           stride := Quad.ofFn fun _ => 8, coords := Quad.ofFn fun i => p.add (i * (bytes / nv : Nat)) }

end Verif
