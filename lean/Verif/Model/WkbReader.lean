import Verif.Model.Geometry
/-!
# The C WKB reader

src/geoarrow/wkb_reader.c
-/
namespace Verif

/-- `struct WKBReaderPrivate`, src/geoarrow/wkb_reader.c:13-19. `pos` is `data - data0`, `left` is `size_bytes` (it is
never negative: it starts at the length of the input and is only reduced by amounts checked to be available), `nodes`
is the node list of `geom`. -/
structure WkbR where
  pos : Nat
  left : Nat
  swap : Bool
  nodes : List Node
  deriving DecidableEq, Repr

/-- Memory reachable from the nodes: block 0 is the constant `_GeoArrowkEmptyPointCoords`, block 1 the input. -/
def wkbMem (blob : List Byte) : Mem
  | 0 => emptyPointCoords
  | 1 => blob
  | _ => []

/-- `WKBReaderReadEndian`, src/geoarrow/wkb_reader.c:21-33 -/
def wkbReadEndian (blob : List Byte) : M WkbR Unit := fun s =>
  if 0 < s.left then
    match blob[s.pos]? with
    | none => .ub
    | some b => .ok () { s with swap := b != 1, pos := s.pos + 1, left := s.left - 1 }
  else .err EINVAL s

/-- `WKBReaderReadUInt32`, src/geoarrow/wkb_reader.c:35-50 -/
def wkbReadU32 (blob : List Byte) : M WkbR Nat := fun s =>
  if 4 ≤ s.left then
    match (wkbMem blob).load ⟨1, s.pos⟩ 4 with
    | none => .ub
    | some bs =>
      let out : BitVec 32 := BitVec.ofNat 32 (leVal bs)
      .ok (if s.swap then (bswap32 out).toNat else out.toNat) { s with pos := s.pos + 4, left := s.left - 4 }
  else .err EINVAL s

/-- `WKBReaderReadNodeCoordinates`, src/geoarrow/wkb_reader.c:52-75. The product `n_coords * coord_size_elements` is a
`uint32_t`. `size_bytes` is checked but not reduced (line 73 advances only `data`). -/
def wkbReadCoords (n c : Nat) (node : Node) : M WkbR Node := fun s =>
  let needed := u32 (n * c) * 8
  if s.left < needed then .err EINVAL s
  else
    let node' : Node :=
      if 0 < n then
        { node with
          stride := Quad.ofFn fun i => if i < c then (c : Int) * 8 else node.stride.get i
          coords := Quad.ofFn fun i => if i < c then ⟨1, s.pos + i * 8⟩ else node.coords.get i }
      else node
    .ok node' { s with pos := s.pos + needed }

/-- Append to the node list (`GeoArrowGeometryAppendNodeInline`, src/geoarrow/geoarrow_type_inline.h:430-442).
Simplification: the C code appends a blank node first and fills it in through a pointer; nothing else is appended in
between, so appending the filled node gives the same list whenever the read succeeds. -/
def wkbPush (node : Node) : M WkbR Unit := M.modify fun s => { s with nodes := s.nodes ++ [node] }

/-- Splitting the type word into geometry type, has_z and has_m, src/geoarrow/wkb_reader.c:85-118 -/
def wkbTypeWord (w : Nat) : Nat × Bool × Bool :=
  let z := w &&& 0x80000000 != 0
  let m := w &&& 0x40000000 != 0
  let g := w &&& 0x0000ffff
  if 3000 ≤ g then (g - 3000, true, true)
  else if 2000 ≤ g then (g - 2000, z, true)
  else if 1000 ≤ g then (g - 1000, true, m)
  else (g, z, m)

/-- Byte order, type word and optional SRID, src/geoarrow/wkb_reader.c:80-118 -/
def wkbReadHeader (blob : List Byte) : M WkbR (Nat × Bool × Bool) := do
  wkbReadEndian blob
  let w ← wkbReadU32 blob
  let _ ← (if w &&& 0x20000000 != 0 then wkbReadU32 blob else pure 0)
  pure (wkbTypeWord w)

/-- src/geoarrow/wkb_reader.c:131-141 -/
def wkbDims (z m : Bool) : Nat := if z && m then 4 else if z then 2 else if m then 3 else 1

/-- src/geoarrow/wkb_reader.c:129 -/
def wkbCoordSize (z m : Bool) : Nat := 2 + (if z then 1 else 0) + (if m then 1 else 0)

/-- Ring loop, src/geoarrow/wkb_reader.c:169-177; `k` rings left. -/
def wkbReadRings (blob : List Byte) (c : Nat) (template : Node) : Nat → M WkbR Unit
  | 0 => pure ()
  | k + 1 => do
    let n ← wkbReadU32 blob
    let node ← wkbReadCoords n c { template with size := n }
    wkbPush node
    wkbReadRings blob c template k

/-- Child loop, src/geoarrow/wkb_reader.c:190-194; `k` children left, `rd` reads one child. -/
def wkbReadChildren (rd : M WkbR Unit) : Nat → M WkbR Unit
  | 0 => pure ()
  | k + 1 => do
    rd
    wkbReadChildren rd k

/-- Body of `WKBReaderReadNodeGeometry`, src/geoarrow/wkb_reader.c:77-204, for a node at level `level`. `child` is the
recursive call for a node one level deeper, `none` if `level == 255` (lines 158-161, 183-186). -/
def wkbNodeBody (blob : List Byte) (level : Nat) (child : Option (M WkbR Unit)) : M WkbR Unit := do
  let t ← wkbReadHeader blob
  let size ← (if t.1 ≠ 1 then wkbReadU32 blob else pure 1)
  let s ← M.get
  let node : Node := { blankNode with gt := t.1 % 256, dims := wkbDims t.2.1 t.2.2, size := size, swap := s.swap,
                                      level := level }
  if t.1 = 1 ∨ t.1 = 2 then do
    let node' ← wkbReadCoords size (wkbCoordSize t.2.1 t.2.2) node
    wkbPush node'
  else if t.1 = 3 then
    match child with
    | none => M.fail ENOTSUP
    | some _ => do
      wkbPush node
      wkbReadRings blob (wkbCoordSize t.2.1 t.2.2) { node with gt := 2, level := level + 1 } size
  else if 4 ≤ t.1 ∧ t.1 ≤ 7 then
    match child with
    | none => M.fail ENOTSUP
    | some rd => do
      wkbPush node
      wkbReadChildren rd size
  else M.fail EINVAL

/-- `WKBReaderReadNodeGeometry`, src/geoarrow/wkb_reader.c:77-204, for a node at level `level` with `r` further levels
allowed (always `r + level = 255`). -/
def wkbReadNode (blob : List Byte) : (r level : Nat) → M WkbR Unit
  | 0, level => wkbNodeBody blob level none
  | r + 1, level => wkbNodeBody blob level (some (wkbReadNode blob r (level + 1)))

/-- `GeoArrowWKBReaderRead`, src/geoarrow/wkb_reader.c:244-267. The incoming state is whatever earlier reads left
(`need_swapping` is not reset). -/
def wkbRead (blob : List Byte) : M WkbR View := do
  M.modify fun s => { s with pos := 0, left := blob.length, nodes := [] }
  wkbReadNode blob 255 0
  let s ← M.get
  pure ⟨s.nodes⟩

/-- `GeoArrowWKBReaderVisit`, src/geoarrow/wkb_reader.c:235-242, on a reader in state `r`. -/
def wkbVisit {σ} (r : WkbR) (blob : List Byte) (h : Handler σ) : M σ Unit :=
  match wkbRead blob r with
  | .ok v _ => viewVisit (wkbMem blob) h v
  | .err rc _ => M.fail rc
  | .ub => M.undef

end Verif
