import Verif.Model.ArrayView
import Verif.Model.Coords
/-!
# The buffer builder: `builder.c` and the inline functions of `geoarrow_type_inline.h`

Simplifications: allocations succeed, `int64_t` arithmetic does not overflow, error messages are left out, the host is
little-endian.
-/
namespace Verif

/-! ## Numbering the buffers of a tree of arrays -/

/-- An Arrow array with its children; of each array only a label is known. -/
inductive ATree (α : Type) where
  | node (label : α) (children : List (ATree α))
  deriving Repr

/-- `struct _GeoArrowFindBufferResult`, src/geoarrow/geoarrow_type_inline.h:659-663. The array is given by the child
numbers that lead to it from the root. -/
structure FoundBuffer where
  path : List Nat
  level : Nat
  i : Int
  deriving DecidableEq, Repr

mutual
/-- `_GeoArrowArrayFindBuffer`, src/geoarrow/geoarrow_type_inline.h:665-689: what is found (`none`: `res` is left alone) and
the value returned. `nb` gives `n_buffers`. -/
def findBuffer {α : Type} (nb : α → Nat) : ATree α → (i : Int) → (level skip : Nat) → List Nat → Option FoundBuffer × Int
  | .node a cs, i, level, skip, path =>
    let total : Int := (nb a : Int) - skip
    if i < total then (some ⟨path, level, i + skip⟩, total)
    else findInChildren nb cs (i - total) total level path 0
/-- The loop over the children, src/geoarrow/geoarrow_type_inline.h:678-688; `k` is `child_id`. -/
def findInChildren {α : Type} (nb : α → Nat) : List (ATree α) → (i total : Int) → (level : Nat) → List Nat → (k : Nat) →
    Option FoundBuffer × Int
  | [], _, total, _, _, _ => (none, total)
  | c :: cs, i, total, level, path, k =>
    let r := findBuffer nb c i (level + 1) 1 (path ++ [k])
    if i < r.2 then (r.1, total + r.2)
    else findInChildren nb cs (i - r.2) (total + r.2) level path (k + 1)
end

/-! ## Storage of a type -/

/-- Layouts of the arrays that occur, src/vendor/nanoarrow/nanoarrow.c:52-214 -/
inductive BKind where
  | list | struct | fixed (n : Int) | double | bytes (large : Bool)
  deriving DecidableEq, Repr

/-- `n_buffers` as set by `ArrowArraySetStorageType`, src/vendor/nanoarrow/nanoarrow.c:2377-2462 -/
def BKind.nBuffers : BKind → Nat
  | .list => 2
  | .struct => 1
  | .fixed _ => 1
  | .double => 2
  | .bytes _ => 3

/-- The layout for a schema node; formats of other types do not occur in the schemas made by `GeoArrowSchemaInit`. -/
def kindOf (s : ASchema) : Option BKind :=
  match naInit s with
  | none => none
  | some v =>
    match v.type with
    | .string => some (.bytes false)
    | .largeString => some (.bytes true)
    | .binary => some (.bytes false)
    | .largeBinary => some (.bytes true)
    | .struct => some .struct
    | .list => some .list
    | .fixedSizeList => some (.fixed v.fixedSize)
    | .double => some .double
    | _ => none

mutual
/-- `ArrowArrayInitFromSchema`, src/vendor/nanoarrow/nanoarrow.c:2503-2569: the array and its children, all empty. -/
def treeOf : ASchema → Option (ATree BKind)
  | .mk f n m fl cs d => do
    let k ← kindOf (.mk f n m fl cs d)
    let ts ← treesOf cs
    some (.node k ts)
def treesOf : List ASchema → Option (List (ATree BKind))
  | [] => some []
  | c :: cs => do
    let t ← treeOf c
    let ts ← treesOf cs
    some (t :: ts)
end

/-! ## State -/

/-- One of `builder->view.buffers` (`struct GeoArrowWritableBufferView`, src/geoarrow/geoarrow_type.h:648-657) and the
`ArrowBuffer` of nanoarrow behind it, which agree on data and capacity. `mem` is the allocated memory: its length is
`capacity_bytes` and `data == NULL` iff it is empty. `gen` counts how often the memory was replaced; pointers into
earlier memory dangle. `owned` is set for buffers given to `GeoArrowBuilderSetOwnedBuffer`. -/
structure BBuf where
  mem : List Byte
  size : Nat
  gen : Nat
  owned : Bool
  deriving DecidableEq, Repr

/-- `struct GeoArrowBuilder`, src/geoarrow/geoarrow_type.h:751-779, with `struct BuilderPrivate`, src/geoarrow/builder.c:8-20.
`values` are the pointers of `view.coords` (`NULL` or buffer, generation, element). The bitmap `validity` is the buffer
`buffers[0]`. -/
structure Builder where
  schema : SView
  tree : ATree BKind
  nOffsets : Nat
  nValues : Nat
  stride : Nat
  nBuffers : Nat
  bufs : Nat → BBuf
  sizeCoords : Nat
  capCoords : Nat
  values : Nat → Option (Nat × Nat × Nat)

/-- The buffer that flat index `i` stands for, src/geoarrow/builder.c:33-39 -/
def Builder.slot (b : Builder) (i : Nat) : Option FoundBuffer := (findBuffer BKind.nBuffers b.tree i 0 0 []).1

/-- `GeoArrowBuilderInitInternal` and `GeoArrowBuilderInitArrayAndCachePointers`, src/geoarrow/builder.c:55-114, 22-53, for a
builder whose memory was zeroed. -/
def builderInitInternal (s : SView) : Except Code Builder :=
  if s.type = 100005 ∨ s.type = 100006 then .error ENOTSUP
  else
    match arrayViewInitFromType s.type with
    | .ok v _ =>
      match schemaInit s.type with
      | .error rc => .error rc
      | .ok schema =>
        match treeOf schema with
        | none => .error EINVAL
        | some tree =>
          let n := 1 + v.nOffsets + (if s.coordType = 1 then v.nValues.toNat else 1)
          let b : Builder := { schema := s, tree := tree, nOffsets := v.nOffsets, nValues := v.nValues.toNat,
                               stride := v.stride.toNat, nBuffers := n, bufs := fun _ => ⟨[], 0, 0, false⟩, sizeCoords := 0,
                               capCoords := 0, values := fun _ => none }
          if (List.range n).all fun i => (b.slot i).isSome then .ok b else .error EINVAL
    | .err rc _ => .error rc
    | .ub => .error EINVAL

/-- `GeoArrowBuilderInitFromType`, src/geoarrow/builder.c:116-122 -/
def builderInitFromType (type : TypeId) : Except Code Builder :=
  match schemaViewInitFromType type { extName := none, extMetadata := none, type := 0, geometryType := 0, dimensions := 0, coordType := 0 } with
  | .ok _ s => builderInitInternal s
  | .err rc _ => .error rc
  | .ub => .error EINVAL

/-! ## Raw buffers -/

/-- `builder->view.buffers[i]`. Beyond `n_buffers` nothing is behind the view (`private->buffers[i]` is `NULL`, or `i` is beyond
the end of the array): undefined behaviour, simplified to that for every access. -/
def bBuf (i : Nat) : M Builder BBuf := fun b => if i < b.nBuffers then .ok (b.bufs i) b else .ub

def bSetBuf (i : Nat) (x : BBuf) : M Builder Unit := M.modify fun b => { b with bufs := setAt b.bufs i x }

/-- `GeoArrowBuilderReserveBuffer`, src/geoarrow/builder.c:133-149. Growing an owned buffer is a programming error that
aborts in debug builds (`ArrowBufferDeallocatorReallocate`): undefined behaviour. -/
def bReserveBuffer (junk : Nat → Byte) (i additional : Nat) : M Builder Unit := do
  let x ← bBuf i
  if x.size + additional ≤ x.mem.length then pure ()
  else if x.owned then M.undef
  else bSetBuf i { x with mem := bufferReserve junk x.mem x.size additional, gen := x.gen + 1 }

/-- `memcpy(data + at, bs, n)` within allocated memory -/
def memcpyAt (mem : List Byte) (at' : Nat) (bs : List Byte) : Option (List Byte) :=
  if at' + bs.length ≤ mem.length then some (mem.take at' ++ bs ++ mem.drop (at' + bs.length)) else none

/-- `GeoArrowBuilderBufferCheck`, src/geoarrow/geoarrow_type_inline.h:286-290 -/
def bBufferCheck (i additional : Nat) : M Builder Bool := do
  let x ← bBuf i
  pure (decide (x.size + additional ≤ x.mem.length))

/-- `GeoArrowBuilderAppendBufferUnsafe`, src/geoarrow/geoarrow_type_inline.h:292-298 -/
def bAppendBufferUnsafe (i : Nat) (bs : List Byte) : M Builder Unit := do
  let x ← bBuf i
  let mem ← orUb (memcpyAt x.mem x.size bs)
  bSetBuf i { x with mem := mem, size := x.size + bs.length }

/-- `GeoArrowBuilderAppendBuffer`, src/geoarrow/geoarrow_type_inline.h:691-702 -/
def bAppendBuffer (junk : Nat → Byte) (i : Nat) (bs : List Byte) : M Builder Unit := do
  let ok ← bBufferCheck i bs.length
  (if ok then pure () else bReserveBuffer junk i bs.length)
  bAppendBufferUnsafe i bs

/-- `GeoArrowBuilderSetOwnedBuffer`, src/geoarrow/builder.c:164-198 -/
def bSetOwnedBuffer (i : Int) (value : List Byte) : M Builder Unit := do
  let b ← M.get
  if i < 0 ∨ (b.nBuffers : Int) ≤ i then M.fail EINVAL
  else bSetBuf i.toNat { mem := value, size := value.length, gen := (b.bufs i.toNat).gen + 1, owned := true }

/-! ## Offsets -/

/-- The bytes of `int32_t`s. -/
def i32Bytes (vs : List Int) : List Byte := vs.flatMap fun v => leBytes 4 (BitVec.ofInt 32 v).toNat

/-- `GeoArrowBuilderOffsetCheck`, src/geoarrow/geoarrow_type_inline.h:643-648 -/
def bOffsetCheck (i additional : Nat) : M Builder Bool := do
  let x ← bBuf (i + 1)
  pure (decide (x.size / 4 + additional ≤ x.mem.length / 4))

/-- `GeoArrowBuilderOffsetAppendUnsafe`, src/geoarrow/geoarrow_type_inline.h:650-657 -/
def bOffsetAppendUnsafe (i : Nat) (vs : List Int) : M Builder Unit := bAppendBufferUnsafe (i + 1) (i32Bytes vs)

/-- `GeoArrowBuilderOffsetReserve`, src/geoarrow/geoarrow_type_inline.h:779-787 -/
def bOffsetReserve (junk : Nat → Byte) (i additional : Nat) : M Builder Unit := do
  let ok ← bOffsetCheck i additional
  if ok then pure () else bReserveBuffer junk (i + 1) (additional * 4)

/-- `GeoArrowBuilderOffsetAppend`, src/geoarrow/geoarrow_type_inline.h:789-801 -/
def bOffsetAppend (junk : Nat → Byte) (i : Nat) (vs : List Int) : M Builder Unit := do
  let ok ← bOffsetCheck i vs.length
  (if ok then pure () else bOffsetReserve junk i vs.length)
  bOffsetAppendUnsafe i vs

/-! ## Coordinates -/

/-- `GeoArrowBuilderCoordsCheck`, src/geoarrow/geoarrow_type_inline.h:628-632 -/
def bCoordsCheck (additional : Nat) : M Builder Bool := fun b => .ok (decide (b.sizeCoords + additional ≤ b.capCoords)) b

/-- `builder->view.buffers[i].size_bytes = n` -/
def bSetSize (i n : Nat) : M Builder Unit := do
  let x ← bBuf i
  bSetBuf i { x with size := n }

/-- The loop over the buffers of separate coordinates, src/geoarrow/geoarrow_type_inline.h:738-748, with `k` left. -/
def bReserveSeparate (junk : Nat → Byte) (additional : Nat) : (k i : Nat) → M Builder Unit
  | 0, _ => pure ()
  | k + 1, i => do
    let b ← M.get
    bSetSize i (b.sizeCoords * 8)
    bReserveBuffer junk i (additional * 8)
    bReserveSeparate junk additional k (i + 1)

/-- `GeoArrowBuilderCoordsReserve`, src/geoarrow/geoarrow_type_inline.h:704-763. The code -1 is returned for types without
coordinates. -/
def bCoordsReserve (junk : Nat → Byte) (additional : Nat) : M Builder Unit := do
  let ok ← bCoordsCheck additional
  if ok then pure ()
  else do
    let b ← M.get
    let last := b.nBuffers - 1
    let n := b.nValues
    if b.schema.coordType = 2 then do
      bSetSize last (b.sizeCoords * 8 * n)
      bReserveBuffer junk last (additional * 8 * n)
      let x ← bBuf last
      M.modify fun b => { b with capCoords := x.mem.length / 8 / n,
                                 values := fun j => if j < n then some (last, x.gen, j) else b.values j }
    else if b.schema.coordType = 1 then do
      bReserveSeparate junk additional n (last + 1 - n)
      let x ← bBuf last
      M.modify fun b => { b with capCoords := x.mem.length / 8,
                                 values := fun j => if j < n then some (last + 1 - n + j, (b.bufs (last + 1 - n + j)).gen, 0) else b.values j }
    else M.fail (-1)

/-- The memory of the buffers as doubles. -/
def Builder.cells (b : Builder) : DMem := fun i t => if i < b.nBuffers then f64At (b.bufs i).mem t else none

/-- Where a pointer points now: nowhere (a buffer that does not exist) if it is `NULL` or dangles. -/
def Builder.target (b : Builder) (j : Nat) : Nat × Nat :=
  match b.values j with
  | none => (b.nBuffers, 0)
  | some (i, gen, o) => if gen = (b.bufs i).gen then (i, o) else (b.nBuffers, 0)

/-- `view.coords` as a coordinate view. -/
def Builder.coordView (b : Builder) : CoordView := { vals := Quad.ofFn b.target, stride := b.stride, nValues := b.nValues }

/-- Memory with the doubles in it replaced; bytes after the last whole double stay. -/
def putCells (cells : Nat → Option Dbl) (mem : List Byte) : List Byte :=
  ((List.range (mem.length / 8)).flatMap fun t => ((cells t).getD 0).bytes) ++ mem.drop (mem.length / 8 * 8)

/-- The state after stores of doubles into the buffers. -/
def Builder.withCells (b : Builder) (D : DMem) : Builder :=
  { b with bufs := fun i => { b.bufs i with mem := putCells (D i) (b.bufs i).mem } }

/-- `GeoArrowBuilderCoordsAppendUnsafe`, src/geoarrow/geoarrow_type_inline.h:634-641. The source is memory `S` that is not
part of the builder. -/
def bCoordsAppendUnsafe (S : DMem) (src : CoordView) (dims off n : Nat) : M Builder Unit := do
  let b ← M.get
  let D ← orUb (coordViewCopy S src dims off b.cells b.coordView b.schema.dimensions.toNat b.sizeCoords n)
  M.modify fun b => { b.withCells D with sizeCoords := b.sizeCoords + n }

/-- `GeoArrowBuilderCoordsAppend`, src/geoarrow/geoarrow_type_inline.h:765-777 -/
def bCoordsAppend (junk : Nat → Byte) (S : DMem) (src : CoordView) (dims off n : Nat) : M Builder Unit := do
  let ok ← bCoordsCheck n
  (if ok then pure () else bCoordsReserve junk n)
  bCoordsAppendUnsafe S src dims off n

/-! ## Finishing -/

/-- Sizes of the coordinate buffers after the coordinate appender was used, src/geoarrow/builder.c:217-236 -/
def Builder.syncCoords (b : Builder) : Builder :=
  let last := b.nBuffers - 1
  let raise (n i : Nat) : BBuf := { b.bufs i with size := max (b.bufs i).size n }
  if b.schema.coordType = 2 then { b with bufs := setAt b.bufs last (raise (b.sizeCoords * 8 * b.nValues) last) }
  else if b.schema.coordType = 1 then
    { b with bufs := fun i => if last + 1 ≤ i + b.nValues ∧ i ≤ last then raise (b.sizeCoords * 8) i else b.bufs i }
  else b

/-- The level of the coordinates, src/geoarrow/builder.c:335-354 -/
def coordLevel (g : Int) : Option Nat :=
  if g = GT.box ∨ g = GT.point then some 0
  else if g = GT.linestring ∨ g = GT.multipoint then some 1
  else if g = GT.polygon ∨ g = GT.multilinestring then some 2
  else if g = GT.multipolygon then some 3
  else none

/-- `GeoArrowSetArrayLengthFromBufferLength`, src/geoarrow/builder.c:307-363: the new length of the array found, if it is set. -/
def lengthFromBuffer (s : SView) (f : FoundBuffer) (size : Nat) : Option Int :=
  if f.i ≠ 1 then none
  else if size = 0 then some 0
  else if s.type = 100001 ∨ s.type = 100003 then some ((size : Int) / 4 - 1)
  else if s.type = 100002 ∨ s.type = 100004 then some ((size : Int) / 8 - 1)
  else
    match coordLevel s.geometryType with
    | none => none
    | some l => if f.level < l then some ((size : Int) / 4 - 1) else some ((size : Int) / 8)

/-- Array lengths set from the sizes of buffers `i`, `i + 1`, ..., `k` of them; src/geoarrow/builder.c:248-259 -/
def Builder.lengths (b : Builder) : (k i : Nat) → (List Nat → Int) → List Nat → Int
  | 0, _, len => len
  | k + 1, i, len =>
    match b.slot i with
    | none => len
    | some f =>
      match lengthFromBuffer b.schema f (b.bufs i).size with
      | none => b.lengths k (i + 1) len
      | some n => b.lengths k (i + 1) fun p => if p = f.path then n else len p

/-- The number of values of a coordinate in the child of the coordinate array, src/geoarrow/builder.c:370-394 -/
def coordScale (s : SView) : Option Int :=
  if s.coordType = 1 then some 1
  else if s.coordType = 2 then
    (if s.dimensions = 1 then some 2 else if s.dimensions = 2 ∨ s.dimensions = 3 then some 3
     else if s.dimensions = 4 then some 4 else none)
  else some (-1)

/-- `GeoArrowSetCoordContainerLength`, src/geoarrow/builder.c:365-424 -/
def setContainerLength (s : SView) (len : List Nat → Int) : List Nat → Int :=
  match coordScale s, coordLevel s.geometryType with
  | some scale, some l => fun p => if p = List.replicate l 0 then len (List.replicate (l + 1) 0) / scale else len p
  | _, _ => len

/-- What a consumer sees of buffer `j` of the array at `path`: `NULL` for a validity bitmap that was never allocated;
`ArrowArrayFinalizeBuffers` (src/vendor/nanoarrow/nanoarrow.c:2753-2780) allocates all other buffers. The memory after the
size is not shown. -/
def Builder.content (b : Builder) (path : List Nat) (j : Nat) : Option (List Byte) :=
  match (List.range b.nBuffers).find? fun i => b.slot i = some ⟨path, path.length, j⟩ with
  | none => if j = 0 then none else some []
  | some i => if j = 0 ∧ (b.bufs i).mem = [] then none else some ((b.bufs i).mem.take (b.bufs i).size)

mutual
/-- The array at `path`. -/
def Builder.arrayAt (b : Builder) (len : List Nat → Int) : ATree BKind → List Nat → AArray
  | .node k ts, path =>
    .mk (len path) 0 0 ((List.range k.nBuffers).map (b.content path)) (b.arraysAt len ts path 0)
def Builder.arraysAt (b : Builder) (len : List Nat → Int) : List (ATree BKind) → List Nat → Nat → List AArray
  | [], _, _ => []
  | t :: ts, path, k => b.arrayAt len t (path ++ [k]) :: b.arraysAt len ts path (k + 1)
end

/-- Size of buffer `j`. -/
def AArray.bufSize (a : AArray) (j : Nat) : Int :=
  match a.buffers[j]? with
  | some (some b) => b.length
  | _ => 0

/-- The checks of one array in `ArrowArrayViewValidateMinimal`, src/vendor/nanoarrow/nanoarrow.c:3142-3283, for offset 0 -/
def naMinimalOk (k : BKind) (a : AArray) : Bool :=
  decide (0 ≤ a.length) &&
  ((decide (a.nullCount = 0) && decide (a.bufSize 0 = 0)) || decide ((bytesForBits a.length.toNat : Int) ≤ a.bufSize 0)) &&
  (match k with
   | .list => decide (a.length = 0) || decide (4 * (a.length + 1) ≤ a.bufSize 1)
   | .bytes large => decide (a.length = 0) || decide ((if large then 8 else 4) * (a.length + 1) ≤ a.bufSize 1)
   | .double => decide (8 * a.length ≤ a.bufSize 1)
   | .struct => a.children.all fun c => decide (a.length ≤ c.length)
   | .fixed n => match a.children with
     | [c] => decide (a.length * n ≤ c.length)
     | _ => false)

mutual
/-- `ArrowArrayViewValidateMinimal`, src/vendor/nanoarrow/nanoarrow.c:3142-3363 -/
def naTreeMinimal : ATree BKind → AArray → Bool
  | .node k ts, a => naMinimalOk k a && naTreesMinimal ts a.children
def naTreesMinimal : List (ATree BKind) → List AArray → Bool
  | t :: ts, a :: as => naTreeMinimal t a && naTreesMinimal ts as
  | _, _ => true
end

/-- First and last offset are not negative and the last is at most `limit`; `none` if they cannot be loaded. -/
def naOffsetsOk (load : List Byte → Int → Option Int) (a : AArray) (limit : Int) : Option Bool :=
  match a.buffers[1]? with
  | some (some b) =>
    if b = [] then some true
    else do
      let first ← load b 0
      let last ← load b a.length
      some (decide (0 ≤ first) && decide (0 ≤ last) && decide (last ≤ limit))
  | _ => some true

/-- `((const int64_t*)b)[i]` -/
def i64At' (b : List Byte) (i : Int) : Option Int :=
  if 0 ≤ i ∧ 8 * i + 8 ≤ b.length then some (BitVec.ofNat 64 (leVal ((b.drop (8 * i).toNat).take 8))).toInt else none

/-- The checks of one array in `ArrowArrayViewValidateDefault`, src/vendor/nanoarrow/nanoarrow.c:3365-3491 -/
def naDefaultOk (k : BKind) (a : AArray) : Option Bool :=
  match k with
  | .list => naOffsetsOk i32At a (match a.children with | [c] => c.length | _ => 0)
  | .bytes large => naOffsetsOk (if large then i64At' else i32At) a (a.bufSize 2)
  | .struct => some (a.children.all fun c => decide (a.length ≤ c.length))
  | _ => some true

mutual
/-- `ArrowArrayViewValidateDefault` below the root's minimal validation, src/vendor/nanoarrow/nanoarrow.c:3365-3630 -/
def naTreeDefault : ATree BKind → AArray → Option Bool
  | .node k ts, a => do
    let ok ← naDefaultOk k a
    if ok then naTreesDefault ts a.children else some false
def naTreesDefault : List (ATree BKind) → List AArray → Option Bool
  | t :: ts, a :: as => do
    let ok ← naTreeDefault t a
    if ok then naTreesDefault ts as else some false
  | _, _ => some true
end

/-- `builder->view` after `GeoArrowBuilderInitArrayAndCachePointers`, src/geoarrow/builder.c:22-53, in a builder that was used
before: only four of the eight pointers are reset. -/
def Builder.fresh (b : Builder) : Builder :=
  { b with bufs := fun i => ⟨[], 0, (b.bufs i).gen + 1, false⟩, sizeCoords := 0, capCoords := 0,
           values := fun j => if j < 4 then none else b.values j }

/-- The array as it is when `ArrowArrayFinishBuildingDefault` validates it, src/geoarrow/builder.c:246-267 -/
def Builder.array (b : Builder) : AArray :=
  b.arrayAt (setContainerLength b.schema (b.lengths b.nBuffers 0 fun _ => 0)) b.tree []

/-- `array.null_count = n` -/
def AArray.withNullCount : AArray → Int → AArray
  | .mk l _ o b c, n => .mk l n o b c

/-- `GeoArrowBuilderFinish`, src/geoarrow/builder.c:206-288, with `ArrowArrayFinishBuildingDefault`,
src/vendor/nanoarrow/nanoarrow.c:2828-2859. A buffer whose size exceeds its capacity would make an array that claims
memory it does not have: undefined behaviour. A failure leaves the builder as it is, but for the sizes. -/
def bFinish : M Builder AArray := do
  M.modify Builder.syncCoords
  let b ← M.get
  if (List.range b.nBuffers).any fun i => decide ((b.bufs i).mem.length < (b.bufs i).size) then M.undef
  else if ((List.range b.nBuffers).all fun i => (b.slot i).isSome) = false then M.fail EINVAL
  else
    let a := b.array
    if naTreeMinimal b.tree a = false then M.fail EINVAL
    else do
      let ok ← orUb (naTreeDefault b.tree a)
      if ok then do
        M.modify Builder.fresh
        pure (if a.buffers[0]? = some none then a else a.withNullCount (-1))
      else M.fail EINVAL

end Verif
