import Verif.Model.Builder
/-!
# The builder when memory runs out: `builder.c`, `geoarrow_type_inline.h` and the buffers of nanoarrow

`Verif.Model.Builder` assumes that allocations succeed; here each may fail, and blocks of memory have addresses, so that a pointer may outlive what it
points to. `realloc` moves to a new address, handed out once; fresh memory at address `a` has the contents `junk a`. Left out: lengths and nesting of
the arrays (the buffers are numbered as in `findBuffer`), buffers handed over by clients (`Verif.Model.Ownership`), and the small blocks of nanoarrow
and of the builder itself.
-/
namespace Verif.Oom

/-- `ENOMEM` of Linux -/
def ENOMEM : Code := 12

/-- `struct ArrowBuffer`, src/vendor/nanoarrow/nanoarrow.h:767-780, with the default allocator -/
structure NBuf where
  data : Option Nat
  size : Nat
  cap : Nat
  deriving DecidableEq, Repr

/-- `struct GeoArrowWritableBufferView`, src/geoarrow/geoarrow_type.h:648-657 -/
structure Vw where
  data : Option Nat
  size : Nat
  cap : Nat
  deriving DecidableEq, Repr

/-- How coordinates are stored: `enum GeoArrowCoordType` without the unknown one, src/geoarrow/geoarrow_type.h:416-420 -/
inductive CoordKind where
  | separate
  | interleaved
  deriving DecidableEq, Repr

/-- All there is: the next address; what is at each address that was allocated and not freed; `n_buffers` of the builder; its buffers and their views;
`view.coords` with the way coordinates are stored (`none` for serialized types); whether the builder exists; and the finished arrays (`none` once
released), each with its buffers. `values` are pointers to doubles: an address and a number of doubles behind it. -/
structure Sys where
  next : Nat
  heap : Nat → Option (List Byte)
  n : Nat
  kind : Option CoordKind
  nValues : Nat
  bufs : Nat → NBuf
  views : Nat → Vw
  sizeCoords : Nat
  capCoords : Nat
  values : Nat → Option (Nat × Nat)
  alive : Bool
  arrays : List (Option (Nat → NBuf))

/-- `f[p] = x` -/
def poke {α : Type} (f : Nat → α) (p : Nat) (x : α) : Nat → α := fun q => if q = p then x else f q

/-- `free(data)` -/
def free (heap : Nat → Option (List Byte)) (data : Option Nat) : Nat → Option (List Byte) :=
  match data with
  | none => heap
  | some a => poke heap a none

/-- What is in a block; nothing in `NULL`. -/
def block (heap : Nat → Option (List Byte)) (data : Option Nat) : List Byte := (data.bind heap).getD []

/-- `ArrowBufferReserve`, src/vendor/nanoarrow/nanoarrow.h:2554-2574, with `realloc`, src/vendor/nanoarrow/nanoarrow.c:222-229, which fails unless `mem`:
then the old block stays allocated but the buffer forgets it. Whether it succeeded, the buffer, the memory and the next address. -/
def nReserve (junk : Nat → Nat → Byte) (mem : Bool) (x : NBuf) (additional : Nat) (heap : Nat → Option (List Byte)) (next : Nat) :
    Bool × NBuf × (Nat → Option (List Byte)) × Nat :=
  if x.size + additional ≤ x.cap then (true, x, heap, next)
  else
    let cap := growByFactor x.cap (x.size + additional)
    if mem then
      let old := block heap x.data
      (true, { x with data := some next, cap := cap },
        poke (free heap x.data) next (some (old ++ (List.range (cap - old.length)).map (junk next))), next + 1)
    else (false, ⟨none, 0, 0⟩, heap, next)

/-- `GeoArrowBuilderReserveBuffer`, src/geoarrow/builder.c:133-149; the view is left alone if there is no memory. -/
def reserve (junk : Nat → Nat → Byte) (mem : Bool) (i additional : Nat) (s : Sys) : Option (Code × Sys) :=
  if s.alive ∧ i < s.n then
    let r := nReserve junk mem { s.bufs i with size := (s.views i).size } additional s.heap s.next
    if r.1 then
      some (0, { s with bufs := poke s.bufs i r.2.1, heap := r.2.2.1, next := r.2.2.2,
                        views := poke s.views i { s.views i with data := r.2.1.data, cap := r.2.1.cap } })
    else some (ENOMEM, { s with bufs := poke s.bufs i r.2.1, heap := r.2.2.1, next := r.2.2.2 })
  else none

/-- `GeoArrowBuilderAppendBufferUnsafe`, src/geoarrow/geoarrow_type_inline.h:292-298. Nothing is copied if there are no bytes. -/
def appendUnsafe (i : Nat) (bs : List Byte) (s : Sys) : Option Sys :=
  let v := s.views i
  if bs = [] then some s
  else
    match v.data with
    | none => none
    | some a =>
      match s.heap a with
      | none => none
      | some m =>
        match memcpyAt m v.size bs with
        | none => none
        | some m' => some { s with heap := poke s.heap a (some m'), views := poke s.views i { v with size := v.size + bs.length } }

/-- `GeoArrowBuilderAppendBuffer` with `GeoArrowBuilderBufferCheck`, src/geoarrow/geoarrow_type_inline.h:691-702, 286-290 -/
def append (junk : Nat → Nat → Byte) (mem : Bool) (i : Nat) (bs : List Byte) (s : Sys) : Option (Code × Sys) :=
  if s.alive ∧ i < s.n then
    if (s.views i).size + bs.length ≤ (s.views i).cap then (appendUnsafe i bs s).map fun s' => (0, s')
    else
      match reserve junk mem i bs.length s with
      | none => none
      | some (rc, s') => if rc = 0 then (appendUnsafe i bs s').map fun s'' => (0, s'') else some (rc, s')
  else none

/-- The loop over the buffers of separate coordinates, src/geoarrow/geoarrow_type_inline.h:738-748: `k` buffers are left, from `i` on. `mem` says which
of the allocations succeed. -/
def reserveSeparate (junk : Nat → Nat → Byte) (mem : Nat → Bool) (additional : Nat) : (k i : Nat) → Sys → Option (Code × Sys)
  | 0, _, s => some (0, s)
  | k + 1, i, s =>
    match reserve junk (mem i) i (additional * 8) { s with views := poke s.views i { s.views i with size := s.sizeCoords * 8 } } with
    | none => none
    | some (rc, s') => if rc = 0 then reserveSeparate junk mem additional k (i + 1) s' else some (rc, s')

/-- `GeoArrowBuilderCoordsReserve`, src/geoarrow/geoarrow_type_inline.h:704-763 -/
def coordsReserve (junk : Nat → Nat → Byte) (mem : Nat → Bool) (additional : Nat) (s : Sys) : Option (Code × Sys) :=
  if s.sizeCoords + additional ≤ s.capCoords then some (0, s)
  else
    let last := s.n - 1
    match s.kind with
    | some .interleaved =>
      match reserve junk (mem last) last (additional * 8 * s.nValues)
          { s with views := poke s.views last { s.views last with size := s.sizeCoords * 8 * s.nValues } } with
      | none => none
      | some (rc, s') =>
        if rc = 0 then
          some (0, { s' with capCoords := (s'.views last).cap / 8 / s.nValues,
                             values := fun j => if j < s.nValues then (s'.views last).data.map fun a => (a, j) else s'.values j })
        else some (rc, s')
    | some .separate =>
      match reserveSeparate junk mem additional s.nValues (last + 1 - s.nValues) s with
      | none => none
      | some (rc, s') =>
        if rc = 0 then
          some (0, { s' with capCoords := (s'.views last).cap / 8,
                             values := fun j => if j < s.nValues then (s'.views (last + 1 - s.nValues + j)).data.map fun a => (a, 0) else s'.values j })
        else some (rc, s')
    | none => some (-1, s)

/-- `*p = x` for a pointer to doubles: undefined if there is no memory -/
def pokeDouble (p : Option (Nat × Nat)) (at' : Nat) (x : Dbl) (heap : Nat → Option (List Byte)) : Option (Nat → Option (List Byte)) :=
  match p with
  | none => none
  | some (a, o) =>
    match heap a with
    | none => none
    | some m => (memcpyAt m (8 * (o + at')) (Dbl.bytes x)).map fun m' => poke heap a (some m')

/-- One coordinate, `c` being its ordinates from the `j`-th on: the assignments to `GEOARROW_COORD_VIEW_VALUE(dst, t, j)` in `GeoArrowCoordViewCopy`,
src/geoarrow/geoarrow_type_inline.h:578-626. Simplified: coordinate by coordinate. -/
def pokeCoord (values : Nat → Option (Nat × Nat)) (stride t : Nat) : (j : Nat) → List Dbl → (Nat → Option (List Byte)) → Option (Nat → Option (List Byte))
  | _, [], heap => some heap
  | j, x :: c, heap =>
    match pokeDouble (values j) (t * stride) x heap with
    | none => none
    | some heap' => pokeCoord values stride t (j + 1) c heap'

/-- The loop over the coordinates, src/geoarrow/geoarrow_type_inline.h:578-626, from position `t` on -/
def pokeCoords (values : Nat → Option (Nat × Nat)) (stride : Nat) : (t : Nat) → List (List Dbl) → (Nat → Option (List Byte)) → Option (Nat → Option (List Byte))
  | _, [], heap => some heap
  | t, c :: cs, heap =>
    match pokeCoord values stride t 0 c heap with
    | none => none
    | some heap' => pokeCoords values stride (t + 1) cs heap'

/-- `GeoArrowBuilderCoordsAppend`, src/geoarrow/geoarrow_type_inline.h:765-777, with `GeoArrowBuilderCoordsAppendUnsafe`, 634-641; the coordinates have the
builder's dimensions. -/
def coordsAppend (junk : Nat → Nat → Byte) (mem : Nat → Bool) (cs : List (List Dbl)) (s : Sys) : Option (Code × Sys) :=
  match coordsReserve junk mem cs.length s with
  | none => none
  | some (rc, s') =>
    if rc = 0 then
      match pokeCoords s'.values (if s'.kind = some .interleaved then s'.nValues else 1) s'.sizeCoords cs s'.heap with
      | none => none
      | some heap => some (0, { s' with heap := heap, sizeCoords := s'.sizeCoords + cs.length })
    else some (rc, s')

/-- The sizes of the buffers of coordinates are raised to what the functions for coordinates wrote, src/geoarrow/builder.c:212-236. -/
def raiseSizes (s : Sys) : Sys :=
  let raise (size : Nat) (v : Vw) : Vw := if size > v.size then { v with size := size } else v
  match s.kind with
  | some .interleaved => { s with views := poke s.views (s.n - 1) (raise (s.sizeCoords * 8 * s.nValues) (s.views (s.n - 1))) }
  | some .separate =>
    { s with views := fun i => if s.n - s.nValues ≤ i ∧ i < s.n then raise (s.sizeCoords * 8) (s.views i) else s.views i }
  | none => s

/-- `private->buffers[i]->size_bytes = builder->view.buffers[i].size_bytes`, src/geoarrow/builder.c:247-249 -/
def syncSizes (s : Sys) : Sys := { s with bufs := fun i => if i < s.n then { s.bufs i with size := (s.views i).size } else s.bufs i }

/-- `ArrowArrayFinalizeBuffers`, src/vendor/nanoarrow/nanoarrow.c:2753-2780: memory is found for data buffers that have none, `k` of them left, from `i`
on. The first buffer is the validity bitmap, which is skipped. `mem` says which allocations succeed. -/
def finalize (junk : Nat → Nat → Byte) (mem : Nat → Bool) : (k i : Nat) → Sys → Bool × Sys
  | 0, _, s => (true, s)
  | k + 1, i, s =>
    if (s.bufs i).data = none then
      let r := nReserve junk (mem i) (s.bufs i) 1 s.heap s.next
      let s' := { s with bufs := poke s.bufs i r.2.1, heap := r.2.2.1, next := r.2.2.2 }
      if r.1 then finalize junk mem k (i + 1) s' else (false, s')
    else finalize junk mem k (i + 1) s

/-- `GeoArrowBuilderInitArrayAndCachePointers`, src/geoarrow/builder.c:22-53 -/
def blank (s : Sys) : Sys :=
  { s with bufs := fun _ => ⟨none, 0, 0⟩, views := fun _ => ⟨none, 0, 0⟩, sizeCoords := 0, capCoords := 0, values := fun _ => none }

/-- `GeoArrowBuilderFinish`, src/geoarrow/builder.c:206-288; `valid` is what `ArrowArrayViewValidate` says. The array handed out comes last in `arrays`.
Left out: bitmaps appended behind the builder's back (238-243), and no memory for the structures of the next array (277-283). -/
def finish (junk : Nat → Nat → Byte) (mem : Nat → Bool) (valid : Bool) (s : Sys) : Option (Code × Sys) :=
  if s.alive then
    let r := finalize junk mem (s.n - 1) 1 (syncSizes (raiseSizes s))
    if r.1 then
      if valid then some (0, { blank r.2 with arrays := r.2.arrays ++ [some r.2.bufs] }) else some (EINVAL, r.2)
    else some (ENOMEM, r.2)
  else none

/-- All buffers below `n` are freed: `ArrowArrayReleaseInternal`, src/vendor/nanoarrow/nanoarrow.c:2318-2363 -/
def freeAll (bufs : Nat → NBuf) : Nat → (Nat → Option (List Byte)) → Nat → Option (List Byte)
  | 0, heap => heap
  | n + 1, heap => free (freeAll bufs n heap) (bufs n).data

/-- `array->release(array)` for the `k`-th array, by its consumer -/
def release (k : Nat) (s : Sys) : Option (Code × Sys) :=
  match s.arrays[k]? with
  | some (some a) => some (0, { s with heap := freeAll a s.n s.heap, arrays := s.arrays.set k none })
  | _ => none

/-- `GeoArrowBuilderReset`, src/geoarrow/builder.c:290-305 -/
def reset (s : Sys) : Option (Code × Sys) :=
  if s.alive then some (0, { blank s with heap := freeAll s.bufs s.n s.heap, alive := false }) else some (0, s)

/-- What a client can do, with what memory there is -/
inductive Call where
  | append (mem : Bool) (i : Nat) (bs : List Byte)
  | reserve (mem : Bool) (i additional : Nat)
  | coords (mem : Nat → Bool) (cs : List (List Dbl))
  | coordsReserve (mem : Nat → Bool) (additional : Nat)
  | finish (mem : Nat → Bool) (valid : Bool)
  | release (k : Nat)
  | reset

/-- A call: what it returns, and everything after it; `none` if memory is used that is not there, or the call is not allowed. -/
def Call.run (junk : Nat → Nat → Byte) : Call → Sys → Option (Code × Sys)
  | .append mem i bs => Oom.append junk mem i bs
  | .reserve mem i n => Oom.reserve junk mem i n
  | .coords mem cs => Oom.coordsAppend junk mem cs
  | .coordsReserve mem n => Oom.coordsReserve junk mem n
  | .finish mem valid => Oom.finish junk mem valid
  | .release k => Oom.release k
  | .reset => Oom.reset

/-- A history of calls: the values returned, and everything after it -/
def runs (junk : Nat → Nat → Byte) : List Call → Sys → Option (List Code × Sys)
  | [], s => some ([], s)
  | c :: cs, s =>
    match c.run junk s with
    | none => none
    | some (rc, s') =>
      match runs junk cs s' with
      | none => none
      | some (rcs, s'') => some (rc :: rcs, s'')

/-- A new builder, src/geoarrow/builder.c:116-122 -/
def Sys.start (b : Builder) : Sys :=
  { next := 0, heap := fun _ => none, n := b.nBuffers, nValues := b.nValues, bufs := fun _ => ⟨none, 0, 0⟩, views := fun _ => ⟨none, 0, 0⟩,
    kind := if b.schema.coordType = 1 then some .separate else if b.schema.coordType = 2 then some .interleaved else none,
    sizeCoords := 0, capCoords := 0, values := fun _ => none, alive := true, arrays := [] }

end Verif.Oom
