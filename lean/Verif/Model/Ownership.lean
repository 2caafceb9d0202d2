import Verif.Model.Builder
/-!
# Who owns the memory of a builder: `builder.c`, `hpp/internal.hpp`, `hpp/array_writer.hpp` and the buffers of nanoarrow

`Verif.Model.Builder` says what is in the buffers; this file says who gives their memory back, and when. Addresses are numbers,
each handed out once by `malloc`; what is stored there is left out. Simplified: allocations succeed; the small blocks that nanoarrow
and `GeoArrowBuilderSetOwnedBuffer` keep for themselves (`ArrowFree` in `GeoArrowBufferDeallocateWrapper`,
src/geoarrow/builder.c:162) are left out; of nanoarrow the release build is modelled.
-/
namespace Verif.Own

/-- `ENOMEM` of Linux -/
def ENOMEM : Code := 12

/-- What is seen of memory: `malloc` returned a block; `free` was called; `GeoArrowBuilderSetOwnedBuffer` took a buffer with the owner's
`private_data` `t`; its `custom_free` was called with a pointer and a size; a C++ object was deleted by its maker. -/
inductive MemEvent where
  | malloc (address : Nat)
  | free (address : Nat)
  | took (t : Nat)
  | custom (t : Nat) (data : Option Nat) (size : Nat)
  | deleted (t : Nat)
  deriving DecidableEq, Repr

/-- `struct ArrowBuffer`, src/vendor/nanoarrow/nanoarrow.h:767-780. `data` is `none` for `NULL`; `owner` is the `private_data` given with
`custom_free`, `none` for the default allocator. -/
structure Buf where
  data : Option Nat
  size : Nat
  cap : Nat
  owner : Option Nat
  deriving DecidableEq, Repr

/-- `ArrowBufferInit`, src/vendor/nanoarrow/nanoarrow.h:2496-2501 -/
def Buf.init : Buf := ⟨none, 0, 0, none⟩

/-- `allocator.free`: `ArrowBufferAllocatorMallocFree`, src/vendor/nanoarrow/nanoarrow.c:231-238, or `GeoArrowBufferDeallocateWrapper`,
src/geoarrow/builder.c:156-163 -/
def Buf.free (x : Buf) : List MemEvent :=
  match x.owner with
  | some t => [.custom t x.data x.cap]
  | none => match x.data with | some a => [.free a] | none => []

/-- `allocator.reallocate`: `ArrowBufferAllocatorMallocReallocate`, src/vendor/nanoarrow/nanoarrow.c:222-229, which never fails here, or
`ArrowBufferDeallocatorReallocate`, 247-266. With the next address: events, whether it succeeded, and the buffer, with the new capacity or none:
src/vendor/nanoarrow/nanoarrow.h:2566-2576. -/
def Buf.realloc (next n : Nat) (x : Buf) : List MemEvent × Bool × Buf :=
  match x.owner with
  | some _ => (x.free, false, ⟨none, 0, 0, none⟩)
  | none => (x.free ++ [.malloc next], true, { x with data := some next, cap := n })

/-- `ArrowBufferReserve`, src/vendor/nanoarrow/nanoarrow.h:2557-2577. `growByFactor` is never zero here. -/
def Buf.reserve (next additional : Nat) (x : Buf) : List MemEvent × Bool × Buf :=
  if x.size + additional ≤ x.cap then ([], true, x)
  else x.realloc next (growByFactor x.cap (x.size + additional))

/-! ## Trees of arrays -/

/-- A buffer of a tree of arrays: the way to the array, and 0 for the bitmap, 1 and 2 for `buffers[0]` and `buffers[1]`
(`struct ArrowArrayPrivateData`, src/vendor/nanoarrow/nanoarrow.h:880-914) -/
abbrev Slot := List Nat × Nat

mutual
/-- The buffers in the order in which `ArrowArrayReleaseInternal` resets them, src/vendor/nanoarrow/nanoarrow.c:2318-2363 -/
def slotsOf (path : List Nat) : ATree BKind → List Slot
  | .node _ cs => (path, 0) :: (path, 1) :: (path, 2) :: slotsOfL path 0 cs
def slotsOfL (path : List Nat) (k : Nat) : List (ATree BKind) → List Slot
  | [] => []
  | c :: cs => slotsOf (path ++ [k]) c ++ slotsOfL path (k + 1) cs
end

mutual
/-- The buffers looked at by `ArrowArrayFinalizeBuffers`, src/vendor/nanoarrow/nanoarrow.c:2753-2780: all that the layout has, but for validity. -/
def dataSlots (path : List Nat) : ATree BKind → List Slot
  | .node k cs => ((List.range (k.nBuffers - 1)).map fun j => (path, j + 1)) ++ dataSlotsL path 0 cs
def dataSlotsL (path : List Nat) (k : Nat) : List (ATree BKind) → List Slot
  | [] => []
  | c :: cs => dataSlots (path ++ [k]) c ++ dataSlotsL path (k + 1) cs
end

/-- An `ArrowArray` of nanoarrow that is not released -/
structure Arr where
  tree : ATree BKind
  bufs : Slot → Buf

/-- `ArrowArrayInitFromSchema`, src/vendor/nanoarrow/nanoarrow.c:2503-2569: all buffers are empty. -/
def Arr.init (tree : ATree BKind) : Arr := ⟨tree, fun _ => Buf.init⟩

/-- `array->release(array)`, src/vendor/nanoarrow/nanoarrow.c:2318-2363 -/
def Arr.release (a : Arr) : List MemEvent := (slotsOf [] a.tree).flatMap fun s => (a.bufs s).free

/-- `*buffer = x` -/
def Arr.set (a : Arr) (s : Slot) (x : Buf) : Arr := { a with bufs := fun s' => if s' = s then x else a.bufs s' }

/-! ## The builder -/

/-- One of `builder->view.buffers`, src/geoarrow/geoarrow_type.h:648-657 -/
structure View where
  data : Option Nat
  size : Nat
  cap : Nat
  deriving DecidableEq, Repr

/-- `struct GeoArrowBuilder` with `struct BuilderPrivate`, src/geoarrow/builder.c:8-20: the array being built, the number of buffers and the view of each. -/
structure Bld where
  arr : Arr
  nBuffers : Nat
  view : Nat → View

/-- All there is: the next address, what happened, the builder (`none` after `GeoArrowBuilderReset`), and the finished arrays (`none` once released). -/
structure Sys where
  next : Nat
  log : List MemEvent
  builder : Option Bld
  arrays : List (Option Arr)

/-- Whether an event is `malloc`, after which the next address is another -/
def MemEvent.isMalloc : MemEvent → Bool
  | .malloc _ => true
  | _ => false

/-- Events happen. -/
def Sys.emit (s : Sys) (es : List MemEvent) : Sys := { s with next := s.next + es.countP MemEvent.isMalloc, log := s.log ++ es }

/-- The buffer with flat index `i`, src/geoarrow/builder.c:33-39 (`private->buffers[i]`) -/
def Bld.slot (b : Bld) (i : Nat) : Option Slot := ((findBuffer BKind.nBuffers b.arr.tree i 0 0 []).1).map fun f => (f.path, f.i.toNat)

/-- `GeoArrowBuilderInitArrayAndCachePointers`, src/geoarrow/builder.c:22-53 -/
def Bld.init (tree : ATree BKind) (n : Nat) : Bld := ⟨Arr.init tree, n, fun _ => ⟨none, 0, 0⟩⟩

/-- `builder->view.buffers[i] = v` -/
def Bld.setView (b : Bld) (i : Nat) (v : View) : Bld := { b with view := fun j => if j = i then v else b.view j }

/-- What a client can do. `view` stands for the inline functions that append to a buffer: they change the size in the view; `finish` is given what
`ArrowArrayViewValidate` says of the array; `release` is what the consumer of the `k`-th finished array does. `wrap` is `ArrayBuilder::SetBufferWrapped`. -/
inductive Call where
  | setOwned (i : Int) (data : Option Nat) (size : Nat) (t : Nat)
  | wrap (i : Int) (data : Option Nat) (size : Nat) (t : Nat)
  | reserve (i additional : Nat)
  | view (i size : Nat)
  | finish (valid : Bool)
  | release (k : Nat)
  | reset
  deriving DecidableEq, Repr

/-- `GeoArrowBuilderSetOwnedBuffer`, src/geoarrow/builder.c:164-198 -/
def setOwned (i : Int) (data : Option Nat) (size t : Nat) (s : Sys) : Option (Code × Sys) :=
  match s.builder with
  | none => none
  | some b =>
    if i < 0 ∨ (b.nBuffers : Int) ≤ i then some (EINVAL, s)
    else
      match b.slot i.toNat with
      | none => none
      | some p =>
        let b' := { b with arr := b.arr.set p ⟨data, size, size, some t⟩ }
        some (0, { (s.emit ((b.arr.bufs p).free ++ [.took t])) with builder := some (b'.setView i.toNat ⟨data, size, size⟩) })

/-- `ArrayBuilder::SetBufferWrapped`, src/geoarrow/hpp/array_writer.hpp:50-66, with `FreeWrappedBuffer`, src/geoarrow/hpp/internal.hpp:28-34, as
`custom_free`: `t` is the object moved to the heap. -/
def wrap (i : Int) (data : Option Nat) (size t : Nat) (s : Sys) : Option (Code × Sys) :=
  match setOwned i data size t s with
  | none => none
  | some (rc, s') => if rc = 0 then some (rc, s') else some (rc, s'.emit [.deleted t])

/-- `GeoArrowBuilderReserveBuffer`, src/geoarrow/builder.c:133-149. A failure is not seen in the view. -/
def reserve (i additional : Nat) (s : Sys) : Option (Code × Sys) :=
  match s.builder with
  | none => none
  | some b =>
    match (if i < b.nBuffers then b.slot i else none) with
    | none => none
    | some p =>
      let r := Buf.reserve s.next additional { b.arr.bufs p with size := (b.view i).size }
      let b' := { b with arr := b.arr.set p r.2.2 }
      if r.2.1 then
        some (0, { (s.emit r.1) with builder := some (b'.setView i { b.view i with data := r.2.2.data, cap := r.2.2.cap }) })
      else some (ENOMEM, { (s.emit r.1) with builder := some b' })

/-- The view's size is set by one of the inline functions. -/
def setViewSize (i size : Nat) (s : Sys) : Option (Code × Sys) :=
  match s.builder with
  | none => none
  | some b => some (0, { s with builder := some (b.setView i { b.view i with size := size }) })

/-- `private->buffers[i]->size_bytes = builder->view.buffers[i].size_bytes`, src/geoarrow/builder.c:247-249; the sizes of coordinate buffers are
taken to be those of the view already. -/
def syncSizes (b : Bld) : Nat → Arr → Arr
  | 0, a => a
  | n + 1, a =>
    match b.slot n with
    | none => syncSizes b n a
    | some p => syncSizes b n (a.set p { a.bufs p with size := (b.view n).size })

/-- `ArrowArrayFinalizeBuffers`, src/vendor/nanoarrow/nanoarrow.c:2753-2780: events, success, and the array. -/
def finalize : List Slot → (next : Nat) → Arr → List MemEvent × Bool × Arr
  | [], _, a => ([], true, a)
  | p :: ps, next, a =>
    if (a.bufs p).data = none then
      let r := (a.bufs p).reserve next 1
      if r.2.1 then
        let r' := finalize ps (next + r.1.countP MemEvent.isMalloc) (a.set p r.2.2)
        (r.1 ++ r'.1, r'.2)
      else (r.1, false, a.set p r.2.2)
    else finalize ps next a

/-- `GeoArrowBuilderFinish`, src/geoarrow/builder.c:206-288. The array handed out comes last in `arrays`. -/
def finish (valid : Bool) (s : Sys) : Option (Code × Sys) :=
  match s.builder with
  | none => none
  | some b =>
    let r := finalize (dataSlots [] b.arr.tree) s.next (syncSizes b b.nBuffers b.arr)
    if r.2.1 = false then some (ENOMEM, { (s.emit r.1) with builder := some { b with arr := r.2.2 } })
    else if valid then
      some (0, { (s.emit r.1) with builder := some (Bld.init b.arr.tree b.nBuffers), arrays := s.arrays ++ [some r.2.2] })
    else some (EINVAL, { (s.emit r.1) with builder := some { b with arr := r.2.2 } })

/-- The consumer of the `k`-th array calls `array->release(array)`; releasing it twice is an error of the consumer. -/
def releaseArray (k : Nat) (s : Sys) : Option (Code × Sys) :=
  match s.arrays[k]? with
  | some (some a) => some (0, { (s.emit a.release) with arrays := s.arrays.set k none })
  | _ => none

/-- `GeoArrowBuilderReset`, src/geoarrow/builder.c:290-305; also `~ArrayBuilder`, src/geoarrow/hpp/array_writer.hpp:23-27 -/
def reset (s : Sys) : Option (Code × Sys) :=
  match s.builder with
  | none => some (0, s)
  | some b => some (0, { (s.emit b.arr.release) with builder := none })

/-- A call: what it returns, and the system after it; `none` if the call is not allowed (a builder that was reset, a buffer that does not exist). -/
def Call.run : Call → Sys → Option (Code × Sys)
  | .setOwned i d n t => Own.setOwned i d n t
  | .wrap i d n t => Own.wrap i d n t
  | .reserve i n => Own.reserve i n
  | .view i n => Own.setViewSize i n
  | .finish v => Own.finish v
  | .release k => Own.releaseArray k
  | .reset => Own.reset

/-- A history of calls: the values returned and the system after it -/
def runs : List Call → Sys → Option (List Code × Sys)
  | [], s => some ([], s)
  | c :: cs, s =>
    match c.run s with
    | none => none
    | some (rc, s') =>
      match runs cs s' with
      | none => none
      | some (rcs, s'') => some (rc :: rcs, s'')

/-- A new builder, src/geoarrow/builder.c:116-122, in a system where nothing happened yet -/
def Sys.start (b : Builder) : Sys := ⟨0, [], some (Bld.init b.tree b.nBuffers), []⟩

end Verif.Own
