import Verif.Model.ArrayReader
/-!
# Array readers of C++ as objects: `hpp/array_reader.hpp`, with `ArrayHolder` of `hpp/internal.hpp`

`Verif.Model.ArrayReader` says what a reader does; this file says to whom the readers and the arrays they were given belong. Objects are numbered in
the order in which they are made, blocks of memory have addresses handed out once, and every Arrow array that is not moved or released yet has a
number (for its `release` callback). Simplified: allocations succeed; the buffer of nodes of a WKB reader is left out.
-/
namespace Verif.Rdr

/-- What is seen: `malloc` and `free`, and the call of an array's `release`. -/
inductive Ev where
  | malloc (address : Nat)
  | free (address : Nat)
  | released (t : Nat)
  deriving DecidableEq, Repr

/-- What is at `private_data` of a reader: `struct GeoArrowArrayReaderPrivate`, src/geoarrow/array_reader.c:11-16, and the arrays its views may point
into: that of the last accepted call, and those of refused calls since. -/
structure Priv where
  reader : AReader
  src : List Nat

/-- `class ArrayReader`, src/geoarrow/hpp/array_reader.hpp:28-77: `reader_.private_data`, the other blocks reached from it, whether `view_` was set, and
the array in `array_` (`none` if `array_.array.release` is null). -/
structure Obj where
  priv : Nat
  subs : List Nat
  cached : Bool
  held : Option Nat
  deriving DecidableEq, Repr

/-- The memory: the next address, what happened, the numbers of the arrays that were moved into readers or released by the client, what is at each
address that is not free, and the objects (`none` once destroyed). -/
structure Sys where
  next : Nat
  log : List Ev
  used : List Nat
  heap : Nat → Option Priv
  objs : List (Option Obj)

/-- What a client can do. `set` is `SetArray` with array number `t`, whose contents are `a`; `borrow` is `SetArrayNonOwning`; `visit` leaves the readers
of single elements in some state; `clientRelease` is the release of an array by the client; `copy` is the copy constructor, which the compiler makes. -/
inductive Call where
  | fromType (type : TypeId)
  | fromSchema (schema : ASchema)
  | set (k t : Nat) (a : AArray)
  | borrow (k t : Nat) (a : AArray)
  | view (k : Nat)
  | visit (k : Nat) (wkt : WktR) (wkb : WkbR)
  | clientRelease (t : Nat)
  | copy (k : Nat)
  | destroy (k : Nat)

/-- What comes of a call: an exception, or what it returns. -/
inductive Out where
  | threw
  | done
  | shows (v : AView)

/-- `*p = x` -/
def poke {α : Type} (f : Nat → α) (p : Nat) (x : α) : Nat → α := fun q => if q = p then x else f q

/-- How many blocks a reader of a type has besides its own: that of the WKT reader, src/geoarrow/array_reader.c:130-133 and wkt_reader.c:490-510, or those
of the WKB reader and its geometry, src/geoarrow/array_reader.c:134-137 and wkb_reader.c:206-227. -/
def subBlocks (type : TypeId) : Nat :=
  if type = 100003 ∨ type = 100004 ∨ type = 100006 then 1
  else if type = 100001 ∨ type = 100002 ∨ type = 100005 then 2
  else 0

/-- The constructors, src/geoarrow/hpp/array_reader.hpp:30-40, with `GeoArrowArrayReaderInitFromType` and `GeoArrowArrayReaderInitFromSchema`,
src/geoarrow/array_reader.c:144-196: the block of the reader is given back when the initialisation `r` fails. -/
def construct (r : Option AReader) (s : Sys) : Out × Sys :=
  match r with
  | none => (.threw, { s with next := s.next + 1, log := s.log ++ [.malloc s.next, .free s.next] })
  | some r =>
    let n := subBlocks r.type
    (.done, { s with
      next := s.next + 1 + n,
      log := s.log ++ (List.range (n + 1)).map (fun i => .malloc (s.next + i)),
      heap := poke s.heap s.next (some ⟨r, []⟩),
      objs := s.objs ++ [some ⟨s.next, (List.range n).map (fun i => s.next + 1 + i), false, none⟩] })

/-- The object `k` and what it points to; `none` if there is no such object or its `private_data` was freed. -/
def Sys.get (s : Sys) (k : Nat) : Option (Obj × Priv) :=
  match s.objs[k]? with
  | some (some o) => (s.heap o.priv).map fun p => (o, p)
  | _ => none

/-- `SetArrayNonOwning`, src/geoarrow/hpp/array_reader.hpp:54-57: `GeoArrowArrayReaderSetArray`, and an exception if it fails. -/
def setNonOwning (o : Obj) (p : Priv) (t : Nat) (a : AArray) (s : Sys) : Option (Out × Sys) :=
  match arrayReaderSetArray a p.reader with
  | .ok _ r => some (.done, { s with heap := poke s.heap o.priv (some ⟨r, [t]⟩) })
  | .err _ r => some (.threw, { s with heap := poke s.heap o.priv (some ⟨r, t :: p.src⟩) })
  | .ub => none

/-- `SetArray`, src/geoarrow/hpp/array_reader.hpp:48-52: the array is moved to `array_`; nothing is done with the one that is there. -/
def setArray (k t : Nat) (a : AArray) (s : Sys) : Option (Out × Sys) :=
  match s.get k with
  | none => none
  | some (o, p) =>
    if t ∈ s.used then none
    else setNonOwning o p t a { s with used := t :: s.used, objs := s.objs.set k (some { o with held := some t }) }

/-- `SetArrayNonOwning` called by a client; the array must not have been moved or released. -/
def borrow (k t : Nat) (a : AArray) (s : Sys) : Option (Out × Sys) :=
  match s.get k with
  | none => none
  | some (o, p) => if t ∈ s.used then none else setNonOwning o p t a s

/-- `GeoArrowArrayReaderArrayView`, src/geoarrow/array_reader.c:273-290 -/
def arrayReaderArrayView (r : AReader) : Except Code AView := if isArrowType r.type then .error ENOTSUP else .ok r.av

/-- `View`, src/geoarrow/hpp/array_reader.hpp:65-73, with `ArrayView::is_valid`, 17-20 -/
def view (k : Nat) (s : Sys) : Option (Out × Sys) :=
  match s.get k with
  | none => none
  | some (o, p) =>
    if o.cached ∧ p.reader.av.schema.type ≠ 0 then some (.shows p.reader.av, s)
    else
      match arrayReaderArrayView p.reader with
      | .error _ => some (.threw, s)
      | .ok v => some (.shows v, { s with objs := s.objs.set k (some { o with cached := true }) })

/-- `Visit`, src/geoarrow/hpp/array_reader.hpp:59-63; what the visitor sees is `arrayReaderVisit` of the reader. The arrays the views point into must
not have been released. -/
def visit (k : Nat) (wkt : WktR) (wkb : WkbR) (s : Sys) : Option (Out × Sys) :=
  match s.get k with
  | none => none
  | some (o, p) =>
    if ∀ t ∈ p.src, .released t ∉ s.log then
      some (.done, { s with heap := poke s.heap o.priv (some { p with reader := { p.reader with wkt := wkt, wkb := wkb } }) })
    else none

/-- `array->release(array)` by the client, on an array that is still its own -/
def clientRelease (t : Nat) (s : Sys) : Option (Out × Sys) :=
  if t ∈ s.used then none else some (.done, { s with used := t :: s.used, log := s.log ++ [.released t] })

/-- The copy constructor: none is declared in src/geoarrow/hpp/array_reader.hpp:28-77, so all members are copied. -/
def copy (k : Nat) (s : Sys) : Option (Out × Sys) :=
  match s.objs[k]? with
  | some (some o) => some (.done, { s with objs := s.objs ++ [some o] })
  | _ => none

/-- `~ArrayReader`, src/geoarrow/hpp/array_reader.hpp:42-46, with `GeoArrowArrayReaderReset`, src/geoarrow/array_reader.c:198-212, then `~ArrayHolder`,
src/geoarrow/hpp/internal.hpp:19-26 -/
def destroy (k : Nat) (s : Sys) : Option (Out × Sys) :=
  match s.get k with
  | none => none
  | some (o, _) =>
    some (.done, { s with
      log := s.log ++ (o.subs ++ [o.priv]).map .free ++ (match o.held with | some t => [.released t] | none => []),
      heap := poke s.heap o.priv none,
      objs := s.objs.set k none })

/-- A call: what comes of it and the memory after it; `none` if it is not allowed (no such object, memory that was freed). -/
def Call.run : Call → Sys → Option (Out × Sys)
  | .fromType type => fun s => some (construct (arrayReaderInit type) s)
  | .fromSchema schema => fun s => some (construct (arrayReaderInitFromSchema schema) s)
  | .set k t a => setArray k t a
  | .borrow k t a => Rdr.borrow k t a
  | .view k => Rdr.view k
  | .visit k wkt wkb => Rdr.visit k wkt wkb
  | .clientRelease t => Rdr.clientRelease t
  | .copy k => Rdr.copy k
  | .destroy k => Rdr.destroy k

/-- A history of calls: what came of each, and the memory after it -/
def runs : List Call → Sys → Option (List Out × Sys)
  | [], s => some ([], s)
  | c :: cs, s =>
    match c.run s with
    | none => none
    | some (x, s') =>
      match runs cs s' with
      | none => none
      | some (xs, s'') => some (x :: xs, s'')

/-- Nothing happened yet. -/
def Sys.start : Sys := ⟨0, [], [], fun _ => none, []⟩

end Verif.Rdr
