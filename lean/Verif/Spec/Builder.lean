import Verif.Spec.NativeArray
import Verif.Spec.CoordViews
import Verif.Model.Builder
/-!
# Specification: flat numbering of buffers, and what appends to a builder add up to

Of the model the types of its data are used (`ATree`, `Builder`, `CoordView`) and, to say what a client does, the functions it
calls (`BOp.run`).
-/
namespace Verif.Spec
open Verif

/-! ## Numbering -/

mutual
/-- The buffers of a tree of arrays in depth-first order, as path to the array and number of the buffer: all of the root,
all but the first (the validity bitmap) of the arrays below it. -/
def flatBuffers {α : Type} (nb : α → Nat) (skip : Nat) (path : List Nat) : ATree α → List (List Nat × Nat)
  | .node a cs => ((List.range (nb a - skip)).map fun j => (path, j + skip)) ++ flatBuffersL nb path 0 cs
/-- Those of the children, the first of which is number `k`. -/
def flatBuffersL {α : Type} (nb : α → Nat) (path : List Nat) (k : Nat) : List (ATree α) → List (List Nat × Nat)
  | [] => []
  | c :: cs => flatBuffers nb 1 (path ++ [k]) c ++ flatBuffersL nb path (k + 1) cs
end

mutual
/-- Every array has a validity buffer. -/
def HasValidity {α : Type} (nb : α → Nat) : ATree α → Prop
  | .node a cs => 1 ≤ nb a ∧ HasValidityL nb cs
def HasValidityL {α : Type} (nb : α → Nat) : List (ATree α) → Prop
  | [] => True
  | c :: cs => HasValidity nb c ∧ HasValidityL nb cs
end

/-- The array reached from `a` through children of these numbers. -/
def nodeAt : AArray → List Nat → Option AArray
  | a, [] => some a
  | a, k :: p =>
    match a.children[k]? with
    | some c => nodeAt c p
    | none => none

/-! ## Histories of appends -/

/-- What a client does with a builder: the three ways to add data to buffer `i`, to offsets `i` and to the coordinates.
"Checked" appends are the unsafe ones, called if the check allows it. -/
inductive BOp where
  | reserveBuffer (i n : Nat)
  | appendBuffer (i : Nat) (bs : List Byte)
  | checkedBuffer (i : Nat) (bs : List Byte)
  | reserveOffsets (i n : Nat)
  | appendOffsets (i : Nat) (vs : List Int)
  | checkedOffsets (i : Nat) (vs : List Int)
  | reserveCoords (n : Nat)
  | appendCoords (S : DMem) (src : CoordView) (dims : Dims) (off : Nat) (cs : List Coord)
  | checkedCoords (S : DMem) (src : CoordView) (dims : Dims) (off : Nat) (cs : List Coord)

/-- The calls; the result says whether data was added. -/
def BOp.run (junk : Nat → Byte) : BOp → M Builder Bool
  | .reserveBuffer i n => do bReserveBuffer junk i n; pure false
  | .appendBuffer i bs => do bAppendBuffer junk i bs; pure true
  | .checkedBuffer i bs => do
    let ok ← bBufferCheck i bs.length
    if ok then do bAppendBufferUnsafe i bs; pure true else pure false
  | .reserveOffsets i n => do bOffsetReserve junk i n; pure false
  | .appendOffsets i vs => do bOffsetAppend junk i vs; pure true
  | .checkedOffsets i vs => do
    let ok ← bOffsetCheck i vs.length
    if ok then do bOffsetAppendUnsafe i vs; pure true else pure false
  | .reserveCoords n => do bCoordsReserve junk n; pure false
  | .appendCoords S src d off cs => do bCoordsAppend junk S src d.code off cs.length; pure true
  | .checkedCoords S src d off cs => do
    let ok ← bCoordsCheck cs.length
    if ok then do bCoordsAppendUnsafe S src d.code off cs.length; pure true else pure false

def runBOps (junk : Nat → Byte) : List BOp → M Builder (List Bool)
  | [] => pure []
  | op :: ops => do
    let r ← op.run junk
    let rs ← runBOps junk ops
    pure (r :: rs)

/-- Builders made for a type and used in any way since. -/
inductive BuilderOf (type : Int) : Builder → Prop where
  | init {b} : builderInitFromType type = .ok b → BuilderOf type b
  | op {junk op b b'} : BuilderOf type b → (BOp.run junk op b).state? = some b' → BuilderOf type b'
  | owned {i v b b'} : BuilderOf type b → (bSetOwnedBuffer i v b).state? = some b' → BuilderOf type b'
  | finish {b b'} : BuilderOf type b → (bFinish b).state? = some b' → BuilderOf type b'

/-- Builders that are new or just gave away an array. -/
inductive StartOf (type : Int) : Builder → Prop where
  | init {b} : builderInitFromType type = .ok b → StartOf type b
  | finish {b a b'} : BuilderOf type b → bFinish b = .ok a b' → StartOf type b'

/-- What has been added: bytes per buffer, and coordinates. -/
structure BData where
  bytes : Nat → List Byte
  coords : List Coord

def BData.empty : BData := ⟨fun _ => [], []⟩

/-- Bytes of little-endian 32-bit two's complement numbers. -/
def int32Bytes (vs : List Int) : List Byte := vs.flatMap fun v => leBytes 4 (v % 2 ^ 32).toNat

def BData.addBytes (x : BData) (i : Nat) (bs : List Byte) : BData :=
  { x with bytes := fun j => if j = i then x.bytes i ++ bs else x.bytes j }

/-- The data after an operation with a result, for a builder of coordinates with dimensions `d`. -/
def BOp.apply (d : Dims) (r : Bool) (x : BData) : BOp → BData
  | .appendBuffer i bs => x.addBytes i bs
  | .checkedBuffer i bs => if r then x.addBytes i bs else x
  | .appendOffsets i vs => x.addBytes (i + 1) (int32Bytes vs)
  | .checkedOffsets i vs => if r then x.addBytes (i + 1) (int32Bytes vs) else x
  | .appendCoords _ _ s _ cs => { x with coords := x.coords ++ cs.map (mapCoord s d) }
  | .checkedCoords _ _ s _ cs => if r then { x with coords := x.coords ++ cs.map (mapCoord s d) } else x
  | _ => x

def applyBOps (d : Dims) : List BOp → List Bool → BData → BData
  | op :: ops, r :: rs, x => applyBOps d ops rs (op.apply d r x)
  | _, _, x => x

/-- How a client uses a buffer: through the functions for bytes, or also through those for offsets, or through those for
coordinates. -/
inductive BRole where
  | raw | offsets | coords
  deriving DecidableEq, Repr

/-- Which uses are covered: existing buffers only; coordinate buffers not mixed with functions for bytes or offsets; a
whole number of elements in offset buffers; coordinates read from where they are. -/
def BOp.Legal (n : Nat) (role : Nat → BRole) : BOp → Prop
  | .reserveBuffer i _ => i < n ∧ role i ≠ .coords
  | .appendBuffer i bs => i < n ∧ role i ≠ .coords ∧ (role i = .offsets → bs.length % 4 = 0)
  | .checkedBuffer i bs => i < n ∧ role i ≠ .coords ∧ (role i = .offsets → bs.length % 4 = 0)
  | .reserveOffsets i _ => i + 1 < n ∧ role (i + 1) = .offsets
  | .appendOffsets i _ => i + 1 < n ∧ role (i + 1) = .offsets
  | .checkedOffsets i _ => i + 1 < n ∧ role (i + 1) = .offsets
  | .reserveCoords _ => ∃ i, i < n ∧ role i = .coords
  | .appendCoords S src s off cs => (∃ i, i < n ∧ role i = .coords) ∧ Holds S src off s cs
  | .checkedCoords S src s off cs => (∃ i, i < n ∧ role i = .coords) ∧ Holds S src off s cs

/-- The buffer of value `j` of the coordinates of a type with `depth` levels of lists, and the index of row `t` in it. -/
def coordCell (depth : Nat) (d : Dims) (k : CoordKind) (t j : Nat) : Nat × Nat :=
  match k with
  | .separate => (depth + 1 + j, t)
  | .interleaved => (depth + 1, t * d.n + j)

/-- Number of flat buffers of a native type. -/
def numBuffers (depth : Nat) (d : Dims) : CoordKind → Nat
  | .separate => 1 + depth + d.n
  | .interleaved => 1 + depth + 1

/-- The buffer used for coordinates are the last ones: all of them or none. -/
def RolesOk (depth : Nat) (d : Dims) (k : CoordKind) (role : Nat → BRole) : Prop :=
  (∀ i, i ≤ depth → role i ≠ .coords) ∧
  ((∀ i, depth < i → i < numBuffers depth d k → role i = .coords) ∨
   (∀ i, depth < i → i < numBuffers depth d k → role i ≠ .coords))

/-- Buffer `i` of a builder holds these bytes and no more, within its capacity. -/
def BufferIs (b : Builder) (i : Nat) (bs : List Byte) : Prop :=
  (b.bufs i).size = bs.length ∧ (b.bufs i).size ≤ (b.bufs i).mem.length ∧ (b.bufs i).mem.take (b.bufs i).size = bs

/-- The coordinates of a builder are these and no more, within the capacity of the buffers. -/
def CoordsAre (depth : Nat) (d : Dims) (k : CoordKind) (b : Builder) (cs : List Coord) : Prop :=
  b.sizeCoords = cs.length ∧ b.sizeCoords ≤ b.capCoords ∧
  (∀ j, j < d.n → b.capCoords = 0 ∨ (8 * (coordCell depth d k (b.capCoords - 1) j).2 + 8 : Nat) ≤ (b.bufs (coordCell depth d k 0 j).1).mem.length) ∧
  ∀ t c, cs[t]? = some c → c.length = d.n ∧ ∀ (j : Nat) (x : Dbl), c[j]? = some x →
    f64At (b.bufs (coordCell depth d k t j).1).mem (coordCell depth d k t j).2 = some x

end Verif.Spec
