import Verif.Model.KernelLife
/-!
# Specification: histories of a kernel and the memory they leave
-/
namespace Verif.Life
open Verif

/-- The blocks of some buffers. -/
def blocksOf : List (Option Nat) → List Nat
  | [] => []
  | b :: bs => b.toList ++ blocksOf bs

/-- The blocks of an array or schema. -/
def Obj.blocks (o : Obj) : List Nat := o.self :: blocksOf o.bufs

/-- The blocks of all arrays and schemas a client holds. -/
def heldBlocks : List Obj → List Nat
  | [] => []
  | o :: os => o.blocks ++ heldBlocks os

/-- Exactly these blocks are allocated, each of them listed once. -/
def Exactly (h : Heap) (l : List Nat) : Prop := (∀ a, h.live a = true ↔ a ∈ l) ∧ l.Nodup

/-- Memory that is handed out next is not in use. -/
def Heap.Sound (h : Heap) : Prop := ∀ a, h.live a = true → a < h.next

/-- What a client knows: its kernel, whether `start` was called and whether it returned 0 once (since the kernel was initialised), and the
arrays and schemas it was given. -/
structure World where
  kernel : Option Kernel
  started : Bool
  ready : Bool
  held : List Obj

/-- Nothing done yet. -/
def World.empty : World := ⟨none, false, false, []⟩

/-- A call of a client; `drop i` releases the `i`-th of the arrays and schemas it holds. -/
inductive Call where
  | init (k : Kind)
  | start (o : Start)
  | push (o : Push)
  | finish (o : Push)
  | release
  | drop (i : Nat)

/-- What was put into the caller's array or schema belongs to the caller, whatever the code says. -/
def World.give (w : World) (k : Kernel) (out : Option Obj) : World := { w with kernel := some k, held := out.toList ++ w.held }

/-- A call on the kernel the client has. -/
def World.on {α : Type} (w : World) (f : Kernel → H α) : H α :=
  match w.kernel with
  | none => crash
  | some k => f k

/-- What a call returns. -/
def Call.run : Call → World → H (Code × World)
  | .init k, w => do
    let x ← Kernel.init k
    pure (0, { w with kernel := some x, started := false, ready := false })
  | .start o, w => do
    let r ← w.on (Kernel.start o)
    pure (r.1.1, { w.give r.2 r.1.2 with started := true, ready := w.ready || r.1.1 == 0 })
  | .push o, w => do
    let r ← w.on (Kernel.push o)
    pure (r.1.1, w.give r.2 r.1.2)
  | .finish o, w => do
    let r ← w.on (Kernel.finish o)
    pure (r.1.1, w.give r.2 r.1.2)
  | .release, w => do
    w.on Kernel.release
    pure (0, { w with kernel := none })
  | .drop i, w =>
    match w.held[i]? with
    | none => crash
    | some o => do
      o.release
      pure (0, { w with held := w.held.eraseIdx i })

/-- Calls one after the other, whatever they return. -/
def runCalls : List Call → World → H (List Code × World)
  | [], w => pure ([], w)
  | c :: cs, w => do
    let r ← c.run w
    let s ← runCalls cs r.2
    pure (r.1 :: s.1, s.2)

/-- The kernel makes an array from each batch. -/
def Kind.perBatch (k : Kind) : Prop := k = .void ∨ k = .formatWkt ∨ k = .asGeoarrow ∨ k = .box

/-- What the API asks of a client: kernels are initialised when there is none and used while there is one; an array is passed wherever one
is made; nothing is released twice; and if `start` was called on an `as_geoarrow` kernel, nothing is pushed before it returned 0. -/
def Call.Allowed : Call → World → Prop
  | .init _, w => w.kernel = none
  | .start _, w => w.kernel ≠ none
  | .push o, w => ∃ k, w.kernel = some k ∧ (k.kind.perBatch → o.out = true) ∧ (k.kind = .asGeoarrow → w.started = true → w.ready = true)
  | .finish o, w => ∃ k, w.kernel = some k ∧ (¬ k.kind.perBatch → o.out = true)
  | .release, w => w.kernel ≠ none
  | .drop i, w => i < w.held.length

/-- The client does what the API asks, all the way. -/
def Obeys : List Call → World → Heap → Prop
  | [], _, _ => True
  | c :: cs, w, h => c.Allowed w ∧ ∀ r h', c.run w h = some (r, h') → Obeys cs r.2 h'

/-- `start` is called at most once between initialising and releasing a kernel, and never for output in the large or view versions of
well-known text or binary. -/
def OneStart : Bool → List Call → Prop
  | _, [] => True
  | _, .init _ :: cs => OneStart false cs
  | b, .start o :: cs => b = false ∧ o.out ≠ .large ∧ OneStart true cs
  | b, _ :: cs => OneStart b cs

end Verif.Life
