import Verif.Proof.KernelLifeRun
/-!
# C78: a kernel gives back all the memory it takes, and only that

A client makes any calls on kernels, one kernel at a time, in any order the API allows, releasing what it was given whenever it likes.
Everything that depends on data (which schemas, options and arrays are accepted, which visits fail, which buffers grow) is arbitrary.
-/
namespace Verif
open Life

/-- No history of calls that the API allows frees a block twice, frees one that was not allocated, or follows a null pointer. All through,
memory that belonged to others stays theirs, and each array or schema that the client still holds has its own blocks. -/
theorem C78_safe (others : List Nat) (h : Heap) (he : Exactly h others) (hs : h.Sound) (cs : List Call) (ho : Obeys cs World.empty h) :
    ∃ r h', runCalls cs World.empty h = some (r, h') ∧ (heldBlocks r.2.held ++ others).Nodup ∧ ∀ a ∈ heldBlocks r.2.held ++ others, h'.live a = true := by
  obtain ⟨r, h', lost, e, o, _, _⟩ := runs_all cs World.empty h others inv_empty ho (own_of_exactly he hs)
  have x := exactly_of_own (o.eqv (l' := (heldBlocks r.2.held ++ others) ++ (optBlocks Kernel.blocks r.2.kernel ++ lost)) (by unfold World.blocks; cnt))
  exact ⟨r, h', e, (List.nodup_append.mp x.2).1, fun a ha => (x.1 a).mpr (List.mem_append_left _ ha)⟩

/-- After the last kernel is released, the memory in use is that of others and that of the arrays and schemas the client holds, nothing
else: whatever failed on the way, a kernel gives back all it took.

Partial: the client must not have called `start` twice on the same kernel, nor have asked `as_geoarrow` for a large or view type
(`OneStart`). Without this the claim is false: `C78_restart_leaks`, `C78_unsupported_leaks`. -/
theorem C78_given_back_partial (others : List Nat) (h : Heap) (he : Exactly h others) (hs : h.Sound) (cs : List Call) (ho : Obeys cs World.empty h)
    (h1 : OneStart false cs) :
    ∃ r h', runCalls cs World.empty h = some (r, h') ∧ (r.2.kernel = none → Exactly h' (heldBlocks r.2.held ++ others)) := by
  obtain ⟨r, h', lost, e, o, _, hl⟩ := runs_all cs World.empty h others inv_empty ho (own_of_exactly he hs)
  refine ⟨r, h', e, fun hk => exactly_of_own (o.eqv ?_)⟩
  rw [hl h1]
  unfold World.blocks
  rw [hk]
  exact fun _ => rfl

/-- In particular nothing is left of a kernel once the client has also released all it was given. -/
theorem C78_nothing_left_partial (others : List Nat) (h : Heap) (he : Exactly h others) (hs : h.Sound) (cs : List Call) (ho : Obeys cs World.empty h)
    (h1 : OneStart false cs) (r : List Code × World) (h' : Heap) (hr : runCalls cs World.empty h = some (r, h')) (hk : r.2.kernel = none)
    (hd : r.2.held = []) : ∀ a, h'.live a = h.live a := by
  obtain ⟨r', h'', e, hx⟩ := C78_given_back_partial others h he hs cs ho h1
  rw [hr] at e
  cases e
  have x := hx hk
  rw [hd] at x
  intro a
  have a1 := x.1 a
  have a2 := he.1 a
  cases e1 : h'.live a <;> cases e2 : h.live a
  · rfl
  · rw [e1] at a1; rw [e2] at a2; exact absurd (a1.mpr (a2.mp rfl)) (by decide)
  · rw [e1] at a1; rw [e2] at a2; exact absurd (a2.mpr (a1.mp rfl)) (by decide)
  · rfl

/-- Calling `start` a second time on any kernel that visits leaks the reader of the first, if both schemas are accepted: a block that was
not in use before is in use after the release, and the client has no array or schema it belongs to. -/
theorem C78_restart_leaks (k : Kind) (h1 : k ≠ .void) (h2 : k ≠ .voidAgg) (o1 o2 : Start) (a1 : o1.view = 0 ∧ o1.refused = 0)
    (a2 : o2.view = 0 ∧ o2.refused = 0) (others : List Nat) (h : Heap) (he : Exactly h others) (hs : h.Sound) :
    ∃ r h', runCalls [.init k, .start o1, .start o2, .release] World.empty h = some (r, h') ∧ r.2.kernel = none ∧
      ∃ a, h.live a = false ∧ h'.live a = true ∧ a ∉ heldBlocks r.2.held :=
  restart_leaks k h1 h2 o1 o2 a1 a2 h others (own_of_exactly he hs)

/-- Asking an `as_geoarrow` kernel for a large or view type of well-known text or binary leaks the writer. -/
theorem C78_unsupported_leaks (o : Start) (a : o.view = 0 ∧ o.refused = 0) (ha : o.args = 0) (hl : o.out = .large) (others : List Nat) (h : Heap)
    (he : Exactly h others) (hs : h.Sound) :
    ∃ r h', runCalls [.init .asGeoarrow, .start o, .release] World.empty h = some (r, h') ∧ r.2.kernel = none ∧
      ∃ a, h.live a = false ∧ h'.live a = true ∧ a ∉ heldBlocks r.2.held :=
  unsupported_leaks o a ha hl h others (own_of_exactly he hs)

/-- Why a client must not push to an `as_geoarrow` kernel whose `start` failed: when the options were wrong, the first batch that is
visited makes the kernel follow a null pointer instead of returning an error. -/
theorem C78_push_after_failed_start (o1 : Start) (a1 : o1.view = 0 ∧ o1.refused = 0) (ha : o1.args ≠ 0) (o2 : Push) (hs : o2.set = 0)
    (hv : o2.visit = 0) (others : List Nat) (h : Heap) (he : Exactly h others) (hh : h.Sound) :
    runCalls [.init .asGeoarrow, .start o1, .push o2] World.empty h = none :=
  push_after_failed o1 a1 ha o2 hs hv h others (own_of_exactly he hh)

/-! ## Examples -/

/-- A heap in which block 0 is in use by someone else. -/
def exHeap : Heap := ⟨fun a => a == 0, 1⟩

def exStart : Start := ⟨0, .wkb, 0, 0, .wkt, fun _ => true, 0, 0⟩
def exPush (rc : Code) : Push := ⟨0, fun _ => true, fun _ => true, rc, ⟨false, fun _ => true, 0, true⟩, true⟩

/-- A batch is pushed, one fails, the kernel is released, and then the array. -/
def exKernelCalls : List Call := [.init .asGeoarrow, .start exStart, .push (exPush 0), .push (exPush 22), .release, .drop 0]

example : Exactly exHeap [0] ∧ exHeap.Sound :=
  ⟨⟨fun a => by simp [exHeap], by decide⟩, fun a ha => by simp [exHeap] at ha; subst ha; decide⟩

/-- A computable version of the rules, for examples. -/
def allowedB : Call → World → Bool
  | .init _, w => w.kernel.isNone
  | .start _, w => w.kernel.isSome
  | .push o, w => w.kernel.isSome && o.out && (!w.started || w.ready)
  | .finish o, w => w.kernel.isSome && o.out
  | .release, w => w.kernel.isSome
  | .drop i, w => decide (i < w.held.length)

def obeysB : List Call → World → Heap → Bool
  | [], _, _ => true
  | c :: cs, w, h => allowedB c w && match c.run w h with
    | none => true
    | some (r, h') => obeysB cs r.2 h'

theorem allowed_of {c : Call} {w : World} (h : allowedB c w = true) : c.Allowed w := by
  have ks : w.kernel.isSome = true → ∃ k, w.kernel = some k := Option.isSome_iff_exists.mp
  cases c with
  | init k => exact Option.isNone_iff_eq_none.mp h
  | start o => obtain ⟨k, e⟩ := ks h; show w.kernel ≠ none; rw [e]; exact Option.some_ne_none k
  | push o =>
    simp only [allowedB, Bool.and_eq_true, Bool.or_eq_true, Bool.not_eq_true'] at h
    obtain ⟨k, e⟩ := ks h.1.1
    exact ⟨k, e, fun _ => h.1.2, fun _ hs => h.2.elim (fun h => by rw [h] at hs; cases hs) id⟩
  | finish o =>
    simp only [allowedB, Bool.and_eq_true] at h
    obtain ⟨k, e⟩ := ks h.1
    exact ⟨k, e, fun _ => h.2⟩
  | release => obtain ⟨k, e⟩ := ks h; show w.kernel ≠ none; rw [e]; exact Option.some_ne_none k
  | drop i => show i < w.held.length; simpa [allowedB] using h

theorem obeys_of : ∀ {cs : List Call} {w : World} {h : Heap}, obeysB cs w h = true → Obeys cs w h
  | [], _, _, _ => trivial
  | c :: cs, w, h, hb => by
    rw [obeysB, Bool.and_eq_true] at hb
    refine ⟨allowed_of hb.1, fun r h' e => obeys_of ?_⟩
    have h2 := hb.2
    rw [e] at h2
    exact h2

example : Obeys exKernelCalls World.empty exHeap := obeys_of (by decide +kernel)

example : OneStart false exKernelCalls := ⟨rfl, (fun h => by cases h), trivial⟩

/-- The client is left with the schema `start` made; blocks 1 to 19 were used on the way. -/
example : ((runCalls exKernelCalls World.empty exHeap).map fun p => (p.1.1, heldBlocks p.1.2.held, p.2.next, (List.range p.2.next).filter p.2.live)) =
    some ([0, 0, 0, 22, 0, 0], [7], 20, [0, 7]) := by decide +kernel

example : exStart.view = 0 ∧ exStart.refused = 0 := ⟨rfl, rfl⟩

/-- What is left after two starts: the schemas are 5 and 9, the reader was 2 with blocks 3 and 4. -/
example : ((runCalls [.init .box, .start exStart, .start exStart, .release] World.empty exHeap).map fun p => (heldBlocks p.1.2.held, (List.range p.2.next).filter p.2.live)) =
    some ([9, 5], [0, 2, 3, 4, 5, 9]) := by decide +kernel

example : ({ exStart with out := .large } : Start).out = .large ∧ ({ exStart with args := 22 } : Start).args ≠ 0 ∧ (exPush 0).set = 0 ∧ (exPush 0).visit = 0 :=
  ⟨rfl, by decide, rfl, rfl⟩

end Verif
