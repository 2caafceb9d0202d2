import Verif.Proof.GeomNodes
import Verif.Proof.DeepCopy
import Verif.Props.Visit
/-!
# C73: the array of nodes of an owning geometry
-/
namespace Verif
open Spec

/-- The call in C, with memory or without -/
def NodeCall.run (ok : Bool) (c : NodeCall) (g : GeomN) : Res GeomN Unit :=
  match c with
  | .append => M.bind (appendNode ok) (fun _ => M.ret ()) g
  | .appendInline => M.bind (appendNodeInline ok) (fun _ => M.ret ()) g
  | .resize n => resizeNodes ok n g
  | .resizeInline n => resizeNodesInline ok n g
  | .copy src => shallowCopy ok src g
  | .set i n => nodesStore i n g

/-- Calls one after the other, each with memory or without: the codes they return and the state they leave; `none` if something undefined
was done. -/
def runNodeCalls : List (NodeCall × Bool) → GeomN → Option (List Code × GeomN)
  | [], g => some ([], g)
  | (c, ok) :: cs, g =>
    match NodeCall.run ok c g with
    | .ub => none
    | .ok _ g' => (runNodeCalls cs g').map fun r => (0 :: r.1, r.2)
    | .err code g' => (runNodeCalls cs g').map fun r => (code :: r.1, r.2)

/-- All calls have memory. -/
def allOk (cs : List NodeCall) : List (NodeCall × Bool) := cs.map fun c => (c, true)

theorem nodeCall_ok {g l} (h : NodesOk g l) (c : NodeCall) (hv : c.Valid l) :
    ∃ g', NodeCall.run true c g = .ok () g' ∧ NodesOk g' (c.result l) := by
  have lift : ∀ {n : Nat}, n < 2 ^ 56 → n < 2 ^ 57 := fun h => Nat.lt_of_lt_of_le h (by decide)
  cases c with
  | append =>
    obtain ⟨g', h1, h2⟩ := appendNode_ok h (lift hv)
    exact ⟨g', bind_ok h1, h2⟩
  | appendInline =>
    obtain ⟨g', h1, h2⟩ := appendNodeInline_ok h (lift hv)
    exact ⟨g', bind_ok h1, h2⟩
  | resize n => exact resizeNodes_ok h n (lift hv)
  | resizeInline n => exact resizeNodesInline_ok h n (lift hv)
  | copy src => exact shallowCopy_ok h src (lift hv)
  | set i n => exact set_ok h i n hv

theorem history_ok : ∀ (cs : List NodeCall) {g l}, NodesOk g l → ValidFrom l cs →
    ∃ g', runNodeCalls (allOk cs) g = some (List.replicate cs.length 0, g') ∧ NodesOk g' (results l cs)
  | [], g, l, h, _ => ⟨g, rfl, h⟩
  | c :: cs, g, l, h, hv => by
    obtain ⟨g1, h1, h2⟩ := nodeCall_ok h c hv.1
    obtain ⟨g2, h3, h4⟩ := history_ok cs h2 hv.2
    refine ⟨g2, ?_, h4⟩
    unfold allOk at h3 ⊢
    simp only [List.map_cons, runNodeCalls, h1, h3, Option.map_some, List.length_cons, List.replicate_succ]

/-- The state after calls on a new geometry, all of them with memory -/
def After (cs : List NodeCall) (g : GeomN) : Prop := runNodeCalls (allOk cs) nodesInit = some (List.replicate cs.length 0, g)

theorem after_ok {cs g} (hv : ValidFrom [] cs) (h : After cs g) : NodesOk g (results [] cs) := by
  obtain ⟨g', h1, h2⟩ := history_ok cs nodesOk_init hv
  unfold After at h
  rw [h1] at h
  simp only [Option.some.injEq, Prod.mk.injEq, true_and] at h
  exact h ▸ h2

/-- Whatever is called, in whatever order, as long as there is memory: all calls return `GEOARROW_OK`, nothing undefined is done, and the nodes
that the geometry then shows are those that a list would have.

Partial: once an allocation has failed this no longer holds (`C73_failure_loses_nodes`), nor for sizes out of range (`C73_negative_size`,
`C73_size_wraps`). -/
theorem C73_history_partial (cs : List NodeCall) (hv : ValidFrom [] cs) :
    ∃ g actual, runNodeCalls (allOk cs) nodesInit = some (List.replicate cs.length 0, g) ∧ g.nodes = some actual ∧
      g.size = (results [] cs).length ∧ Agrees (results [] cs) actual := by
  obtain ⟨g, h1, h2⟩ := history_ok cs nodesOk_init hv
  exact ⟨g, _, h1, h2.nodes, h2.size, h2.nodes_agree⟩

/-- A point node of the caller -/
def exPt : Node := { blankNode with gt := 1, dims := 1, size := 1 }

/-- Appended, overwritten, shrunk, grown, copied over: what is known of the nodes -/
def exCalls : List NodeCall := [.append, .appendInline, .set 1 exPt, .resizeInline 1, .appendInline, .resize 5, .set 0 exPt, .append]

example : ValidFrom [] exCalls := by decide +kernel
example : results [] exCalls = [some exPt, some blankNode, none, none, none, some blankNode] := by decide +kernel
example : ∃ g actual, After exCalls g ∧ g.nodes = some actual ∧ actual.length = 6 ∧ actual[0]? = some (some exPt) ∧ actual[5]? = some (some blankNode) := by
  obtain ⟨g, a, h1, h2, _, h4⟩ := C73_history_partial exCalls (by decide +kernel)
  exact ⟨g, a, h1, h2, h4.1, h4.2 0 exPt (by decide +kernel), h4.2 5 blankNode (by decide +kernel)⟩

/-- The node that appending hands out is the last one. -/
theorem C73_appended (cs : List NodeCall) (hv : ValidFrom [] cs) (hl : (results [] cs).length < 2 ^ 56) {g : GeomN} (h : After cs g) :
    (∃ g', appendNode true g = .ok (results [] cs).length g') ∧ ∃ g', appendNodeInline true g = .ok (results [] cs).length g' := by
  have h0 := after_ok hv h
  have hl' : (results [] cs).length < 2 ^ 57 := Nat.lt_of_lt_of_le hl (by decide)
  obtain ⟨g1, h1, _⟩ := appendNode_ok h0 hl'
  obtain ⟨g2, h2, _⟩ := appendNodeInline_ok h0 hl'
  exact ⟨⟨g1, h1⟩, g2, h2⟩

example : ∃ g g', After exCalls g ∧ appendNode true g = .ok 6 g' := by
  obtain ⟨g, _, h1, _⟩ := C73_history_partial exCalls (by decide +kernel)
  obtain ⟨⟨g', h2⟩, _⟩ := C73_appended exCalls (by decide +kernel) (by decide +kernel) h1
  exact ⟨g, g', h1, h2⟩

/-- As long as there is room, appending needs no memory and moves no node: pointers to nodes stay good. -/
theorem C73_room (cs : List NodeCall) (hv : ValidFrom [] cs) {g : GeomN} (h : After cs g) (hr : g.size < g.cap) (ok : Bool) :
    ∃ g', appendNodeInline ok g = .ok (results [] cs).length g' ∧ g'.root = g.root ∧ g'.cap = g.cap := by
  have h0 := after_ok hv h
  unfold appendNodeInline
  rw [if_pos hr]
  obtain ⟨g', h1, _, h2, h3⟩ := appendRoom_ok h0 (by rw [h0.size, h0.cap] at hr; omega)
  exact ⟨g', h1, h2, h3⟩

example : ∃ g g', After [.resize 3, .resize 0] g ∧ appendNodeInline false g = .ok 0 g' ∧ g'.root = g.root := by
  have hv : ValidFrom [] [.resize 3, .resize 0] := by decide +kernel
  obtain ⟨g, h1, h2⟩ := history_ok [.resize 3, .resize 0] nodesOk_init hv
  have : g.size < g.cap := by
    have : (runNodeCalls (allOk [.resize 3, .resize 0]) nodesInit).map (fun r => decide (r.2.size < r.2.cap)) = some true := by decide +kernel
    rw [h1] at this
    simpa using this
  obtain ⟨g', h3, h4, _⟩ := C73_room _ hv h1 this false
  exact ⟨g, g', h1, h3, h4⟩

/-- Resetting a geometry gives back all memory of its nodes. -/
theorem C73_freed (cs : List NodeCall) (hv : ValidFrom [] cs) {g : GeomN} (h : After cs g) (a : Nat) : (nodesReset g).heap a = none := by
  have h0 := after_ok hv h
  simp only [nodesReset, ← h0.root]
  by_cases hr : g.root = some a
  · simp [hr]
  · rw [if_neg hr]
    have := mt (h0.live a).mp hr
    cases hh : g.heap a with
    | none => rfl
    | some b => rw [hh] at this; simp at this

example : ∃ g, After exCalls g ∧ g.heap 3 ≠ none ∧ (nodesReset g).heap 3 = none := by
  obtain ⟨g, h1, h2⟩ := history_ok exCalls nodesOk_init (by decide +kernel)
  refine ⟨g, h1, ?_, C73_freed exCalls (by decide +kernel) h1 3⟩
  have : (runNodeCalls (allOk exCalls) nodesInit).map (fun r => (r.2.heap 3).isSome) = some true := by decide +kernel
  rw [h1] at this
  intro hc
  simp [hc] at this

/-! ## Without memory -/

/-- What a call does that gets no memory: the members that the caller sees stay as they are, and so does the memory; the buffer is empty. -/
def GeomN.failed (g : GeomN) : GeomN := { g with bufData := none, bufSize := 0, bufCap := 0 }

theorem bufResize_fail {g l} (h : NodesOk g l) (n : Nat) (bytes : Int) (hb : bytes = 64 * (n : Int)) :
    nodesBufResize false bytes g = nodesBufResize true bytes g ∨ nodesBufResize false bytes g = .err ENOMEM g.failed := by
  subst hb
  unfold nodesBufResize
  by_cases hc : n ≤ g.blk.length
  · left
    rw [if_neg (by omega), if_neg (by rw [h.bufCap]; omega), if_neg (by omega), if_neg (by rw [h.bufCap]; omega)]
  · right
    rw [if_neg (by omega), if_pos (by rw [h.bufCap]; omega)]
    rfl

theorem resizeBytes_fail {g l} (h : NodesOk g l) (n : Nat) (bytes : Int) (hb : bytes = 64 * (n : Int)) :
    M.bind (nodesBufResize false bytes) (fun _ => M.modify syncNodesToGeom) g =
        M.bind (nodesBufResize true bytes) (fun _ => M.modify syncNodesToGeom) g ∨
      M.bind (nodesBufResize false bytes) (fun _ => M.modify syncNodesToGeom) g = .err ENOMEM g.failed := by
  rcases bufResize_fail h n bytes hb with h1 | h1
  · left
    simp only [M.bind, h1]
  · right
    simp only [M.bind, h1]

theorem resizeNodes_fail {g l} (h : NodesOk g l) (n : Nat) (hn : n < 2 ^ 57) :
    resizeNodes false n g = resizeNodes true n g ∨ resizeNodes false n g = .err ENOMEM g.failed := by
  rw [resizeNodes_eq, resizeNodes_eq]
  exact resizeBytes_fail h n _ (nodesToBytes_eq hn)

theorem reserve_fail {g l} (h : NodesOk g l) (g0 : GeomN) (hg : g0 = { g with bufSize := 64 * (l.length : Int) }) :
    nodesReserve false 64 g0 = nodesReserve true 64 g0 ∨
      (¬ l.length < g.blk.length ∧ nodesReserve false 64 g0 = .err ENOMEM g.failed) := by
  subst hg
  have hroom := h.room
  unfold nodesReserve
  by_cases hc : l.length < g.blk.length
  · left
    rw [if_pos (by simp only [h.bufCap]; omega), if_pos (by simp only [h.bufCap]; omega)]
  · right
    refine ⟨hc, ?_⟩
    rw [if_neg (by simp only [h.bufCap]; omega)]
    rfl

theorem appendNode_fail {g l} (h : NodesOk g l) (hl : l.length < 2 ^ 57) :
    appendNode false g = appendNode true g ∨ (¬ l.length < g.blk.length ∧ appendNode false g = .err ENOMEM g.failed) := by
  rw [appendNode_eq, appendNode_eq]
  have hg : syncGeomToNodes g = { g with bufSize := 64 * (l.length : Int) } := by
    unfold syncGeomToNodes; rw [h.size, nodesToBytes_eq hl]
  rcases reserve_fail h _ hg with h1 | ⟨h0, h1⟩
  · left
    simp only [M.bind, h1]
  · right
    refine ⟨h0, ?_⟩
    simp only [M.bind, h1]

theorem bind_err {σ α β} {m : M σ α} {f : α → M σ β} {s s' : σ} {c : Code} (h : m s = .err c s') : M.bind m f s = .err c s' := by
  unfold M.bind
  rw [h]

theorem bind_congr {σ α β} {m m' : M σ α} {f : α → M σ β} {s : σ} (h : m s = m' s) : M.bind m f s = M.bind m' f s := by
  unfold M.bind
  rw [h]

theorem nodeCall_fail {g l} (h : NodesOk g l) (c : NodeCall) (hv : c.Valid l) :
    NodeCall.run false c g = NodeCall.run true c g ∨ NodeCall.run false c g = .err ENOMEM g.failed := by
  have lift : ∀ {n : Nat}, n < 2 ^ 56 → n < 2 ^ 57 := fun h => Nat.lt_of_lt_of_le h (by decide)
  cases c with
  | append =>
    rcases appendNode_fail h (lift hv) with h1 | ⟨_, h1⟩
    · exact .inl (bind_congr h1)
    · exact .inr (bind_err h1)
  | appendInline =>
    have : appendNodeInline false g = appendNodeInline true g ∨ appendNodeInline false g = .err ENOMEM g.failed := by
      unfold appendNodeInline
      by_cases hc : g.size < g.cap
      · rw [if_pos hc, if_pos hc]; exact .inl rfl
      · rw [if_neg hc, if_neg hc]
        rcases appendNode_fail h (lift hv) with h1 | ⟨_, h1⟩
        · exact .inl h1
        · exact .inr h1
    rcases this with h1 | h1
    · exact .inl (bind_congr h1)
    · exact .inr (bind_err h1)
  | resize n => exact resizeNodes_fail h n (lift hv)
  | resizeInline n =>
    show resizeNodesInline false n g = _ ∨ resizeNodesInline false n g = _
    show _ = resizeNodesInline true n g ∨ _
    unfold resizeNodesInline
    by_cases hc : (n : Int) < g.cap
    · rw [if_pos hc, if_pos hc]; exact .inl rfl
    · rw [if_neg hc, if_neg hc]; exact resizeNodes_fail h n (lift hv)
  | copy src =>
    show shallowCopy false src g = shallowCopy true src g ∨ shallowCopy false src g = _
    rw [shallowCopy_eq, shallowCopy_eq]
    rcases resizeNodes_fail h src.nodes.length (lift hv) with h1 | h1
    · exact .inl (bind_congr h1)
    · exact .inr (bind_err h1)
  | set i n => exact .inl rfl

/-- A call that gets no memory either does not need it, or returns `ENOMEM` and leaves the nodes that the geometry shows as they were. -/
theorem C73_no_memory (cs : List NodeCall) (hv : ValidFrom [] cs) {g : GeomN} (h : After cs g) (c : NodeCall) (hc : c.Valid (results [] cs)) :
    (∃ g' actual, NodeCall.run false c g = .ok () g' ∧ g'.nodes = some actual ∧ Agrees (c.result (results [] cs)) actual) ∨
      ∃ g', NodeCall.run false c g = .err ENOMEM g' ∧ g'.nodes = g.nodes := by
  have h0 := after_ok hv h
  rcases nodeCall_fail h0 c hc with h1 | h1
  · left
    obtain ⟨g', h2, h3⟩ := nodeCall_ok h0 c hc
    exact ⟨g', _, h1.trans h2, h3.nodes, h3.nodes_agree⟩
  · exact .inr ⟨_, h1, rfl⟩

example : ∃ g g', After exCalls g ∧ NodeCall.run false (.resize 20) g = .err ENOMEM g' ∧ g'.nodes = g.nodes := by
  have hv : ValidFrom [] exCalls := by decide +kernel
  obtain ⟨g, h1, h2⟩ := history_ok exCalls nodesOk_init hv
  rcases C73_no_memory exCalls hv h1 (.resize 20) (by decide +kernel) with ⟨g', a, h3, _⟩ | ⟨g', h3, h4⟩
  · exfalso
    have : (runNodeCalls (allOk exCalls ++ [(.resize 20, false)]) nodesInit).map (fun r => r.1.getLastD 0) = some 12 := by decide +kernel
    have e : ∀ (xs ys : List (NodeCall × Bool)) (g : GeomN), runNodeCalls (xs ++ ys) g =
        (runNodeCalls xs g).bind fun r => (runNodeCalls ys r.2).map fun q => (r.1 ++ q.1, q.2) := by
      intro xs
      induction xs with
      | nil => intro ys g; simp [runNodeCalls]
      | cons x xs ih =>
        intro ys g
        obtain ⟨c, ok⟩ := x
        simp only [List.cons_append, runNodeCalls]
        cases NodeCall.run ok c g with
        | ub => rfl
        | ok a g' => simp only [ih]; cases runNodeCalls xs g' <;> simp [Option.map_map, Function.comp_def]
        | err rc g' => simp only [ih]; cases runNodeCalls xs g' <;> simp [Option.map_map, Function.comp_def]
    rw [e, h1] at this
    simp [runNodeCalls, h3, exCalls] at this
  · exact ⟨g, g', h1, h3, h4⟩

/-- Defect: after a failure, `GeoArrowGeometryAppendNode` that does get memory returns `GEOARROW_OK` and the geometry has one node more — but the nodes it
had before are gone: in their place is memory that nobody wrote to. This is so for every full array of nodes, however it came about. -/
theorem C73_failure_loses_nodes (cs : List NodeCall) (hv : ValidFrom [] cs) (hl : (results [] cs).length < 2 ^ 56) {g : GeomN} (h : After cs g)
    (hf : g.size = g.cap) :
    ∃ g1 g2, appendNode false g = .err ENOMEM g1 ∧ appendNode true g1 = .ok (results [] cs).length g2 ∧
      g2.nodes = some (List.replicate (results [] cs).length none ++ [some blankNode]) := by
  have h0 := after_ok hv h
  generalize results [] cs = l at *
  have hl' : l.length < 2 ^ 57 := Nat.lt_of_lt_of_le hl (by decide)
  have hfull : ¬ l.length < g.blk.length := by rw [h0.size, h0.cap] at hf; omega
  have h1 : appendNode false g = .err ENOMEM g.failed := by
    rw [appendNode_eq]
    have hg : syncGeomToNodes g = { g with bufSize := 64 * (l.length : Int) } := by
      unfold syncGeomToNodes; rw [h0.size, nodesToBytes_eq hl']
    rw [hg]
    apply bind_err
    unfold nodesReserve
    rw [if_neg (by have := h0.room; simp only [h0.bufCap]; omega)]
    rfl
  refine ⟨g.failed, ?_⟩
  have hg : syncGeomToNodes g.failed = { g with bufData := none, bufCap := 0, bufSize := 64 * (l.length : Int) } := by
    unfold syncGeomToNodes GeomN.failed
    simp only [h0.size, nodesToBytes_eq hl']
  have e : nodesReserve true 64 { g with bufData := none, bufCap := 0, bufSize := 64 * (l.length : Int) } =
      .ok () { g with
        heap := fun i => if i = g.next then some (List.replicate (l.length + 1) none) else g.heap i,
        next := g.next + 1, bufData := some g.next, bufCap := 64 * (l.length : Int) + 64, bufSize := 64 * (l.length : Int) } := by
    unfold nodesReserve
    rw [if_neg (by simp only []; omega), if_neg (by simp only []; omega)]
    unfold nodesRealloc
    rw [if_pos rfl]
    have : ((64 * (l.length : Int) + 64) / 64).toNat = l.length + 1 := by omega
    simp [GeomN.moved, this]
  have hblk : (List.replicate (l.length + 1) (none : Option Node)).length = l.length + 1 := by simp
  have e1 : (64 * (l.length : Int)) / 64 = l.length := by omega
  have e2 : (64 * (l.length : Int) + 64) / 64 = l.length + 1 := by omega
  refine ⟨{ g with
        heap := fun i => if i = g.next then some (List.replicate l.length none ++ [some blankNode]) else g.heap i,
        next := g.next + 1, bufData := some g.next, bufCap := 64 * (l.length : Int) + 64, bufSize := 64 * (l.length : Int),
        root := some g.next, size := (l.length : Int) + 1, cap := (l.length : Int) + 1 }, h1, ?_, ?_⟩
  · rw [appendNode_eq, hg, bind_ok e]
    simp only [syncNodesToGeom, e1, e2]
    rw [if_pos (by show (l.length : Int) < l.length + 1; omega)]
    unfold appendRoom nodesStore
    simp only [hblk, if_true]
    rw [if_pos (by omega)]
    simp only [Res.ok.injEq, true_and, GeomN.mk.injEq, and_true, Int.toNat_natCast]
    funext j
    by_cases hj : j = g.next
    · simp only [if_pos hj]
      congr 1
      rw [List.replicate_succ', List.set_append_right _ _ (by simp)]
      simp
    · simp only [if_neg hj]
  · simp only [GeomN.nodes, if_true]
    rw [if_pos (by simp; omega)]
    congr 1
    apply List.take_of_length_le
    simp

example : ∃ g g1 g2, After [.append, .set 0 exPt] g ∧ g.nodes = some [some exPt] ∧ appendNode false g = .err ENOMEM g1 ∧
    appendNode true g1 = .ok 1 g2 ∧ g2.nodes = some [none, some blankNode] := by
  have hv : ValidFrom [] [.append, .set 0 exPt] := by decide +kernel
  obtain ⟨g, h1, h2⟩ := history_ok [.append, .set 0 exPt] nodesOk_init hv
  have hx : (runNodeCalls (allOk [.append, .set 0 exPt]) nodesInit).map (fun r => (r.2.nodes, decide (r.2.size = r.2.cap))) =
      some (some [some exPt], true) := by decide +kernel
  rw [h1] at hx
  simp only [Option.map_some, Option.some.injEq, Prod.mk.injEq, decide_eq_true_eq] at hx
  obtain ⟨g1, g2, h3, h4, h5⟩ := C73_failure_loses_nodes _ hv (by decide +kernel) h1 hx.2
  exact ⟨g, g1, g2, h1, hx.1, h3, h4, h5⟩

/-- Defect: memory is lost. After a failure, resetting the geometry does not give back the block of its nodes. -/
theorem C73_failure_leaks (cs : List NodeCall) (hv : ValidFrom [] cs) (hl : (results [] cs).length < 2 ^ 56) {g : GeomN} (h : After cs g)
    (hf : g.size = g.cap) (hne : results [] cs ≠ []) :
    ∃ g1 a, appendNode false g = .err ENOMEM g1 ∧ g1.root = some a ∧ (nodesReset g1).heap a ≠ none := by
  obtain ⟨g1, g2, h1, _⟩ := C73_failure_loses_nodes cs hv hl h hf
  have h0 := after_ok hv h
  have hl' : (results [] cs).length < 2 ^ 57 := Nat.lt_of_lt_of_le hl (by decide)
  have hfail : appendNode false g = .err ENOMEM g.failed := by
    rcases appendNode_fail h0 hl' with h3 | ⟨_, h3⟩
    · obtain ⟨g', h4, _⟩ := appendNode_ok h0 hl'
      rw [h3, h4] at h1
      cases h1
    · exact h3
  cases hr : g.root with
  | none =>
    have := h0.room
    simp only [GeomN.blk, hr] at this
    exact absurd (List.length_eq_zero_iff.mp (Nat.le_zero.mp this)) hne
  | some a =>
    refine ⟨_, a, hfail, hr, ?_⟩
    have := h0.blk_some hr
    simp only [nodesReset, GeomN.failed]
    simp [this]

example : ∃ g g1 a, After [.append] g ∧ appendNode false g = .err ENOMEM g1 ∧ g1.root = some a ∧ (nodesReset g1).heap a ≠ none := by
  have hv : ValidFrom [] [.append] := by decide +kernel
  obtain ⟨g, h1, h2⟩ := history_ok [.append] nodesOk_init hv
  have hx : (runNodeCalls (allOk [.append]) nodesInit).map (fun r => decide (r.2.size = r.2.cap)) = some true := by decide +kernel
  rw [h1] at hx
  obtain ⟨g1, a, h3⟩ := C73_failure_leaks [.append] hv (by decide +kernel) h1 (by simpa using hx) (by decide +kernel)
  exact ⟨g, g1, a, h1, h3⟩

/-! ## Sizes out of range -/

/-- Defect: the inline version takes negative sizes, which the other one refuses. The geometry then shows nothing that may be read, and appending
writes in front of the array. -/
theorem C73_negative_size (cs : List NodeCall) (hv : ValidFrom [] cs) {g : GeomN} (h : After cs g) (ok : Bool) :
    resizeNodes ok (-1) g = .err EINVAL g ∧
      ∃ g', resizeNodesInline ok (-1) g = .ok () g' ∧ g'.size = -1 ∧ g'.nodes = none ∧ ∀ ok', appendNodeInline ok' g' = .ub := by
  have h0 := after_ok hv h
  constructor
  · rw [resizeNodes_eq]
    apply bind_err
    have : nodesToBytes (-1) = -64 := by decide +kernel
    rw [this]
    rfl
  · refine ⟨{ g with size := -1 }, ?_, rfl, ?_, ?_⟩
    · unfold resizeNodesInline
      rw [if_pos (by rw [h0.cap]; omega)]
    · simp only [GeomN.nodes]
      cases hr : g.root with
      | none => rfl
      | some a => simp only [h0.blk_some hr]; rfl
    · intro ok'
      unfold appendNodeInline
      rw [if_pos (by simp only [h0.cap]; omega)]
      unfold appendRoom nodesStore
      cases hr : g.root with
      | none => rfl
      | some a => simp only [h0.blk_some hr]; rfl

example : ∃ g g', After exCalls g ∧ resizeNodesInline true (-1) g = .ok () g' ∧ appendNodeInline true g' = .ub := by
  have hv : ValidFrom [] exCalls := by decide +kernel
  obtain ⟨g, h1, h2⟩ := history_ok exCalls nodesOk_init hv
  obtain ⟨_, g', h3, _, _, h4⟩ := C73_negative_size exCalls hv h1 true
  exact ⟨g, g', h1, h3, h4 true⟩

/-- Defect: the size in bytes is taken modulo 2^64: asked for 2^58 nodes, the geometry reports success and has none. -/
theorem C73_size_wraps (cs : List NodeCall) (hv : ValidFrom [] cs) {g : GeomN} (h : After cs g) (ok : Bool) :
    ∃ g', resizeNodes ok (2 ^ 58) g = .ok () g' ∧ g'.nodes = some [] := by
  have h0 := after_ok hv h
  have hb : nodesToBytes (2 ^ 58) = 64 * ((0 : Nat) : Int) := by decide +kernel
  obtain ⟨g', h1, h2⟩ := resizeBytes_ok h0 0 _ hb
  refine ⟨g', ?_, by rw [h2.nodes, resize_length]; rfl⟩
  rw [resizeNodes_eq]
  cases ok with
  | true => exact h1
  | false =>
    rcases bufResize_fail h0 0 _ hb with h3 | h3
    · exact (bind_congr h3).trans h1
    · exfalso
      rw [hb] at h3
      unfold nodesBufResize at h3
      rw [if_neg (by decide), if_neg (by rw [h0.bufCap]; omega)] at h3
      cases h3

example : ∃ g g', After exCalls g ∧ resizeNodes true (2 ^ 58) g = .ok () g' ∧ g'.nodes = some [] := by
  have hv : ValidFrom [] exCalls := by decide +kernel
  obtain ⟨g, h1, h2⟩ := history_ok exCalls nodesOk_init hv
  obtain ⟨g', h3⟩ := C73_size_wraps exCalls hv h1 true
  exact ⟨g, g', h1, h3⟩

/-! ## Copies and nodes over arrays of the caller -/

theorem copied_all {ns : List Node} {actual : List (Option Node)} (h : Agrees (ns.map some) actual) : actual = ns.map some := by
  obtain ⟨ha, hb⟩ := h
  apply List.ext_getElem?
  intro i
  by_cases hi : i < ns.length
  · have : (ns.map some)[i]? = some (some ns[i]) := by simp [hi]
    rw [hb i _ this, this]
  · rw [List.getElem?_eq_none (by rw [ha]; simp; omega), List.getElem?_eq_none (by simp; omega)]

/-- A shallow copy of a view, made into a geometry with whatever history, denotes what the view denotes (as long as the memory of the coordinates lives). -/
theorem C73_copy (cs : List NodeCall) (hv : ValidFrom [] cs) {g : GeomN} (h : After cs g) {m : Mem} {src : View} {geom : Geom}
    (hs : ViewDenotes m src geom) (hl : src.nodes.length < 2 ^ 56) :
    ∃ g' ns, shallowCopy true src g = .ok () g' ∧ g'.nodes = some (ns.map some) ∧ ViewDenotes m ⟨ns⟩ geom := by
  obtain ⟨g', h1, h2⟩ := shallowCopy_ok (after_ok hv h) src (Nat.lt_of_lt_of_le hl (by decide))
  have h3 : g'.nodes = some (src.nodes.map some) := by
    rw [h2.nodes, copied_all h2.nodes_agree]
  exact ⟨g', src.nodes, h1, h3, hs⟩

example : ∃ g g' ns, After exCalls g ∧ shallowCopy true exView g = .ok () g' ∧ g'.nodes = some (ns.map some) ∧ ViewDenotes exMem ⟨ns⟩ exGeom := by
  have hv : ValidFrom [] exCalls := by decide +kernel
  obtain ⟨g, h1, h2⟩ := history_ok exCalls nodesOk_init hv
  obtain ⟨g', ns, h3⟩ := C73_copy exCalls hv h1 exView_denotes (by decide)
  exact ⟨g, g', ns, h1, h3⟩

theorem flatten_get {α} {k : Nat} : ∀ (L : List (List α)) (_ : ∀ l ∈ L, l.length = k) {i j : Nat} {l : List α} {v : α},
    L[i]? = some l → l[j]? = some v → L.flatten[i * k + j]? = some v
  | [], _, i, j, l, v, h1, _ => by simp at h1
  | x :: xs, h, 0, j, l, v, h1, h2 => by
    simp at h1
    subst h1
    rw [Nat.zero_mul, Nat.zero_add, List.flatten_cons, List.getElem?_append_left (List.getElem?_eq_some_iff.mp h2).1]
    exact h2
  | x :: xs, h, i + 1, j, l, v, h1, h2 => by
    have hx := h x (by simp)
    rw [List.flatten_cons, List.getElem?_append_right (by rw [hx, Nat.succ_mul]; omega)]
    have : (i + 1) * k + j - x.length = i * k + j := by rw [hx, Nat.succ_mul]; omega
    rw [this]
    exact flatten_get xs (fun l hl => h l (by simp [hl])) (by simpa using h1) h2

theorem load_nth {m : Mem} {blk : Nat} {pre post : List Byte} {vals : List Dbl}
    (hm : m blk = pre ++ vals.flatMap Dbl.bytes ++ post) {k : Nat} {v : Dbl} (hv : vals[k]? = some v) {off : Int}
    (ho : off = pre.length + 8 * (k : Int)) : m.load ⟨blk, off⟩ 8 = some (Dbl.bytes v) := by
  have hlen : ∀ ds : List Dbl, (ds.flatMap Dbl.bytes).length = 8 * ds.length := by
    intro ds
    induction ds with
    | nil => rfl
    | cons d ds ih => simp [ih]; omega
  have hk := (List.getElem?_eq_some_iff.mp hv).1
  have hat : ∀ (ds : List Dbl) (k : Nat) (v : Dbl), ds[k]? = some v → ∀ post, ((ds.flatMap Dbl.bytes ++ post).drop (8 * k)).take 8 = Dbl.bytes v := by
    intro ds
    induction ds with
    | nil => intro k v h; simp at h
    | cons d ds ih =>
      intro k v h post
      cases k with
      | zero =>
        simp at h
        subst h
        simp only [List.flatMap_cons, List.append_assoc, Nat.mul_zero, List.drop_zero]
        rw [List.take_append_of_le_length (by simp), List.take_of_length_le (by simp)]
      | succ k =>
        simp only [List.flatMap_cons, List.append_assoc, Nat.mul_succ, drop_bytes]
        exact ih k v (by simpa using h) post
  subst ho
  unfold Mem.load
  simp only [hm]
  rw [if_pos (by simp only [List.length_append, hlen]; omega)]
  have : ((pre.length : Int) + 8 * (k : Int)).toNat = pre.length + 8 * k := by omega
  rw [this, List.append_assoc, ← List.drop_drop, List.drop_left, hat vals k v hv post]

theorem interleaved_flatten : ∀ cs : List Coord, interleaved cs = cs.flatten.flatMap Dbl.bytes
  | [] => rfl
  | c :: cs => by
    have := interleaved_flatten cs
    simp only [interleaved, List.flatMap_cons, List.flatten_cons, List.flatMap_append] at this ⊢
    rw [this]

theorem columns_flatten (cs : List Coord) : ∀ js : List Nat,
    (js.flatMap fun j => cs.flatMap fun c => Dbl.bytes (c.getD j 0)) = (js.map fun j => cs.map fun c => c.getD j 0).flatten.flatMap Dbl.bytes
  | [] => rfl
  | j :: js => by
    have := columns_flatten cs js
    simp only [List.flatMap_cons, List.map_cons, List.flatten_cons, List.flatMap_append, List.flatMap_map] at this ⊢
    rw [this]

/-- A node set over a row-major array shows the coordinates of that array. (The flag that says that bytes are swapped is left as it was, and must be off.) -/
theorem C73_interleaved {m : Mem} {n : Node} {d : Dims} {cs : List Coord} {p : Ptr} {pre post : List Byte} {gt : Nat}
    (hm : m p.blk = pre ++ interleaved cs ++ post) (hp : p.off = pre.length) (hl : ∀ c ∈ cs, c.length = d.n) (hs : cs.length < 2 ^ 32)
    (hw : n.swap = false) :
    SeqDenotes m (nodeSetInterleaved n gt d.code d.n p (interleaved cs).length) d cs := by
  have hn := Dims.n_pos d
  refine ⟨by cases d <;> rfl, ?_, hs, hl, ?_⟩
  · show u32 _ = _
    rw [length_interleaved hl, Nat.mul_comm 8 d.n, Nat.mul_div_cancel_left _ (by omega), u32_of_lt hs]
  · intro i j c v hc hv
    have hj : j < d.n := by
      have := hl c (List.mem_of_getElem? hc)
      have := (List.getElem?_eq_some_iff.mp hv).1
      omega
    have hj4 : j < 4 := by have : d.n ≤ 4 := by cases d <;> decide
                           omega
    have hv' := flatten_get cs hl hc hv
    have hm' : m p.blk = pre ++ cs.flatten.flatMap Dbl.bytes ++ post := by
      rw [hm]
      congr 2
      exact interleaved_flatten cs
    unfold ordinate nodeSetInterleaved
    simp only [Quad.get_ofFn _ j hj4, Ptr.add, hw]
    rw [load_nth hm' hv' (by
      rw [hp]
      simp only [Int.natCast_add, Int.natCast_mul]
      rw [Int.mul_add, ← Int.mul_assoc 8, Int.mul_comm 8 (i : Int), Int.mul_assoc, Int.mul_comm 8 (d.n : Int)]
      omega)]
    simp

/-- A node set over a column-major array shows the coordinates of that array. -/
theorem C73_separated {m : Mem} {n : Node} {d : Dims} {cs : List Coord} {p : Ptr} {pre post : List Byte} {gt : Nat}
    (hm : m p.blk = pre ++ separated d cs ++ post) (hp : p.off = pre.length) (hl : ∀ c ∈ cs, c.length = d.n) (hs : cs.length < 2 ^ 32)
    (hw : n.swap = false) :
    SeqDenotes m (nodeSetSeparated n gt d.code d.n p (separated d cs).length) d cs := by
  have hn := Dims.n_pos d
  have hflat : separated d cs = ((List.range d.n).map fun j => cs.map fun c => c.getD j 0).flatten.flatMap Dbl.bytes :=
    columns_flatten cs _
  have hbytes : ∀ ds : List Dbl, (ds.flatMap Dbl.bytes).length = 8 * ds.length := by
    intro ds
    induction ds with
    | nil => rfl
    | cons d ds ih => simp [ih]; omega
  have hlen : (separated d cs).length = d.n * (8 * cs.length) := by
    rw [hflat, hbytes]
    have : ((List.range d.n).map fun j => cs.map fun c => c.getD j 0).flatten.length = d.n * cs.length := by
      rw [List.length_flatten, List.map_map]
      simp [Function.comp_def, List.map_const']
    rw [this, Nat.mul_left_comm]
  have hdiv : (separated d cs).length / d.n = 8 * cs.length := by
    rw [hlen, Nat.mul_div_cancel_left _ (by omega)]
  refine ⟨by cases d <;> rfl, ?_, hs, hl, ?_⟩
  · show u32 _ = _
    rw [hdiv, Nat.mul_div_cancel_left _ (by omega), u32_of_lt hs]
  · intro i j c v hc hv
    have hj : j < d.n := by
      have := hl c (List.mem_of_getElem? hc)
      have := (List.getElem?_eq_some_iff.mp hv).1
      omega
    have hj4 : j < 4 := by have : d.n ≤ 4 := by cases d <;> decide
                           omega
    have hv' : ((List.range d.n).map fun j => cs.map fun c => c.getD j 0).flatten[j * cs.length + i]? = some v := by
      refine flatten_get (k := cs.length) _ ?_ (l := cs.map fun c => c.getD j 0) ?_ ?_
      · intro l hl
        simp only [List.mem_map] at hl
        obtain ⟨_, _, rfl⟩ := hl
        simp
      · simp [hj]
      · rw [List.getElem?_map, hc]
        simp [List.getD, hv]
    rw [hflat] at hm
    unfold ordinate nodeSetSeparated
    simp only [Quad.get_ofFn _ j hj4, Ptr.add, hw]
    rw [hdiv, load_nth hm hv' (by
      rw [hp]
      simp only [Int.natCast_add, Int.natCast_mul]
      rw [Int.mul_add, ← Int.mul_assoc 8, Int.mul_comm 8 (j : Int), Int.mul_assoc]
      have : ((8 : Nat) : Int) = 8 := rfl
      rw [this]
      omega)]
    simp

/-- A block with three bytes in front and one behind -/
def exArrMem (bs : List Byte) : Mem := fun i => if i = 1 then [1, 2, 3] ++ bs ++ [4] else []

example : SeqDenotes (exArrMem (interleaved exCoords)) (nodeSetInterleaved blankNode 2 1 2 ⟨1, 3⟩ 48) .xy exCoords :=
  C73_interleaved (m := exArrMem (interleaved exCoords)) (p := ⟨1, 3⟩) (pre := [1, 2, 3]) (post := [4]) (d := .xy) rfl rfl (by decide) (by decide) rfl
example : SeqDenotes (exArrMem (separated .xy exCoords)) (nodeSetSeparated blankNode 2 1 2 ⟨1, 3⟩ 48) .xy exCoords :=
  C73_separated (m := exArrMem (separated .xy exCoords)) (p := ⟨1, 3⟩) (pre := [1, 2, 3]) (post := [4]) (d := .xy) rfl rfl (by decide) (by decide) rfl

end Verif
