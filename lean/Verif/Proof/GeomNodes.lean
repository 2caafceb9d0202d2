import Verif.Model.GeomNodes
import Verif.Spec.GeomNodes
import Verif.Spec.Nodes
/-!
# Lemmas about the array of nodes of an owning geometry
-/
namespace Verif
open Spec

/-- The block that `root` points to -/
def GeomN.blk (g : GeomN) : NodeBlock :=
  match g.root with
  | none => []
  | some a => (g.heap a).getD []

/-- The members agree with the buffer, and the block of the buffer is the only one there is. -/
structure NodesOk (g : GeomN) (l : List (Option Node)) : Prop where
  root : g.root = g.bufData
  bufCap : g.bufCap = 64 * (g.blk.length : Int)
  cap : g.cap = g.blk.length
  live : ∀ i, (g.heap i).isSome ↔ g.root = some i
  fresh : ∀ i, g.next ≤ i → g.heap i = none
  size : g.size = l.length
  room : l.length ≤ g.blk.length
  agrees : ∀ (i : Nat) (n : Node), l[i]? = some (some n) → g.blk[i]? = some (some n)

theorem nodesOk_init : NodesOk nodesInit [] := by
  constructor <;> simp [nodesInit, GeomN.blk]

theorem nodesToBytes_eq {n : Nat} (h : n < 2 ^ 57) : nodesToBytes n = 64 * (n : Int) := by
  unfold nodesToBytes
  rw [Int.bmod_eq_of_le_mul_two] <;> omega

attribute [local irreducible] nodesToBytes

theorem NodesOk.blk_some {g l a} (h : NodesOk g l) (ha : g.root = some a) : g.heap a = some g.blk := by
  have h1 := (h.live a).mpr ha
  have h2 : g.blk = (g.heap a).getD [] := by simp [GeomN.blk, ha]
  rw [h2]
  revert h1
  cases g.heap a <;> simp

theorem NodesOk.nodes {g l} (h : NodesOk g l) : g.nodes = some (g.blk.take l.length) := by
  unfold GeomN.nodes
  cases hr : g.root with
  | none =>
    have : g.blk = [] := by simp [GeomN.blk, hr]
    have h2 := h.room
    rw [this] at h2
    have h3 := h.size
    simp at h2
    simp [h3, h2]
  | some a =>
    simp only [h.blk_some hr]
    have := h.room
    rw [if_pos (by rw [h.size]; omega), h.size]
    simp

theorem NodesOk.nodes_agree {g l} (h : NodesOk g l) : Agrees l (g.blk.take l.length) := by
  refine ⟨by simp; have := h.room; omega, ?_⟩
  intro i n hi
  have : i < l.length := (List.getElem?_eq_some_iff.mp hi).1
  rw [List.getElem?_take_of_lt this]
  exact h.agrees i n hi

/-- The state after a successful `realloc` to `k` nodes -/
theorem nodesRealloc_ok {g l} (h : NodesOk g l) (k : Nat) :
    nodesRealloc true (64 * (k : Int)) g =
      .ok () { g with
        heap := fun i => if i = g.next then some (g.blk.take k ++ List.replicate (k - g.blk.length) none) else none,
        next := g.next + 1, bufData := some g.next, bufCap := 64 * (k : Int) } := by
  have hk : ((64 * (k : Int)) / 64).toNat = k := by omega
  have hm : g.moved k = some (g.blk.take k ++ List.replicate (k - g.blk.length) none) := by
    unfold GeomN.moved
    cases hr : g.root with
    | none =>
      rw [← h.root, hr]
      simp [GeomN.blk, hr]
    | some a =>
      rw [← h.root, hr]
      simp only [h.blk_some hr]
  unfold nodesRealloc
  rw [if_pos rfl, hk, hm]
  simp only [Res.ok.injEq, GeomN.mk.injEq, true_and, and_true]
  funext i
  by_cases hi : i = g.next
  · simp [hi]
  · simp only [if_neg hi, ← h.root]
    by_cases hr : g.root = some i
    · simp [hr]
    · simp only [if_neg hr]
      have := mt (h.live i).mp hr
      cases hh : g.heap i with
      | none => rfl
      | some b => rw [hh] at this; simp at this

/-- A state made by `realloc` to `k` nodes of a good one -/
def GeomN.grown (g : GeomN) (k : Nat) (size bufSize : Int) : GeomN :=
  { heap := fun i => if i = g.next then some (g.blk.take k ++ List.replicate (k - g.blk.length) none) else none,
    next := g.next + 1, root := some g.next, size := size, cap := k, bufData := some g.next, bufSize := bufSize, bufCap := 64 * (k : Int) }

theorem grown_blk (g : GeomN) (k : Nat) (s bs : Int) :
    (g.grown k s bs).blk = g.blk.take k ++ List.replicate (k - g.blk.length) none := by
  simp [GeomN.grown, GeomN.blk]

theorem grown_len (g : GeomN) (k : Nat) (s bs : Int) : (g.grown k s bs).blk.length = k := by
  rw [grown_blk]; simp; omega

theorem nodesOk_grown {g l l'} (h : NodesOk g l) (k : Nat) (bs : Int)
    (hl : l'.length ≤ k) (hk : g.blk.length ≤ k)
    (ha : ∀ (i : Nat) (n : Node), l'[i]? = some (some n) → l[i]? = some (some n)) :
    NodesOk (g.grown k l'.length bs) l' := by
  constructor
  · rfl
  · rw [grown_len]; rfl
  · rw [grown_len]; rfl
  · intro i; simp only [GeomN.grown]; by_cases hi : i = g.next <;> simp [hi]
    exact fun e => hi e.symm
  · intro i hi; simp only [GeomN.grown] at hi ⊢; rw [if_neg (by omega)]
  · rfl
  · rw [grown_len]; exact hl
  · intro i n hi
    have := h.agrees i n (ha i n hi)
    rw [grown_blk, List.take_of_length_le hk, List.getElem?_append_left (List.getElem?_eq_some_iff.mp this).1]
    exact this

theorem resize_agree (l : List (Option Node)) (n : Nat) (i : Nat) (x : Node)
    (hi : (l.take n ++ List.replicate (n - l.length) none)[i]? = some (some x)) : l[i]? = some (some x) := by
  by_cases h : i < (l.take n).length
  · rw [List.getElem?_append_left h] at hi
    rw [List.getElem?_take_of_lt (by simp at h; omega)] at hi
    exact hi
  · rw [List.getElem?_append_right (by omega), List.getElem?_replicate] at hi
    split at hi <;> simp at hi

theorem resize_length (l : List (Option Node)) (n : Nat) :
    (l.take n ++ List.replicate (n - l.length) none).length = n := by simp; omega

theorem NodesOk.resized {g l} (h : NodesOk g l) (n : Nat) (hn : n ≤ g.blk.length) (bs : Int) :
    NodesOk { g with size := n, bufSize := bs } (l.take n ++ List.replicate (n - l.length) none) := by
  refine ⟨h.root, h.bufCap, h.cap, h.live, h.fresh, ?_, ?_, ?_⟩
  · rw [resize_length]
  · rw [resize_length]; exact hn
  · intro i x hi
    exact h.agrees i x (resize_agree l n i x hi)

/-- `ArrowBufferResize` of the nodes, with memory, and what follows it -/
theorem bufResize_ok {g l} (h : NodesOk g l) (n : Nat) (bytes : Int) (hb : bytes = 64 * (n : Int)) :
    ∃ g', nodesBufResize true bytes g = .ok () g' ∧
      NodesOk (syncNodesToGeom g') (l.take n ++ List.replicate (n - l.length) none) := by
  subst hb
  have e1 : (64 * (n : Int)) / 64 = n := by omega
  by_cases hc : n ≤ g.blk.length
  · refine ⟨{ g with bufSize := 64 * (n : Int) }, ?_, ?_⟩
    · unfold nodesBufResize
      rw [if_neg (by omega), if_neg (by rw [h.bufCap]; omega)]
    · have := h.resized n hc (64 * (n : Int))
      have e2 : (64 * (g.blk.length : Int)) / 64 = g.cap := by rw [h.cap]; omega
      simp only [syncNodesToGeom]
      have e3 : ({ g with root := g.bufData, size := 64 * (n : Int) / 64, cap := g.bufCap / 64, bufSize := 64 * (n : Int) } : GeomN) =
          { g with size := n, bufSize := 64 * (n : Int) } := by
        rw [e1, h.bufCap, e2, ← h.bufCap, ← h.root]
      exact e3 ▸ this
  · refine ⟨{ g with
          heap := fun i => if i = g.next then some (g.blk.take n ++ List.replicate (n - g.blk.length) none) else none,
          next := g.next + 1, bufData := some g.next, bufCap := 64 * (n : Int), bufSize := 64 * (n : Int) }, ?_, ?_⟩
    · unfold nodesBufResize
      rw [if_neg (by omega), if_pos (by rw [h.bufCap]; omega)]
      simp only [M.bind, nodesRealloc_ok h, M.modify]
    · have := nodesOk_grown h (l' := l.take n ++ List.replicate (n - l.length) none) n (64 * (n : Int))
        (by rw [resize_length]; omega) (by omega) (resize_agree l n)
      rw [resize_length] at this
      simp only [syncNodesToGeom]
      rw [e1]
      exact this

theorem resizeBytes_ok {g l} (h : NodesOk g l) (n : Nat) (bytes : Int) (hb : bytes = 64 * (n : Int)) :
    ∃ g', M.bind (nodesBufResize true bytes) (fun _ => M.modify syncNodesToGeom) g = .ok () g' ∧
      NodesOk g' (l.take n ++ List.replicate (n - l.length) none) := by
  obtain ⟨g', h1, h2⟩ := bufResize_ok h n bytes hb
  refine ⟨_, ?_, h2⟩
  rw [M.bind, h1]
  rfl

theorem resizeNodes_eq (ok : Bool) (n : Int) :
    resizeNodes ok n = M.bind (nodesBufResize ok (nodesToBytes n)) (fun _ => M.modify syncNodesToGeom) := by
  unfold resizeNodes
  generalize nodesToBytes n = b
  rfl

/-- `GeoArrowGeometryResizeNodes` with memory -/
theorem resizeNodes_ok {g l} (h : NodesOk g l) (n : Nat) (hn : n < 2 ^ 57) :
    ∃ g', resizeNodes true n g = .ok () g' ∧ NodesOk g' (l.take n ++ List.replicate (n - l.length) none) := by
  rw [resizeNodes_eq]
  exact resizeBytes_ok h n _ (nodesToBytes_eq hn)

theorem resizeNodesInline_ok {g l} (h : NodesOk g l) (n : Nat) (hn : n < 2 ^ 57) :
    ∃ g', resizeNodesInline true n g = .ok () g' ∧ NodesOk g' (l.take n ++ List.replicate (n - l.length) none) := by
  unfold resizeNodesInline
  by_cases hc : (n : Int) < g.cap
  · rw [if_pos hc]
    exact ⟨_, rfl, by have := h.resized n (by rw [h.cap] at hc; omega) g.bufSize; exact this⟩
  · rw [if_neg hc]
    exact resizeNodes_ok h n hn

/-- Storing in a good state -/
theorem nodesStore_ok {g l} (h : NodesOk g l) (i : Nat) (n : Node) (hi : i < g.blk.length) :
    ∃ a, g.root = some a ∧
      nodesStore i n g = .ok () { g with heap := fun j => if j = a then some (g.blk.set i (some n)) else g.heap j } := by
  cases hr : g.root with
  | none => simp [GeomN.blk, hr] at hi
  | some a =>
    refine ⟨a, rfl, ?_⟩
    unfold nodesStore
    simp only [hr, h.blk_some hr]
    rw [if_pos (by omega)]
    simp

theorem stored_blk {g : GeomN} {a : Nat} (hr : g.root = some a) (b : NodeBlock) (s : Int) :
    ({ g with heap := fun j => if j = a then some b else g.heap j, size := s } : GeomN).blk = b := by
  simp [GeomN.blk, hr]

theorem NodesOk.stored {g l l'} (h : NodesOk g l) {a : Nat} (hr : g.root = some a) (b : NodeBlock) (s : Int)
    (hb : b.length = g.blk.length) (hs : s = l'.length) (hl : l'.length ≤ b.length)
    (ha : ∀ (i : Nat) (n : Node), l'[i]? = some (some n) → b[i]? = some (some n)) :
    NodesOk { g with heap := fun j => if j = a then some b else g.heap j, size := s } l' := by
  constructor
  · exact h.root
  · rw [stored_blk hr, hb]; exact h.bufCap
  · rw [stored_blk hr, hb]; exact h.cap
  · intro i
    show (if i = a then some b else g.heap i).isSome = true ↔ _
    by_cases hi : i = a
    · simp [hi, hr]
    · rw [if_neg hi]; exact h.live i
  · intro i hi
    show (if i = a then some b else g.heap i) = none
    by_cases hia : i = a
    · have h1 := h.fresh i hi
      have h2 := (h.live i).mpr (by rw [hr, hia])
      rw [h1] at h2
      simp at h2
    · rw [if_neg hia]; exact h.fresh i hi
  · exact hs
  · rw [stored_blk hr]; exact hl
  · rw [stored_blk hr]; exact ha

theorem set_ok {g l} (h : NodesOk g l) (i : Nat) (n : Node) (hi : i < l.length) :
    ∃ g', nodesStore i n g = .ok () g' ∧ NodesOk g' (l.set i (some n)) := by
  obtain ⟨a, hr, hst⟩ := nodesStore_ok h i n (by have := h.room; omega)
  refine ⟨_, hst, ?_⟩
  refine h.stored hr _ g.size (by simp) (by simp [h.size]) (by simp; exact h.room) ?_
  intro j x hj
  rw [List.getElem?_set] at hj ⊢
  have hr2 := h.room
  by_cases hij : i = j
  · subst hij
    rw [if_pos rfl, if_pos hi] at hj
    rw [if_pos rfl, if_pos (by omega)]
    exact hj
  · rw [if_neg hij] at hj ⊢
    exact h.agrees j x hj

theorem appendRoom_ok {g l} (h : NodesOk g l) (hc : l.length < g.blk.length) :
    ∃ g', appendRoom g = .ok l.length g' ∧ NodesOk g' (l ++ [some blankNode]) ∧ g'.root = g.root ∧ g'.cap = g.cap := by
  obtain ⟨a, hr, hst⟩ := nodesStore_ok h l.length blankNode hc
  unfold appendRoom
  rw [h.size, hst]
  refine ⟨_, rfl, ?_, rfl, rfl⟩
  refine h.stored hr _ _ (by simp) (by simp) (by simp; omega) ?_
  intro i x hi
  rw [List.getElem?_set]
  by_cases hil : i < l.length
  · rw [List.getElem?_append_left hil] at hi
    rw [if_neg (by omega)]
    exact h.agrees i x hi
  · rw [List.getElem?_append_right (by omega)] at hi
    have : i = l.length := by
      have := (List.getElem?_eq_some_iff.mp hi).1
      simp at this; omega
    subst this
    simp at hi
    rw [if_pos rfl, if_pos hc, hi]

theorem reserve_ok {g l} (h : NodesOk g l) (g0 : GeomN) (hg : g0 = { g with bufSize := 64 * (l.length : Int) }) :
    ∃ g', nodesReserve true 64 g0 = .ok () g' ∧ NodesOk (syncNodesToGeom g') l ∧ l.length < (syncNodesToGeom g').blk.length := by
  subst hg
  have hroom := h.room
  have e1 : (64 * (l.length : Int)) / 64 = l.length := by omega
  by_cases hc : l.length < g.blk.length
  · refine ⟨{ g with bufSize := 64 * (l.length : Int) }, ?_, ?_⟩
    · unfold nodesReserve
      rw [if_pos (by simp only [h.bufCap]; omega)]
    · have e2 : (64 * (g.blk.length : Int)) / 64 = g.cap := by rw [h.cap]; omega
      have e3 : syncNodesToGeom { g with bufSize := 64 * (l.length : Int) } = { g with bufSize := 64 * (l.length : Int) } := by
        simp only [syncNodesToGeom]
        rw [e1, h.bufCap, e2, ← h.root, ← h.bufCap, ← h.size]
      rw [e3]
      exact ⟨⟨h.root, h.bufCap, h.cap, h.live, h.fresh, h.size, h.room, h.agrees⟩, hc⟩
  · have hk : ∃ k : Nat, (if g.bufCap * 2 > 64 * (l.length : Int) + 64 then g.bufCap * 2 else 64 * (l.length : Int) + 64) = 64 * (k : Int) ∧
        l.length < k ∧ g.blk.length ≤ k := by
      rw [h.bufCap]
      split
      · exact ⟨g.blk.length * 2, by omega, by omega, by omega⟩
      · exact ⟨l.length + 1, by omega, by omega, by omega⟩
    obtain ⟨k, hk1, hk2, hk3⟩ := hk
    have h0 : NodesOk { g with bufSize := 64 * (l.length : Int) } l :=
      ⟨h.root, h.bufCap, h.cap, h.live, h.fresh, h.size, h.room, h.agrees⟩
    refine ⟨{ g with
          heap := fun i => if i = g.next then some (g.blk.take k ++ List.replicate (k - g.blk.length) none) else none,
          next := g.next + 1, bufData := some g.next, bufCap := 64 * (k : Int), bufSize := 64 * (l.length : Int) }, ?_, ?_⟩
    · unfold nodesReserve
      rw [if_neg (by simp only [h.bufCap]; omega)]
      simp only []
      rw [hk1, nodesRealloc_ok h0]
      rfl
    · have := nodesOk_grown h (l' := l) k (64 * (l.length : Int)) (by omega) hk3 (fun _ _ hi => hi)
      have e4 : (64 * (k : Int)) / 64 = k := by omega
      simp only [syncNodesToGeom]
      rw [e1, e4]
      refine ⟨this, ?_⟩
      have := grown_len g k l.length (64 * (l.length : Int))
      show l.length < (g.grown k l.length (64 * (l.length : Int))).blk.length
      rw [this]; exact hk2

theorem appendNode_eq (ok : Bool) (g : GeomN) :
    appendNode ok g = M.bind (nodesReserve ok 64)
      (fun _ g => if (syncNodesToGeom g).size < (syncNodesToGeom g).cap then appendRoom (syncNodesToGeom g) else .ub) (syncGeomToNodes g) := by
  unfold appendNode
  generalize syncGeomToNodes = f
  rfl

theorem appendNode_ok {g l} (h : NodesOk g l) (hl : l.length < 2 ^ 57) :
    ∃ g', appendNode true g = .ok l.length g' ∧ NodesOk g' (l ++ [some blankNode]) := by
  obtain ⟨g1, h1, h2, h3⟩ := reserve_ok h (syncGeomToNodes g) (by
    unfold syncGeomToNodes; rw [h.size, nodesToBytes_eq hl])
  obtain ⟨g2, h4, h5, _⟩ := appendRoom_ok h2 h3
  refine ⟨g2, ?_, h5⟩
  rw [appendNode_eq]
  simp only [M.bind, h1]
  rw [if_pos (by rw [h2.size, h2.cap]; omega)]
  exact h4

theorem appendNodeInline_ok {g l} (h : NodesOk g l) (hl : l.length < 2 ^ 57) :
    ∃ g', appendNodeInline true g = .ok l.length g' ∧ NodesOk g' (l ++ [some blankNode]) := by
  unfold appendNodeInline
  by_cases hc : g.size < g.cap
  · rw [if_pos hc]
    obtain ⟨g', h1, h2, _⟩ := appendRoom_ok h (by rw [h.size, h.cap] at hc; omega)
    exact ⟨g', h1, h2⟩
  · rw [if_neg hc]
    exact appendNode_ok h hl

theorem shallowCopy_eq (ok : Bool) (src : View) :
    shallowCopy ok src = M.bind (resizeNodes ok src.nodes.length) (fun _ => nodesFill src.nodes) := by
  unfold shallowCopy
  generalize resizeNodes ok src.nodes.length = f
  rfl

theorem nodesFill_ok {g1 : GeomN} {l} (h2 : NodesOk g1 l) (src : List Node) (hl : l.length = src.length) :
    ∃ g', nodesFill src g1 = .ok () g' ∧ NodesOk g' (src.map some) := by
  have hs := h2.size
  have hroom := h2.room
  rw [hl] at hs hroom
  cases hn : src with
  | nil =>
    rw [hn] at hl
    refine ⟨g1, rfl, ?_⟩
    rw [List.length_eq_zero_iff.mp hl] at h2
    exact h2
  | cons n ns =>
    rw [← hn]
    cases hr : g1.root with
    | none => simp [GeomN.blk, hr, hn] at hroom
    | some a =>
      refine ⟨{ g1 with heap := fun j => if j = a then some (src.map some ++ g1.blk.drop src.length) else g1.heap j }, ?_, ?_⟩
      · unfold nodesFill
        rw [hn]
        simp only [hr, h2.blk_some hr]
        rw [← hn, if_pos hroom]
      · refine h2.stored hr _ g1.size (by simp; omega) (by simp [hs]) (by simp) ?_
        intro i x hi
        rw [List.getElem?_append_left (List.getElem?_eq_some_iff.mp hi).1]
        exact hi

theorem bind_ok {σ α β} {m : M σ α} {f : α → M σ β} {s s' : σ} {a : α} (h : m s = .ok a s') : M.bind m f s = f a s' := by
  unfold M.bind
  rw [h]

theorem shallowCopy_ok {g l} (h : NodesOk g l) (src : View) (hl : src.nodes.length < 2 ^ 57) :
    ∃ g', shallowCopy true src g = .ok () g' ∧ NodesOk g' (src.nodes.map some) := by
  obtain ⟨g1, h1, h2⟩ := resizeNodes_ok h src.nodes.length hl
  obtain ⟨g2, h3, h4⟩ := nodesFill_ok h2 src.nodes (resize_length _ _)
  exact ⟨g2, by rw [shallowCopy_eq, bind_ok h1]; exact h3, h4⟩

end Verif
