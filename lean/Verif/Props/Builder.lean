import Verif.Proof.BuilderRead
import Verif.Props.Coords
/-!
# Properties of the builder: C32, C33, C56
-/
namespace Verif
open Spec

/-! ## C56: numbering of buffers -/

/-- C56: for every tree of arrays with validity buffers, index `i` finds the `i`-th buffer in depth-first order, together with
the depth of its array; from the number of buffers on nothing is found, and that number is returned. -/
theorem C56_find {α : Type} (nb : α → Nat) (t : ATree α) (h : HasValidity nb t) (i : Nat) :
    (∀ p j, (flatBuffers nb 0 [] t)[i]? = some (p, j) → (findBuffer nb t i 0 0 []).1 = some ⟨p, p.length, j⟩) ∧
    ((flatBuffers nb 0 [] t).length ≤ i →
      (findBuffer nb t i 0 0 []).1 = none ∧ (findBuffer nb t i 0 0 []).2 = (flatBuffers nb 0 [] t).length) := by
  obtain ⟨h1, h2⟩ := find_node nb t i 0 [] (by omega) h
  refine ⟨?_, ?_⟩
  · intro p j hp
    exact h1.trans (by rw [hp]; rfl)
  · intro hi
    rw [if_neg (by omega)] at h2
    exact ⟨h1.trans (by rw [List.getElem?_eq_none hi]; rfl), h2⟩

example : HasValidity (fun n => n) (.node 2 [.node 1 [.node 2 [], .node 2 []]]) ∧
    flatBuffers (fun n => n) 0 [] (.node 2 [.node 1 [.node 2 [], .node 2 []]]) = [([], 0), ([], 1), ([0, 0], 1), ([0, 1], 1)] := by
  refine ⟨?_, by decide +kernel⟩
  simp [HasValidity, HasValidityL]

/-- Builders can be made for exactly the native types (boxes included) and the serialized types that are not views. -/
theorem C56_types (t : TypeId) : (∃ b, builderInitFromType t = .ok b) ↔
    t ∈ nativeTypes ++ serializedTypes ∧ t ≠ 100005 ∧ t ≠ 100006 := by
  constructor
  · rintro ⟨b, h⟩
    have := List.mem_filter.mp (builder_type h)
    exact ⟨this.1, of_decide_eq_true this.2⟩
  · rintro ⟨h1, h2⟩
    exact builder_exists (List.mem_filter.mpr ⟨h1, decide_eq_true h2⟩)

/-- C56 for builders, however used: there are as many flat indexes as buffers in the tree of arrays of the type, index `i`
stands for the `i`-th of them in depth-first order, and no two indexes for the same. -/
theorem C56_builder (t : TypeId) (b : Builder) (h : BuilderOf t b) :
    b.nBuffers = (flatBuffers BKind.nBuffers 0 [] b.tree).length ∧ (flatBuffers BKind.nBuffers 0 [] b.tree).Nodup ∧
    (∀ (i : Nat) (p : List Nat) (j : Nat), (flatBuffers BKind.nBuffers 0 [] b.tree)[i]? = some (p, j) → b.slot i = some ⟨p, p.length, j⟩) ∧
    ∃ s, schemaInit t = .ok s ∧ treeOf s = some b.tree := by
  obtain ⟨b0, h0, hs⟩ := builderOf_same h
  obtain ⟨h1, h2⟩ := builder_numbers h0
  rw [hs.tree, hs.nBuffers]
  refine ⟨h2, h1, ?_, ?_⟩
  · intro i p j hp
    rw [slot_eq, hs.tree, hp]
    rfl
  · have ht := (init_inv h0).1
    unfold typeTree at ht
    cases hsc : schemaInit t with
    | error rc => rw [hsc] at ht; cases ht
    | ok s => rw [hsc] at ht; exact ⟨s, rfl, ht⟩

/-- C56: a buffer handed over is rejected, with nothing changed, if there is no buffer of that number; else it becomes the
content of that buffer and no other. -/
theorem C56_owned (b : Builder) (i : Int) (v : List Byte) :
    ((i < 0 ∨ (b.nBuffers : Int) ≤ i) → bSetOwnedBuffer i v b = .err EINVAL b) ∧
    (∀ n : Nat, i = n → n < b.nBuffers → ∃ b', bSetOwnedBuffer i v b = .ok () b' ∧ BufferIs b' n v ∧
      (∀ m, m ≠ n → b'.bufs m = b.bufs m) ∧ b'.sizeCoords = b.sizeCoords ∧ b'.tree = b.tree ∧ b'.nBuffers = b.nBuffers) := by
  constructor
  · intro h
    unfold bSetOwnedBuffer
    rw [M.bind_run, M.get_run]
    dsimp only
    rw [if_pos h]
    rfl
  · rintro n rfl hn
    unfold bSetOwnedBuffer
    rw [M.bind_run, M.get_run]
    dsimp only
    rw [if_neg (by omega), Int.toNat_natCast]
    refine ⟨_, rfl, ?_, ?_, rfl, rfl, rfl⟩
    · unfold BufferIs
      dsimp only
      rw [setAt_get]
      exact ⟨rfl, Nat.le_refl _, List.take_length⟩
    · intro m hm
      exact setAt_ne _ _ hm

/-- C56: in the finished array, what was in buffer `i` is the buffer at the `i`-th place. For builders used in any way, as long
as the functions for coordinates were not. (A validity bitmap that was never allocated is `NULL`.) -/
theorem C56_finish (t : TypeId) (b : Builder) (h : BuilderOf t b) (hc : b.sizeCoords = 0) (a : AArray) (b' : Builder)
    (hf : bFinish b = .ok a b') (i : Nat) (p : List Nat) (j : Nat) (hp : (flatBuffers BKind.nBuffers 0 [] b.tree)[i]? = some (p, j)) :
    ∃ x, nodeAt a p = some x ∧
      x.buffers[j]? = some (if j = 0 ∧ (b.bufs i).mem = [] then none else some ((b.bufs i).mem.take (b.bufs i).size)) := by
  obtain ⟨b0, h0, hs⟩ := builderOf_same h
  obtain ⟨hnd, hlen⟩ := builder_numbers h0
  obtain ⟨-, -, n, ha⟩ := finish_inv hf
  have hsync : ∀ i, b.syncCoords.bufs i = b.bufs i := by
    intro i
    unfold Builder.syncCoords
    dsimp only
    rw [hc]
    split
    · simp only [Nat.zero_mul, Nat.max_zero]
      exact congrFun (setAt_self b.bufs _) i
    · split
      · simp only [Nat.zero_mul, Nat.max_zero]
        split <;> rfl
      · rfl
  have hst := syncCoords_same b
  have hi : i < b.nBuffers := by
    rw [hs.nBuffers, hlen, ← hs.tree]
    exact (List.getElem?_eq_some_iff.mp hp).1
  obtain ⟨x, h1, h2⟩ := array_buffer (b := b.syncCoords) (by rw [hst.tree, hs.tree]; exact hnd) (by rw [hst.nBuffers]; exact hi)
    (by rw [hst.tree]; exact hp) (setContainerLength b.syncCoords.schema (b.syncCoords.lengths b.syncCoords.nBuffers 0 fun _ => 0))
  obtain ⟨f, hf1, hf2⟩ := nodeAt_withNullCount b.syncCoords.array n p
  refine ⟨f x, ?_, ?_⟩
  · rw [ha, hf2]
    show (nodeAt (b.syncCoords.arrayAt _ b.syncCoords.tree []) p).map f = _
    rw [h1]
    rfl
  · rw [(hf1 x).1, h2, hsync]

/-- What is missing from C56: the functions that reserve and append take the number of a buffer without checking it, and a
negative index "finds" a buffer of the root. -/
theorem C56_range_unchecked (junk : Nat → Byte) (t : TypeId) (b : Builder) (h : BuilderOf t b) (i : Nat) (hi : b.nBuffers ≤ i) :
    (∀ n, bReserveBuffer junk i n b = .ub) ∧ (∀ bs, bAppendBuffer junk i bs b = .ub) ∧ b.slot i = none ∧
    (findBuffer BKind.nBuffers b.tree (-1) 0 0 []).1 = some ⟨[], 0, -1⟩ := by
  have hb : bBuf i b = .ub := if_neg (by omega)
  refine ⟨fun n => ?_, fun bs => ?_, ?_, ?_⟩
  · unfold bReserveBuffer
    exact M.bind_ub hb
  · unfold bAppendBuffer bBufferCheck
    exact M.bind_ub (M.bind_ub hb)
  · have := (C56_builder t b h).1
    rw [slot_eq, List.getElem?_eq_none (by omega)]
    rfl
  · cases b.tree with
    | node a cs =>
      unfold findBuffer
      dsimp only
      rw [if_pos (by omega)]
      rfl

/-! ## C32: histories of appends -/

/-- C32 for buffers used as bytes and offsets, for builders of every type: every history succeeds, and buffer `i` then holds
the concatenation of what was appended to it, within its capacity. Missing from the full property: buffers of coordinates
addressed both ways (`C32_mixed_use_overflows`), offset buffers that do not hold whole offsets (`C32_misaligned_overflows`). -/
theorem C32_buffers_partial (t : TypeId) (b0 : Builder) (h0 : StartOf t b0) (junk : Nat → Byte) (role : Nat → BRole)
    (hr : ∀ i, role i ≠ .coords) (ops : List BOp) (hl : ∀ op ∈ ops, op.Legal b0.nBuffers role) (d : Dims) :
    ∃ rs b, runBOps junk ops b0 = .ok rs b ∧ rs.length = ops.length ∧
      ∀ i, i < b0.nBuffers → BufferIs b i ((applyBOps d ops rs .empty).bytes i) := by
  obtain ⟨hbl, -⟩ := startOf_builderOf h0
  obtain ⟨rs, b, h1, h2, h3⟩ := ops_steps (cc := none) (d := d) (role := role) junk
    ⟨fun _ i _ => hr i, fun g k h => by cases h⟩ ops b0 .empty (carries_blank hbl) hl
  refine ⟨rs, b, h1, h2, fun i hi => ?_⟩
  obtain ⟨⟨g1, g2, g3, -⟩, -⟩ := h3.raw i hi (hr i)
  exact ⟨g1, g2, g3⟩

theorem coordsAre_of_ok {g : Int} {d : Dims} {k : CoordKind} {b : Builder} {cs : List Coord} (hb : NativeB g d k b) (h : CoordsOk g d k b cs) :
    CoordsAre (listDepth g) d k b cs := by
  refine ⟨h.size, h.le, ?_, h.holds⟩
  intro j hj
  by_cases h0 : b.capCoords = 0
  · exact .inl h0
  · right
    have hr := coordCell_range (listDepth g) d k (t := 0) hj
    rw [← hb.nBuffers] at hr
    rw [h.len _ hr.1 hr.2]
    have hlt := coordCell_lt (listDepth g) d k hj (show b.capCoords - 1 < b.capCoords by omega)
    have h1 : b.capCoords * strideOf d k ≤ (b.bufs (b.nBuffers - 1)).mem.length / 8 := by
      rw [h.cap]; exact Nat.div_mul_le_self _ _
    have h2 : (coordCell (listDepth g) d k (b.capCoords - 1) j).2 < b.capCoords * strideOf d k := hlt
    omega

/-- C32 for builders of native types whose last buffers are used for coordinates: every history succeeds; the coordinates are
those appended, in order, within the capacity of every buffer; the other buffers hold what was appended to them. -/
theorem C32_coords_partial (g : Int) (hg : 1 ≤ g ∧ g ≤ 6) (d : Dims) (k : CoordKind) (b0 : Builder) (h0 : StartOf (nativeId g d k) b0)
    (junk : Nat → Byte) (role : Nat → BRole) (hr : ∀ i, role i = .coords ↔ listDepth g < i) (ops : List BOp)
    (hl : ∀ op ∈ ops, op.Legal b0.nBuffers role) :
    ∃ rs b, runBOps junk ops b0 = .ok rs b ∧ rs.length = ops.length ∧
      (∀ i, i ≤ listDepth g → BufferIs b i ((applyBOps d ops rs .empty).bytes i)) ∧
      CoordsAre (listDepth g) d k b (applyBOps d ops rs .empty).coords := by
  obtain ⟨hbl, b1, h1, hs⟩ := startOf_builderOf h0
  have hb := (init_native hg h1).of_same hs
  have hlt := numBuffers_pos (listDepth g) d k
  rw [← hb.nBuffers] at hlt
  have hu : Uses (some (g, k)) d role b0 := by
    refine ⟨(nomatch ·), ?_⟩
    intro g' k' h
    cases h
    exact ⟨hb, fun i hi hc => absurd ((hr i).mp hc) (by omega), fun i hi _ => (hr i).mpr hi⟩
  obtain ⟨rs, b, h2, h3, h4⟩ := ops_steps junk hu ops b0 .empty (carries_blank hbl) hl
  refine ⟨rs, b, h2, h3, fun i hi => ?_, coordsAre_of_ok (hb.of_same h4.same) (h4.coords g k rfl)⟩
  obtain ⟨⟨g1, g2, g3, -⟩, -⟩ := h4.raw i (by omega) (fun hc => absurd ((hr i).mp hc) (by omega))
  exact ⟨g1, g2, g3⟩

/-- A history for linestrings: offsets, raw bytes of one more offset, coordinates twice with and without reserving. -/
def exBuild : List BOp :=
  [.appendOffsets 0 [0, 2], .appendCoords exSrcMem exSrcView .xym 0 [[dbl1, dbl2, dbl3], [dbl3, dbl4, dbl1]], .reserveCoords 7,
   .appendBuffer 1 [3, 0, 0, 0], .checkedCoords exSrcMem exSrcView .xym 1 [[dbl3, dbl4, dbl1]], .checkedBuffer 0 [7]]

def exRoles : Nat → BRole := fun i => if i = 0 then .raw else if i = 1 then .offsets else .coords

theorem exRoles_coords (i : Nat) : exRoles i = .coords ↔ listDepth 2 < i := by
  unfold exRoles
  show _ ↔ 1 < i
  split
  · simp; omega
  · split
    · simp; omega
    · simp; omega

theorem exBuild_legal (n : Nat) (hn : 3 ≤ n) : ∀ op ∈ exBuild, op.Legal n exRoles := by
  have h1 : Holds exSrcMem exSrcView 1 .xym [[dbl3, dbl4, dbl1]] := by
    intro t c hc
    obtain ⟨g1, g2⟩ := exHolds (1 + t) c (by rw [Nat.add_comm]; exact hc)
    exact ⟨g1, fun j x hx => by have := g2 j x hx; rwa [Nat.zero_add] at this⟩
  have hc : ∃ i, i < n ∧ exRoles i = .coords := ⟨2, by omega, rfl⟩
  intro op hop
  simp only [exBuild, List.mem_cons, List.not_mem_nil, or_false] at hop
  rcases hop with rfl | rfl | rfl | rfl | rfl | rfl
  · exact ⟨by omega, rfl⟩
  · exact ⟨hc, exHolds⟩
  · exact hc
  · exact ⟨by omega, by decide, fun _ => rfl⟩
  · exact ⟨hc, h1⟩
  · exact ⟨by omega, by decide, fun h => by cases h⟩

example : ∃ b0, StartOf (nativeId 2 .xyzm .separate) b0 ∧ ∃ rs b, runBOps (fun _ => 9) exBuild b0 = .ok rs b ∧
    CoordsAre 1 .xyzm .separate b (applyBOps .xyzm exBuild rs .empty).coords := by
  obtain ⟨b0, h0⟩ := builder_exists (t := nativeId 2 .xyzm .separate) (by decide +kernel)
  have hn : b0.nBuffers = 6 := (init_native (by omega) h0).nBuffers
  obtain ⟨rs, b, h1, -, -, h2⟩ := C32_coords_partial 2 (by omega) .xyzm .separate b0 (.init h0) (fun _ => 9) exRoles exRoles_coords exBuild
    (exBuild_legal _ (by omega))
  exact ⟨b0, .init h0, rs, b, h1, h2⟩

/-- C32: once space was reserved, the check for it succeeds. -/
theorem C32_reserved (t : TypeId) (b : Builder) (h : BuilderOf t b) (junk : Nat → Byte) (n : Nat) :
    (∀ i b', bReserveBuffer junk i n b = .ok () b' → bBufferCheck i n b' = .ok true b') ∧
    (∀ i b', (b.bufs (i + 1)).size % 4 = 0 → bOffsetReserve junk i n b = .ok () b' → bOffsetCheck i n b' = .ok true b') ∧
    (∀ g d k, 1 ≤ g ∧ g ≤ 6 → t = nativeId g d k → (∀ i, (b.bufs i).owned = false) →
      ∃ b', bCoordsReserve junk n b = .ok () b' ∧ bCoordsCheck n b' = .ok true b') := by
  have hres : ∀ i m b', bReserveBuffer junk i m b = .ok () b' → i < b.nBuffers ∧ b'.nBuffers = b.nBuffers ∧
      (b'.bufs i).size = (b.bufs i).size ∧ (b.bufs i).size + m ≤ (b'.bufs i).mem.length := by
    intro i m b' hb
    by_cases hi : i < b.nBuffers
    · by_cases hf : (b.bufs i).size + m ≤ (b.bufs i).mem.length
      · unfold bReserveBuffer at hb
        rw [M.bind_ok (bBuf_run hi), if_pos hf] at hb
        cases hb
        exact ⟨hi, rfl, rfl, hf⟩
      · cases ho : (b.bufs i).owned with
        | true =>
          unfold bReserveBuffer at hb
          rw [M.bind_ok (bBuf_run hi), if_neg hf, ho] at hb
          cases hb
        | false =>
          rw [reserveBuffer_run junk m hi ho] at hb
          cases hb
          refine ⟨hi, rfl, ?_, ?_⟩
          · dsimp only
            rw [setAt_get, grown_size]
          · dsimp only
            rw [setAt_get]
            exact grown_fits _ _ _
    · unfold bReserveBuffer at hb
      rw [M.bind_ub (if_neg hi : bBuf i b = .ub)] at hb
      cases hb
  refine ⟨?_, ?_, ?_⟩
  · intro i b' hb
    obtain ⟨h1, h2, h3, h4⟩ := hres i n b' hb
    rw [check_run n (by omega), h3, decide_eq_true h4]
  · intro i b' ha hb
    have hi : i + 1 < b.nBuffers := by
      by_cases hi : i + 1 < b.nBuffers
      · exact hi
      · unfold bOffsetReserve bOffsetCheck at hb
        rw [M.bind_ub (M.bind_ub (if_neg hi : bBuf (i + 1) b = .ub))] at hb
        cases hb
    unfold bOffsetReserve at hb
    rw [M.bind_ok (offsetCheck_run n hi)] at hb
    by_cases hf : (b.bufs (i + 1)).size / 4 + n ≤ (b.bufs (i + 1)).mem.length / 4
    · rw [decide_eq_true hf, if_pos rfl] at hb
      cases hb
      rw [offsetCheck_run n hi, decide_eq_true hf]
    · rw [decide_eq_false hf, if_neg (by decide)] at hb
      obtain ⟨h1, h2, h3, h4⟩ := hres (i + 1) (n * 4) b' hb
      rw [offsetCheck_run n (by omega), h3, decide_eq_true (by omega)]
  · rintro g d k hg rfl ho
    obtain ⟨b0, h0, hs⟩ := builderOf_same h
    have hb := (init_native hg h0).of_same hs
    refine ⟨_, coordsReserve_run junk hb n fun i _ _ => ho i, ?_⟩
    split
    · rename_i hc
      rw [coordsCheck_run, decide_eq_true hc]
    · have := reserved_room junk hb n
      rw [coordsCheck_run]
      show Res.ok (decide (b.sizeCoords + n ≤ (reserved junk g d k n b).capCoords)) _ = _
      rw [decide_eq_true this]

def isUb {σ α : Type} : Res σ α → Bool
  | .ub => true
  | _ => false

theorem eq_ub {σ α : Type} {r : Res σ α} (h : isUb r = true) : r = .ub := by
  cases r <;> first | rfl | cases h

def runsUb (t : TypeId) (ops : List BOp) : Bool :=
  match builderInitFromType t with
  | .ok b => isUb (runBOps (fun _ => 0) ops b)
  | .error _ => false

theorem runsUb_spec {t : TypeId} {ops : List BOp} (h : runsUb t ops = true) :
    ∃ b0 junk, StartOf t b0 ∧ runBOps junk ops b0 = .ub := by
  unfold runsUb at h
  split at h
  · rename_i b hb
    exact ⟨b, fun _ => 0, .init hb, eq_ub h⟩
  · cases h

/-- What is missing from C32: the capacity for coordinates is taken from the last buffer alone. If that one was made larger through
the function for bytes, appending two coordinates writes beyond the end of the buffer before it. -/
theorem C32_mixed_use_overflows : ∃ b0 junk, StartOf (nativeId 1 .xy .separate) b0 ∧
    runBOps junk [.reserveBuffer 2 64, .appendCoords exSrcMem exSrcView .xy 0 [[dbl1, dbl2]],
      .appendCoords exSrcMem exSrcView .xy 0 [[dbl1, dbl2]]] b0 = .ub :=
  runsUb_spec (by decide +kernel)

/-- What is missing from C32: the check for offsets counts whole offsets only. If an odd number of bytes was appended, an append of
an offset after a successful check writes beyond the end of the buffer. -/
theorem C32_misaligned_overflows : ∃ b0 junk, StartOf (nativeId 2 .xy .separate) b0 ∧
    runBOps junk [.reserveBuffer 1 4, .appendBuffer 1 [0], .checkedOffsets 0 [7]] b0 = .ub :=
  runsUb_spec (by decide +kernel)

/-- C32 and C56 together: after a history of bytes and offsets, the buffers of the finished array are what was appended, each at its
place. -/
theorem C32_finished_partial (t : TypeId) (b0 : Builder) (h0 : StartOf t b0) (junk : Nat → Byte) (role : Nat → BRole)
    (hr : ∀ i, role i ≠ .coords) (ops : List BOp) (hl : ∀ op ∈ ops, op.Legal b0.nBuffers role) (rs : List Bool) (b : Builder)
    (hrun : runBOps junk ops b0 = .ok rs b) (d : Dims) (a : AArray) (b' : Builder) (hf : bFinish b = .ok a b') (i : Nat) (p : List Nat) (j : Nat)
    (hp : (flatBuffers BKind.nBuffers 0 [] b0.tree)[i]? = some (p, j)) :
    ∃ x, nodeAt a p = some x ∧ (x.buffers[j]? = some (some ((applyBOps d ops rs .empty).bytes i)) ∨
      (j = 0 ∧ (applyBOps d ops rs .empty).bytes i = [] ∧ x.buffers[j]? = some none)) := by
  obtain ⟨hbl, b1, h1, hs⟩ := startOf_builderOf h0
  obtain ⟨rs', b'', h2, -, h3⟩ := ops_steps (cc := none) (d := d) (role := role) junk
    ⟨fun _ i _ => hr i, fun g k h => by cases h⟩ ops b0 .empty (carries_blank hbl) hl
  rw [hrun] at h2
  cases h2
  have hi : i < b0.nBuffers := by
    rw [hs.nBuffers, (builder_numbers h1).2, ← hs.tree]
    exact (List.getElem?_eq_some_iff.mp hp).1
  obtain ⟨⟨g1, g2, g3, -⟩, -⟩ := h3.raw i hi (hr i)
  obtain ⟨x, hx, hbuf⟩ := C56_finish t b (builderOf_ops ops b0 _ b (builderOf_start h0) hrun) (h3.unused rfl) a b' hf i p j
    (by rw [h3.same.tree]; exact hp)
  refine ⟨x, hx, ?_⟩
  rw [hbuf, g3]
  split
  · rename_i hc
    rw [hc.2] at g3
    exact .inr ⟨hc.1, by rw [← g3]; simp, rfl⟩
  · exact .inl rfl

/-! ## C33: coordinates -/

/-- How the buffers of a native type are used: raw bytes for validity, offsets, coordinates. -/
def nativeRoles (g : Int) : Nat → BRole := fun i => if i = 0 then .raw else if i ≤ listDepth g then .offsets else .coords

theorem nativeRoles_coords (g : Int) (i : Nat) : nativeRoles g i = .coords ↔ listDepth g < i := by
  unfold nativeRoles
  split
  · simp; omega
  · split
    · simp; omega
    · simp; omega

/-- The state after a history. -/
theorem built_of_history {g : Int} (hg : 1 ≤ g ∧ g ≤ 6) {d : Dims} {k : CoordKind} {b0 : Builder} (h0 : StartOf (nativeId g d k) b0)
    {junk : Nat → Byte} {ops : List BOp} (hl : ∀ op ∈ ops, op.Legal b0.nBuffers (nativeRoles g)) :
    ∃ rs b, runBOps junk ops b0 = .ok rs b ∧ ∃ offs, Built g d k b offs (applyBOps d ops rs .empty).coords ∧
      (∀ i, i < listDepth g → (applyBOps d ops rs .empty).bytes (i + 1) = i32Bytes (offs i)) ∧ Has (b.bufs 0) ((applyBOps d ops rs .empty).bytes 0) := by
  obtain ⟨hbl, b1, h1, hs⟩ := startOf_builderOf h0
  have hb := (init_native hg h1).of_same hs
  have hlt := numBuffers_pos (listDepth g) d k
  rw [← hb.nBuffers] at hlt
  have hu : Uses (some (g, k)) d (nativeRoles g) b0 := by
    refine ⟨(nomatch ·), ?_⟩
    intro g' k' h
    cases h
    exact ⟨hb, fun i hi hc => absurd ((nativeRoles_coords g i).mp hc) (by omega), fun i hi _ => (nativeRoles_coords g i).mpr hi⟩
  obtain ⟨rs, b, h2, -, h4⟩ := ops_steps junk hu ops b0 .empty (carries_blank hbl) hl
  have hex : ∀ i, ∃ vs, i < listDepth g → (applyBOps d ops rs .empty).bytes (i + 1) = i32Bytes vs := by
    intro i
    by_cases hi : i < listDepth g
    · have ho : nativeRoles g (i + 1) = .offsets := by
        unfold nativeRoles
        rw [if_neg (by omega), if_pos (by omega)]
      have := (h4.raw (i + 1) (by omega) (by rw [ho]; decide)).2 ho
      obtain ⟨vs, hvs⟩ := exists_i32Bytes (((applyBOps d ops rs .empty).bytes (i + 1)).length / 4) ((applyBOps d ops rs .empty).bytes (i + 1)) (by omega)
      exact ⟨vs, fun _ => hvs⟩
    · exact ⟨[], fun h => absurd h hi⟩
  refine ⟨rs, b, h2, fun i => (hex i).choose, ⟨hb.of_same h4.same, ?_, h4.coords g k rfl⟩, fun i hi => (hex i).choose_spec hi, ?_⟩
  · intro i hi
    rw [← (hex i).choose_spec hi]
    exact (h4.raw (i + 1) (by omega) (fun hc => absurd ((nativeRoles_coords g (i + 1)).mp hc) (by omega))).1
  · exact (h4.raw 0 (by omega) (fun hc => absurd ((nativeRoles_coords g 0).mp hc) (by omega))).1

/-- C33: after any history, the coordinates of the finished array are the appended ones, with values mapped by the names of their
dimensions and NaN for those the source does not have. -/
theorem C33_finished (g : Int) (hg : 1 ≤ g ∧ g ≤ 6) (d : Dims) (k : CoordKind) (b0 : Builder) (h0 : StartOf (nativeId g d k) b0)
    (junk : Nat → Byte) (ops : List BOp) (hl : ∀ op ∈ ops, op.Legal b0.nBuffers (nativeRoles g)) (rs : List Bool) (b : Builder)
    (hrun : runBOps junk ops b0 = .ok rs b) (a : AArray) (b' : Builder) (hf : bFinish b = .ok a b') :
    ∃ node, Below (listDepth g) a node ∧ node.offset = 0 ∧ node.length = (applyBOps d ops rs .empty).coords.length ∧
      ∀ t c, (applyBOps d ops rs .empty).coords[t]? = some c → CoordAt d k node t c := by
  obtain ⟨rs', b'', h1, offs, h2, -⟩ := built_of_history (junk := junk) hg h0 hl
  rw [hrun] at h1
  cases h1
  obtain ⟨-, -, n, ha⟩ := finish_inv hf
  rw [array_eq hg (synced_of_built h2)] at ha
  obtain ⟨v', hv⟩ := below_builtLists b.syncCoords (listDepth g) d k (applyBOps d ops rs .empty).coords.length offs (listDepth g) 0 (validityOf b.syncCoords)
  obtain ⟨node, h3, h4, h5, h6, h7⟩ := below_nullCount hv n
  refine ⟨node, by rw [ha]; exact h3, ?_, ?_, ?_⟩
  · rw [h5]; cases k <;> rfl
  · rw [h4]; cases k <;> rfl
  · intro t c hc
    exact coordAt_congr (coordAt_built h2 v' hc) h5 h7

/-- C33 read through an array view of the type (used before in any way): it accepts the finished array, and value `j` of row `t` of
its coordinates is that of coordinate `t`. -/
theorem C33_read (g : Int) (hg : 1 ≤ g ∧ g ≤ 6) (d : Dims) (k : CoordKind) (b0 : Builder) (h0 : StartOf (nativeId g d k) b0)
    (junk : Nat → Byte) (ops : List BOp) (hl : ∀ op ∈ ops, op.Legal b0.nBuffers (nativeRoles g)) (rs : List Bool) (b : Builder)
    (hrun : runBOps junk ops b0 = .ok rs b) (a : AArray) (b' : Builder) (hf : bFinish b = .ok a b')
    (v0 : AView) (hv : ViewOf (nativeId g d k) v0) :
    ∃ v, arrayViewSetArray a v0 = .ok () v ∧
      ∀ (t j : Nat) (c : Coord) (x : Dbl), (applyBOps d ops rs .empty).coords[t]? = some c → c[j]? = some x →
        ∃ buf o, v.values j = (some buf, o) ∧ f64At buf (o + t * v.stride) = some x := by
  obtain ⟨node, n1, n2, n3, n4⟩ := C33_finished g hg d k b0 h0 junk ops hl rs b hrun a b' hf
  obtain ⟨rs', b'', h1, offs, h2, -⟩ := built_of_history (junk := junk) hg h0 hl
  rw [hrun] at h1
  cases h1
  obtain ⟨-, -, n, ha⟩ := finish_inv hf
  rw [array_eq hg (synced_of_built h2)] at ha
  have hsh : ListShape k d.n (listDepth g) a := by rw [ha]; exact shape_nullCount (shape_built _ _ _ _ _ _ _) n
  have hrd : OffsetsReadable (listDepth g) a := by rw [ha]; exact readable_built _ _ _ _ _ _ _ n
  have hbuf : a.buffers ≠ [] := by
    rw [ha]
    cases listDepth g with
    | zero => cases k <;> exact List.cons_ne_nil _ _
    | succ m => exact List.cons_ne_nil _ _
  rcases C55_native_exact_partial g d k hg v0 hv a hrd hbuf with ⟨-, v, hset⟩ | ⟨hc, -⟩
  · refine ⟨v, hset, ?_⟩
    intro t j c x hc hx
    obtain ⟨-, -, -, hex, hnv, hst⟩ := C55_native_accepted g d k hg v0 hv a v hset
    obtain ⟨hlen, hat⟩ := n4 t c hc
    have hj : j < d.n := by rw [← hlen]; exact (List.getElem?_eq_some_iff.mp hx).1
    obtain ⟨hce, -⟩ := hex.2.2 node n1
    cases k with
    | separate =>
      obtain ⟨child, h3, buf, h4, h5⟩ := hat j x hx
      refine ⟨buf, child.offset, ?_, ?_⟩
      · rw [hce j child h3, h4]
        rfl
      · rw [hst, Int.mul_one]
        rw [n2, Int.zero_add] at h5
        exact h5
    | interleaved =>
      obtain ⟨child, h3, buf, h4, h5⟩ := hat j x hx
      refine ⟨buf, child.offset + j, ?_, ?_⟩
      · rw [hce child h3 j (by rw [hnv]; omega), h4]
        rfl
      · rw [hst]
        rw [n2, Int.zero_add] at h5
        rw [show child.offset + (j : Int) + (t : Int) * (d.n : Int) = child.offset + ((t : Int) * (d.n : Int) + (j : Int)) by omega]
        exact h5
  · exact absurd hsh hc

/-- Finishing succeeds if the offsets are those of lists: each at least 0 and less than 2^31, the last of a level at most the number of
slots of the next; and the validity bitmap is absent or long enough. -/
theorem C33_finish_succeeds (g : Int) (hg : 1 ≤ g ∧ g ≤ 6) (d : Dims) (k : CoordKind) (b0 : Builder) (h0 : StartOf (nativeId g d k) b0)
    (junk : Nat → Byte) (ops : List BOp) (hl : ∀ op ∈ ops, op.Legal b0.nBuffers (nativeRoles g)) (rs : List Bool) (b : Builder)
    (hrun : runBOps junk ops b0 = .ok rs b) (offs : Nat → List Int) (count : Nat → Nat)
    (hoffs : ∀ i, i < listDepth g → (applyBOps d ops rs .empty).bytes (i + 1) = int32Bytes (offs i) ∧ (∀ v ∈ offs i, 0 ≤ v ∧ v < 2 ^ 31) ∧
      count i = (offs i).length - 1 ∧ ∀ v, (offs i).getLast? = some v → v ≤ count (i + 1))
    (hcount : count (listDepth g) = (applyBOps d ops rs .empty).coords.length)
    (hval : (applyBOps d ops rs .empty).bytes 0 = [] ∨ count 0 ≤ 8 * ((applyBOps d ops rs .empty).bytes 0).length) :
    ∃ a b', bFinish b = .ok a b' := by
  obtain ⟨rs', b'', h1, offs', h2, h3, h4⟩ := built_of_history (junk := junk) hg h0 hl
  rw [hrun] at h1
  cases h1
  have hbuilt : Built g d k b offs (applyBOps d ops rs .empty).coords := by
    refine ⟨h2.native, fun i hi => ?_, h2.coords⟩
    have := h2.offsets i hi
    rwa [← h3 i hi, (hoffs i hi).1, ← i32Bytes_eq] at this
  have hlv : ∀ i, i ≤ listDepth g → levelLen (listDepth g) offs (applyBOps d ops rs .empty).coords.length i = count i := by
    intro i hi
    unfold levelLen
    split
    · rename_i h
      exact (hoffs i h).2.2.1.symm
    · rw [← hcount, show i = listDepth g by omega]
  refine ⟨_, _, bFinish_run hg hbuilt ⟨fun i hi => (hoffs i hi).2.1, fun i v hi hv => ?_⟩ h4.2.1 ?_⟩
  · rw [hlv _ (by omega)]
    refine (hoffs i hi).2.2.2 v ?_
    rw [List.getLast?_eq_getElem?]
    exact hv
  · intro vb hvb
    unfold validityOf at hvb
    split at hvb
    · cases hvb
    · have : vb = (applyBOps d ops rs .empty).bytes 0 := by
        rw [← h4.2.2.1]
        exact (Option.some.inj hvb).symm
      rw [this, hlv 0 (by omega)]
      rcases hval with h | h
      · exact .inl h
      · right
        unfold bytesForBits
        split <;> omega

/-- Two linestrings, coordinates XYM. -/
def exBuildTwo : List BOp :=
  [.appendOffsets 0 [0, 2], .appendCoords exSrcMem exSrcView .xym 0 [[dbl1, dbl2, dbl3], [dbl3, dbl4, dbl1]],
   .appendBuffer 1 [3, 0, 0, 0], .appendCoords exSrcMem exSrcView .xym 0 [[dbl1, dbl2, dbl3]]]

theorem exBuildTwo_legal (n : Nat) (hn : 3 ≤ n) : ∀ op ∈ exBuildTwo, op.Legal n (nativeRoles 2) := by
  have h1 : Holds exSrcMem exSrcView 0 .xym [[dbl1, dbl2, dbl3]] := by
    intro t c hc
    refine exHolds t c ?_
    cases t with
    | zero => exact hc
    | succ t => simp at hc
  have hc : ∃ i, i < n ∧ nativeRoles 2 i = .coords := ⟨2, by omega, rfl⟩
  intro op hop
  simp only [exBuildTwo, List.mem_cons, List.not_mem_nil, or_false] at hop
  rcases hop with rfl | rfl | rfl | rfl
  · exact ⟨by omega, rfl⟩
  · exact ⟨hc, exHolds⟩
  · exact ⟨by omega, by decide, fun _ => rfl⟩
  · exact ⟨hc, h1⟩

example : ∃ b0, StartOf (nativeId 2 .xyzm .interleaved) b0 ∧ ∃ rs b a b' node, runBOps (fun _ => 9) exBuildTwo b0 = .ok rs b ∧ bFinish b = .ok a b' ∧
    Below 1 a node ∧ CoordAt .xyzm .interleaved node 1 [dbl3, dbl4, Dbl.nan, dbl1] := by
  obtain ⟨b0, h0⟩ := builder_exists (t := nativeId 2 .xyzm .interleaved) (by decide +kernel)
  have hn : b0.nBuffers = 3 := (init_native (by omega) h0).nBuffers
  have hl := exBuildTwo_legal b0.nBuffers (by omega)
  obtain ⟨rs, b, h1, hlen, -⟩ := C32_coords_partial 2 (by omega) .xyzm .interleaved b0 (.init h0) (fun _ => 9) (nativeRoles 2) (nativeRoles_coords 2)
    exBuildTwo hl
  have key : applyBOps .xyzm exBuildTwo rs .empty = applyBOps .xyzm exBuildTwo [true, true, true, true] .empty := by
    match rs, hlen with
    | [r1, r2, r3, r4], _ => rfl
  obtain ⟨a, b', hf⟩ := C33_finish_succeeds 2 (by omega) .xyzm .interleaved b0 (.init h0) (fun _ => 9) exBuildTwo hl rs b h1
    (fun _ => [0, 2, 3]) (fun i => if i = 0 then 2 else 3) (by
      intro i hi
      have hi' : i < 1 := hi
      obtain rfl : i = 0 := by omega
      rw [key]
      refine ⟨by decide +kernel, by decide, rfl, ?_⟩
      intro v hv
      cases hv
      decide) (by rw [key]; decide +kernel) (by rw [key]; exact .inl (by decide +kernel))
  obtain ⟨node, n1, -, -, n4⟩ := C33_finished 2 (by omega) .xyzm .interleaved b0 (.init h0) (fun _ => 9) exBuildTwo hl rs b h1 a b' hf
  exact ⟨b0, .init h0, rs, b, a, b', node, h1, hf, n1, n4 1 _ (by rw [key]; decide +kernel)⟩

end Verif
