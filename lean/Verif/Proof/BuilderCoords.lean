import Verif.Proof.Builder
/-! # Builder: coordinates -/
namespace Verif
open Spec

/-- The parts of a builder that never change. -/
structure SameType (b b' : Builder) : Prop where
  schema : b'.schema = b.schema
  tree : b'.tree = b.tree
  nOffsets : b'.nOffsets = b.nOffsets
  nValues : b'.nValues = b.nValues
  stride : b'.stride = b.stride
  nBuffers : b'.nBuffers = b.nBuffers

theorem SameType.rfl' (b : Builder) : SameType b b := ⟨rfl, rfl, rfl, rfl, rfl, rfl⟩

theorem SameType.trans {a b c : Builder} (h : SameType a b) (h' : SameType b c) : SameType a c :=
  ⟨h'.1.trans h.1, h'.2.trans h.2, h'.3.trans h.3, h'.4.trans h.4, h'.5.trans h.5, h'.6.trans h.6⟩

theorem NativeB.of_same {g d k} {b b' : Builder} (h : NativeB g d k b) (hs : SameType b b') : NativeB g d k b' := by
  obtain ⟨h1, h2, h3, h4, h5, h6, h7, h8, h9⟩ := h
  obtain ⟨e1, e2, e3, e4, e5, e6⟩ := hs
  exact ⟨e1 ▸ h1, e1 ▸ h2, e1 ▸ h3, e1 ▸ h4, e2.trans h5, e3.trans h6, e4.trans h7, e5.trans h8, e6.trans h9⟩

theorem coordCell_fst (l : Nat) (d : Dims) (k : CoordKind) (t j : Nat) : (coordCell l d k t j).1 = (coordCell l d k 0 j).1 := by
  cases k <;> rfl

theorem coordCell_snd (l : Nat) (d : Dims) (k : CoordKind) (t j : Nat) :
    (coordCell l d k t j).2 = (coordCell l d k 0 j).2 + t * strideOf d k := by
  cases k
  · show t = 0 + t * 1; omega
  · show t * d.n + j = 0 * d.n + j + t * d.n; omega

theorem strideOf_pos (d : Dims) (k : CoordKind) : 0 < strideOf d k := by
  cases k
  · exact Nat.one_pos
  · cases d <;> decide

theorem coordCell_range (l : Nat) (d : Dims) (k : CoordKind) {t j : Nat} (hj : j < d.n) :
    l < (coordCell l d k t j).1 ∧ (coordCell l d k t j).1 < numBuffers l d k := by
  cases k
  · show l < l + 1 + j ∧ l + 1 + j < 1 + l + d.n; omega
  · show l < l + 1 ∧ l + 1 < 1 + l + 1; omega

/-- Element of a row within the capacity. -/
theorem coordCell_lt (l : Nat) (d : Dims) (k : CoordKind) {t j n : Nat} (hj : j < d.n) (ht : t < n) :
    (coordCell l d k t j).2 < n * strideOf d k := by
  cases k
  · show t < n * 1; omega
  · show t * d.n + j < n * d.n
    have h1 : (t + 1) * d.n ≤ n * d.n := Nat.mul_le_mul_right _ ht
    have h2 : (t + 1) * d.n = t * d.n + d.n := Nat.succ_mul _ _
    omega

theorem coordCell_inj (l : Nat) (d : Dims) (k : CoordKind) {t j t' j' : Nat} (hj : j < d.n) (hj' : j' < d.n)
    (h : coordCell l d k t j = coordCell l d k t' j') : t = t' ∧ j = j' := by
  cases k
  · have h1 : l + 1 + j = l + 1 + j' := congrArg Prod.fst h
    have h2 : t = t' := congrArg Prod.snd h
    omega
  · have h2 : t * d.n + j = t' * d.n + j' := congrArg Prod.snd h
    have e1 : (t * d.n + j) / d.n = t := by
      rw [Nat.add_comm, Nat.add_mul_div_right _ _ (by omega), Nat.div_eq_of_lt hj]; omega
    have e2 : (t' * d.n + j') / d.n = t' := by
      rw [Nat.add_comm, Nat.add_mul_div_right _ _ (by omega), Nat.div_eq_of_lt hj']; omega
    have ht : t = t' := by rw [← e1, h2, e2]
    subst ht
    exact ⟨rfl, by omega⟩

structure CoordsOk (g : Int) (d : Dims) (k : CoordKind) (b : Builder) (cs : List Coord) : Prop where
  size : b.sizeCoords = cs.length
  le : b.sizeCoords ≤ b.capCoords
  owned : ∀ i, listDepth g < i → i < b.nBuffers → (b.bufs i).owned = false
  len : ∀ i, listDepth g < i → i < b.nBuffers → (b.bufs i).mem.length = (b.bufs (b.nBuffers - 1)).mem.length
  cap : b.capCoords = (b.bufs (b.nBuffers - 1)).mem.length / 8 / strideOf d k
  fits : ∀ i, listDepth g < i → i < b.nBuffers → (b.bufs i).size ≤ 8 * strideOf d k * cs.length
  ptr : b.capCoords = 0 ∨ ∀ j, j < d.n → b.values j =
    some ((coordCell (listDepth g) d k 0 j).1, (b.bufs (coordCell (listDepth g) d k 0 j).1).gen, (coordCell (listDepth g) d k 0 j).2)
  holds : ∀ t c, cs[t]? = some c → c.length = d.n ∧ ∀ (j : Nat) (x : Dbl), c[j]? = some x →
    f64At (b.bufs (coordCell (listDepth g) d k t j).1).mem (coordCell (listDepth g) d k t j).2 = some x

theorem numBuffers_pos (l : Nat) (d : Dims) (k : CoordKind) : l + 1 < numBuffers l d k := by
  cases k
  · show l + 1 < 1 + l + d.n
    have := Dims.n_pos d
    omega
  · show l + 1 < 1 + l + 1; omega

/-! ## Reserving -/

/-- A coordinate buffer after reserving. -/
def reservedBuf (junk : Nat → Byte) (st size n : Nat) (x : BBuf) : BBuf := grown junk { x with size := size * 8 * st } (n * 8 * st)

def reservedBufs (junk : Nat → Byte) (l st n : Nat) (b : Builder) : Nat → BBuf := fun i =>
  if l < i ∧ i < b.nBuffers then reservedBuf junk st b.sizeCoords n (b.bufs i) else b.bufs i

def reserved (junk : Nat → Byte) (g : Int) (d : Dims) (k : CoordKind) (n : Nat) (b : Builder) : Builder :=
  { b with bufs := reservedBufs junk (listDepth g) (strideOf d k) n b,
           capCoords := (reservedBufs junk (listDepth g) (strideOf d k) n b (b.nBuffers - 1)).mem.length / 8 / strideOf d k,
           values := fun j => if j < d.n then some ((coordCell (listDepth g) d k 0 j).1,
             (reservedBufs junk (listDepth g) (strideOf d k) n b (coordCell (listDepth g) d k 0 j).1).gen,
             (coordCell (listDepth g) d k 0 j).2) else b.values j }

theorem setSize_run {b : Builder} {i : Nat} (n : Nat) (hi : i < b.nBuffers) :
    bSetSize i n b = .ok () { b with bufs := setAt b.bufs i { b.bufs i with size := n } } := by
  unfold bSetSize
  rw [M.bind_ok (bBuf_run hi)]
  rfl

theorem reserveSeparate_run (junk : Nat → Byte) (n : Nat) : ∀ (k i : Nat) (b : Builder), i + k ≤ b.nBuffers →
    (∀ m, i ≤ m → m < i + k → (b.bufs m).owned = false) →
    bReserveSeparate junk n k i b = .ok () { b with bufs := fun m => if i ≤ m ∧ m < i + k then reservedBuf junk 1 b.sizeCoords n (b.bufs m) else b.bufs m }
  | 0, i, b, _, _ => by
    unfold bReserveSeparate
    have : (fun m => if i ≤ m ∧ m < i + 0 then reservedBuf junk 1 b.sizeCoords n (b.bufs m) else b.bufs m) = b.bufs := by
      funext m
      rw [if_neg (by omega)]
    rw [this]
    rfl
  | k + 1, i, b, hk, ho => by
    unfold bReserveSeparate
    have h1 : bSetSize i (b.sizeCoords * 8) b = _ := setSize_run (b.sizeCoords * 8) (by omega)
    rw [M.bind_run, M.get_run]
    dsimp only
    rw [M.bind_ok h1]
    have h2 := reserveBuffer_run junk (b := { b with bufs := setAt b.bufs i { b.bufs i with size := b.sizeCoords * 8 } }) (i := i) (n * 8)
      (by show i < b.nBuffers; omega) (by dsimp only; rw [setAt_get]; exact ho i (by omega) (by omega))
    rw [M.bind_ok h2]
    dsimp only
    rw [setAt_setAt, setAt_get]
    have ih := reserveSeparate_run junk n k (i + 1)
      { b with bufs := setAt b.bufs i (grown junk { b.bufs i with size := b.sizeCoords * 8 } (n * 8)) } (by show i + 1 + k ≤ b.nBuffers; omega)
      (by
        intro m h1 h2
        dsimp only
        rw [setAt_ne _ _ (by omega)]
        exact ho m (by omega) (by omega))
    rw [ih]
    congr 2
    funext m
    dsimp only
    by_cases hm : m = i
    · subst hm
      rw [if_neg (by omega), if_pos (by omega), setAt_get]
      unfold reservedBuf
      simp
    · rw [setAt_ne _ _ hm]
      by_cases hr : i + 1 ≤ m ∧ m < i + 1 + k
      · rw [if_pos hr, if_pos (by omega)]
      · rw [if_neg hr, if_neg (by omega)]

theorem coordsCheck_run (n : Nat) (b : Builder) : bCoordsCheck n b = .ok (decide (b.sizeCoords + n ≤ b.capCoords)) b := rfl

theorem coordsReserve_run (junk : Nat → Byte) {g : Int} {d : Dims} {k : CoordKind} {b : Builder} (hb : NativeB g d k b) (n : Nat)
    (ho : ∀ i, listDepth g < i → i < b.nBuffers → (b.bufs i).owned = false) :
    bCoordsReserve junk n b = .ok () (if b.sizeCoords + n ≤ b.capCoords then b else reserved junk g d k n b) := by
  have hlt := numBuffers_pos (listDepth g) d k
  rw [← hb.nBuffers] at hlt
  unfold bCoordsReserve
  rw [M.bind_ok (coordsCheck_run n b)]
  by_cases hc : b.sizeCoords + n ≤ b.capCoords
  · rw [decide_eq_true hc, if_pos rfl, if_pos hc]; rfl
  rw [decide_eq_false hc, if_neg (by decide), if_neg hc, M.bind_run, M.get_run]
  dsimp only
  cases k with
  | interleaved =>
    have hn : b.nBuffers = 1 + listDepth g + 1 := hb.nBuffers
    have hl : b.nBuffers - 1 = listDepth g + 1 := by omega
    rw [if_pos (show b.schema.coordType = 2 from hb.coords)]
    have h1 : bSetSize (b.nBuffers - 1) (b.sizeCoords * 8 * b.nValues) b = _ := setSize_run (b.sizeCoords * 8 * b.nValues) (by omega)
    rw [M.bind_ok h1]
    have h2 := reserveBuffer_run junk (b := { b with bufs := setAt b.bufs (b.nBuffers - 1) { b.bufs (b.nBuffers - 1) with size := b.sizeCoords * 8 * b.nValues } })
      (i := b.nBuffers - 1) (n * 8 * b.nValues)
      (by show b.nBuffers - 1 < b.nBuffers; omega) (by dsimp only; rw [setAt_get]; exact ho _ (by omega) (by omega))
    rw [M.bind_ok h2]
    dsimp only
    rw [setAt_setAt, setAt_get]
    rw [M.bind_ok (bBuf_run (by show b.nBuffers - 1 < b.nBuffers; omega))]
    rw [M.modify_run]
    dsimp only
    rw [setAt_get]
    have hbufs : setAt b.bufs (b.nBuffers - 1) (grown junk { b.bufs (b.nBuffers - 1) with size := b.sizeCoords * 8 * b.nValues } (n * 8 * b.nValues)) =
        reservedBufs junk (listDepth g) (strideOf d .interleaved) n b := by
      funext m
      unfold reservedBufs reservedBuf
      by_cases hm : m = b.nBuffers - 1
      · subst hm
        rw [setAt_get, if_pos (by omega), hb.nValues]
        rfl
      · rw [setAt_ne _ _ hm, if_neg (by omega)]
    have hx : grown junk { b.bufs (b.nBuffers - 1) with size := b.sizeCoords * 8 * b.nValues } (n * 8 * b.nValues) =
        reservedBufs junk (listDepth g) (strideOf d .interleaved) n b (b.nBuffers - 1) := by
      rw [← hbufs, setAt_get]
    unfold reserved
    rw [hbufs, hx, hb.nValues, hl]
    congr 2
    funext j
    show (if j < d.n then some (listDepth g + 1, _, j) else _) = if j < d.n then some (listDepth g + 1, _, 0 * d.n + j) else _
    rw [show 0 * d.n + j = j by omega]
    rfl
  | separate =>
    have hn : b.nBuffers = 1 + listDepth g + d.n := hb.nBuffers
    have hl : b.nBuffers - 1 + 1 - d.n = listDepth g + 1 := by omega
    rw [if_neg (show ¬ b.schema.coordType = 2 by rw [hb.coords]; decide), if_pos (show b.schema.coordType = 1 from hb.coords)]
    rw [hb.nValues, hl]
    have h1 := reserveSeparate_run junk n d.n (listDepth g + 1) b (by omega) (fun m h1 h2 => ho m (by omega) (by omega))
    rw [M.bind_ok h1]
    have hbufs : (fun m => if listDepth g + 1 ≤ m ∧ m < listDepth g + 1 + d.n then reservedBuf junk 1 b.sizeCoords n (b.bufs m) else b.bufs m) =
        reservedBufs junk (listDepth g) (strideOf d .separate) n b := by
      funext m
      unfold reservedBufs
      by_cases hm : listDepth g + 1 ≤ m ∧ m < listDepth g + 1 + d.n
      · rw [if_pos hm, if_pos (by omega)]; rfl
      · rw [if_neg hm, if_neg (by omega)]
    rw [hbufs]
    rw [M.bind_ok (bBuf_run (by show b.nBuffers - 1 < b.nBuffers; omega))]
    rw [M.modify_run]
    dsimp only
    unfold reserved
    congr 2
    exact (Nat.div_one _).symm

theorem f64At_append {m l : List Byte} {t : Int} {x : Dbl} (h : f64At m t = some x) : f64At (m ++ l) t = some x := by
  unfold f64At at h ⊢
  split at h
  · rename_i hc
    rw [if_pos (by rw [List.length_append]; omega), ← h]
    rw [List.drop_append_of_le_length (by omega), List.take_append_of_le_length (by rw [List.length_drop]; omega)]
  · cases h

theorem reservedBuf_mem (junk : Nat → Byte) (st size n : Nat) (x : BBuf) : ∃ l, (reservedBuf junk st size n x).mem = x.mem ++ l :=
  grown_mem junk { x with size := size * 8 * st } (n * 8 * st)

theorem reservedBuf_length (junk : Nat → Byte) (st size n : Nat) {x y : BBuf} (h : x.mem.length = y.mem.length) :
    (reservedBuf junk st size n x).mem.length = (reservedBuf junk st size n y).mem.length := by
  unfold reservedBuf
  rw [grown_length, grown_length]
  simp only [h]

theorem sameType_reserved (junk : Nat → Byte) (g : Int) (d : Dims) (k : CoordKind) (n : Nat) (b : Builder) :
    SameType b (reserved junk g d k n b) := ⟨rfl, rfl, rfl, rfl, rfl, rfl⟩

theorem reserved_room (junk : Nat → Byte) {g : Int} {d : Dims} {k : CoordKind} {b : Builder} (hb : NativeB g d k b) (n : Nat) :
    b.sizeCoords + n ≤ (reserved junk g d k n b).capCoords := by
  have hlt := numBuffers_pos (listDepth g) d k
  rw [← hb.nBuffers] at hlt
  show _ ≤ (reservedBufs junk (listDepth g) (strideOf d k) n b (b.nBuffers - 1)).mem.length / 8 / strideOf d k
  unfold reservedBufs
  rw [if_pos (by omega)]
  unfold reservedBuf
  have := grown_fits junk { b.bufs (b.nBuffers - 1) with size := b.sizeCoords * 8 * strideOf d k } (n * 8 * strideOf d k)
  dsimp only at this
  rw [Nat.le_div_iff_mul_le (strideOf_pos d k), Nat.le_div_iff_mul_le (by omega)]
  have e : (b.sizeCoords + n) * strideOf d k * 8 = b.sizeCoords * 8 * strideOf d k + n * 8 * strideOf d k := by
    rw [Nat.add_mul, Nat.add_mul, Nat.mul_right_comm b.sizeCoords, Nat.mul_right_comm n]
  omega

theorem coordsOk_reserved (junk : Nat → Byte) {g : Int} {d : Dims} {k : CoordKind} {b : Builder} {cs : List Coord} (hb : NativeB g d k b)
    (h : CoordsOk g d k b cs) (n : Nat) : CoordsOk g d k (reserved junk g d k n b) cs := by
  have hlt := numBuffers_pos (listDepth g) d k
  rw [← hb.nBuffers] at hlt
  have hbuf : ∀ i, listDepth g < i → i < b.nBuffers →
      (reserved junk g d k n b).bufs i = reservedBuf junk (strideOf d k) b.sizeCoords n (b.bufs i) := by
    intro i h1 h2
    show reservedBufs junk (listDepth g) (strideOf d k) n b i = _
    unfold reservedBufs
    rw [if_pos ⟨h1, h2⟩]
  refine ⟨h.size, ?_, ?_, ?_, rfl, ?_, .inr ?_, ?_⟩
  · have := reserved_room junk hb n
    show b.sizeCoords ≤ _
    omega
  · intro i h1 h2
    rw [hbuf i h1 h2]
    unfold reservedBuf
    rw [grown_owned]
    exact h.owned i h1 h2
  · intro i h1 h2
    show _ = ((reserved junk g d k n b).bufs (b.nBuffers - 1)).mem.length
    rw [hbuf i h1 h2, hbuf (b.nBuffers - 1) (by omega) (by omega)]
    exact reservedBuf_length junk _ _ _ (h.len i h1 h2)
  · intro i h1 h2
    rw [hbuf i h1 h2]
    unfold reservedBuf
    rw [grown_size, ← h.size]
    show b.sizeCoords * 8 * strideOf d k ≤ _
    rw [Nat.mul_right_comm, Nat.mul_assoc, Nat.mul_comm]
    exact Nat.le_of_eq (by rw [Nat.mul_comm (strideOf d k)])
  · intro j hj
    show (if j < d.n then _ else _) = _
    rw [if_pos hj]
    rfl
  · intro t c hc
    refine ⟨(h.holds t c hc).1, ?_⟩
    intro j x hx
    have hj : j < d.n := by rw [← (h.holds t c hc).1]; exact (List.getElem?_eq_some_iff.mp hx).1
    have hr := coordCell_range (listDepth g) d k (t := t) hj
    rw [← hb.nBuffers] at hr
    rw [hbuf _ hr.1 hr.2]
    obtain ⟨l, hl⟩ := reservedBuf_mem junk (strideOf d k) b.sizeCoords n (b.bufs (coordCell (listDepth g) d k t j).1)
    rw [hl]
    exact f64At_append ((h.holds t c hc).2 j x hx)

/-! ## Appending -/

theorem quad_get_ofFn {α : Type} (f : Nat → α) {j : Nat} (hj : j < 4) : (Quad.ofFn f).get j = f j := by
  have h : j = 0 ∨ j = 1 ∨ j = 2 ∨ j = 3 := by omega
  rcases h with rfl | rfl | rfl | rfl <;> rfl

theorem Dims.n_le (d : Dims) : d.n ≤ 4 := by cases d <;> decide

/-- With pointers up to date, the cells of the coordinate view. -/
theorem coordView_cell {g : Int} {d : Dims} {k : CoordKind} {b : Builder} (hb : NativeB g d k b)
    (hp : ∀ j, j < d.n → b.values j = some ((coordCell (listDepth g) d k 0 j).1,
      (b.bufs (coordCell (listDepth g) d k 0 j).1).gen, (coordCell (listDepth g) d k 0 j).2))
    (t : Nat) {j : Nat} (hj : j < d.n) : b.coordView.cell t j = coordCell (listDepth g) d k t j := by
  have := Dims.n_le d
  unfold CoordView.cell Builder.coordView
  rw [quad_get_ofFn _ (by omega)]
  unfold Builder.target
  rw [hp j hj]
  simp only [if_true]
  rw [hb.stride, ← coordCell_snd, ← coordCell_fst (listDepth g) d k t j]

theorem holds_nil (S : DMem) (v : CoordView) (off : Nat) (d : Dims) : Holds S v off d [] := by
  intro t c hc
  simp at hc

theorem coordsUnsafe_run {g : Int} {d : Dims} {k : CoordKind} {b : Builder} {cs0 : List Coord} (hb : NativeB g d k b)
    (h : CoordsOk g d k b cs0) {S : DMem} {src : CoordView} {s : Dims} {off : Nat} {cs : List Coord} (hs : Holds S src off s cs)
    (hroom : b.sizeCoords + cs.length ≤ b.capCoords) :
    ∃ b', bCoordsAppendUnsafe S src s.code off cs.length b = .ok () b' ∧ SameType b b' ∧
      (∀ i, i ≤ listDepth g → b'.bufs i = b.bufs i) ∧ CoordsOk g d k b' (cs0 ++ cs.map (mapCoord s d)) := by
  have hlt := numBuffers_pos (listDepth g) d k
  rw [← hb.nBuffers] at hlt
  -- the last buffer has room for `cap` rows, and so do all
  have hmem : ∀ t j, t < b.capCoords → j < d.n →
      8 * (coordCell (listDepth g) d k t j).2 + 8 ≤ (b.bufs (coordCell (listDepth g) d k t j).1).mem.length := by
    intro t j ht hj
    have hr := coordCell_range (listDepth g) d k (t := t) hj
    rw [← hb.nBuffers] at hr
    rw [h.len _ hr.1 hr.2]
    have hlt' := coordCell_lt (listDepth g) d k hj ht
    have hcap := h.cap
    have h1 : b.capCoords * strideOf d k ≤ (b.bufs (b.nBuffers - 1)).mem.length / 8 := by
      rw [hcap]; exact Nat.div_mul_le_self _ _
    omega
  have hcells : ∀ t j, j < d.n → b.cells (coordCell (listDepth g) d k t j).1 (coordCell (listDepth g) d k t j).2 =
      f64At (b.bufs (coordCell (listDepth g) d k t j).1).mem (coordCell (listDepth g) d k t j).2 := by
    intro t j hj
    have hr := coordCell_range (listDepth g) d k (t := t) hj
    rw [← hb.nBuffers] at hr
    unfold Builder.cells
    rw [if_pos hr.2]
  have hview : ∀ t j, t < b.capCoords → j < d.n → b.coordView.cell t j = coordCell (listDepth g) d k t j := by
    intro t j ht hj
    rcases h.ptr with h0 | hp
    · omega
    · exact coordView_cell hb hp t hj
  have hw : Writable b.cells b.coordView b.sizeCoords cs.length d.n := by
    constructor
    · intro t ht j hj
      unfold CoordView.get
      rw [hview _ _ (by omega) hj, hcells _ _ hj, f64At_isSome]
      exact hmem _ _ (by omega) hj
    · intro t ht j hj t' ht' j' hj' he
      rw [hview _ _ (by omega) hj, hview _ _ (by omega) hj'] at he
      have := coordCell_inj (listDepth g) d k hj hj' he
      omega
  have hnv : b.coordView.nValues = d.n := hb.nValues
  obtain ⟨D', hcopy, hholds, hframe, hsome⟩ := coordViewCopy_spec hs hnv hw
  have hdims : b.schema.dimensions.toNat = d.code := by rw [hb.dims]; rfl
  refine ⟨{ b.withCells D' with sizeCoords := b.sizeCoords + cs.length }, ?_, ⟨rfl, rfl, rfl, rfl, rfl, rfl⟩, ?_, ?_⟩
  · unfold bCoordsAppendUnsafe
    rw [M.bind_run, M.get_run]
    dsimp only
    rw [hdims, hcopy]
    rfl
  · intro i hi
    show { b.bufs i with mem := putCells (D' i) (b.bufs i).mem } = b.bufs i
    rw [putCells_congr]
    intro t
    rw [hframe i t]
    · unfold Builder.cells
      rw [if_pos (by omega)]
    · intro t' ht' j hj he
      rw [hview _ _ (by omega) hj] at he
      have hr := coordCell_range (listDepth g) d k (t := b.sizeCoords + t') hj
      rw [he] at hr
      dsimp only at hr
      omega
  · -- the coordinates
    have hbuf : ∀ i, ({ b.withCells D' with sizeCoords := b.sizeCoords + cs.length } : Builder).bufs i =
        { b.bufs i with mem := putCells (D' i) (b.bufs i).mem } := fun i => rfl
    have hread : ∀ t j, t < b.capCoords → j < d.n →
        f64At (putCells (D' (coordCell (listDepth g) d k t j).1) (b.bufs (coordCell (listDepth g) d k t j).1).mem)
          (coordCell (listDepth g) d k t j).2 = D' (coordCell (listDepth g) d k t j).1 (coordCell (listDepth g) d k t j).2 := by
      intro t j ht hj
      rw [f64At_putCells _ _ _ (hmem t j ht hj)]
      have h1 := hsome (coordCell (listDepth g) d k t j).1 (coordCell (listDepth g) d k t j).2
      rw [hcells t j hj, f64At_isSome.mpr (hmem t j ht hj)] at h1
      obtain ⟨x, hx⟩ := Option.isSome_iff_exists.mp h1
      rw [hx]
      rfl
    refine ⟨?_, ?_, ?_, ?_, ?_, ?_, ?_, ?_⟩
    · show b.sizeCoords + cs.length = _
      rw [List.length_append, List.length_map, h.size]
    · exact hroom
    · intro i h1 h2
      exact h.owned i h1 h2
    · intro i h1 h2
      rw [hbuf]
      show (putCells (D' i) (b.bufs i).mem).length = (putCells (D' (b.nBuffers - 1)) (b.bufs (b.nBuffers - 1)).mem).length
      rw [length_putCells, length_putCells]
      exact h.len i h1 h2
    · show b.capCoords = (putCells (D' (b.nBuffers - 1)) (b.bufs (b.nBuffers - 1)).mem).length / 8 / strideOf d k
      rw [length_putCells]
      exact h.cap
    · intro i h1 h2
      refine Nat.le_trans (h.fits i h1 h2) (Nat.mul_le_mul_left _ ?_)
      rw [List.length_append]; omega
    · exact h.ptr
    · intro t c hc
      by_cases ht : t < cs0.length
      · rw [List.getElem?_append_left ht] at hc
        refine ⟨(h.holds t c hc).1, ?_⟩
        intro j x hx
        have hj : j < d.n := by rw [← (h.holds t c hc).1]; exact (List.getElem?_eq_some_iff.mp hx).1
        rw [hbuf]
        have hle := h.le
        have hsz := h.size
        rw [hread t j (by omega) hj, hframe, hcells t j hj]
        · exact (h.holds t c hc).2 j x hx
        · intro t' ht' j' hj' he
          rw [hview _ _ (by omega) hj'] at he
          have := coordCell_inj (listDepth g) d k hj' hj he
          omega
      · rw [List.getElem?_append_right (by omega)] at hc
        have hlt2 := (List.getElem?_eq_some_iff.mp hc).1
        rw [List.length_map] at hlt2
        obtain ⟨h1, h2⟩ := hholds _ _ hc
        refine ⟨h1, ?_⟩
        intro j x hx
        have hj : j < d.n := by rw [← h1]; exact (List.getElem?_eq_some_iff.mp hx).1
        have hsz := h.size
        rw [hbuf, hread t j (by omega) hj, ← h2 j x hx]
        unfold CoordView.get
        rw [hview _ _ (by omega) hj, show b.sizeCoords + (t - cs0.length) = t by omega]

theorem coordsAppend_run (junk : Nat → Byte) {g : Int} {d : Dims} {k : CoordKind} {b : Builder} {cs0 : List Coord} (hb : NativeB g d k b)
    (h : CoordsOk g d k b cs0) {S : DMem} {src : CoordView} {s : Dims} {off : Nat} {cs : List Coord} (hs : Holds S src off s cs) :
    ∃ b', bCoordsAppend junk S src s.code off cs.length b = .ok () b' ∧ SameType b b' ∧
      (∀ i, i ≤ listDepth g → b'.bufs i = b.bufs i) ∧ CoordsOk g d k b' (cs0 ++ cs.map (mapCoord s d)) := by
  unfold bCoordsAppend
  rw [M.bind_ok (coordsCheck_run _ b)]
  by_cases hc : b.sizeCoords + cs.length ≤ b.capCoords
  · rw [decide_eq_true hc, if_pos rfl, M.bind_ok (rfl : (pure () : M Builder Unit) b = _)]
    exact coordsUnsafe_run hb h hs hc
  · rw [decide_eq_false hc, if_neg (by decide), M.bind_ok (coordsReserve_run junk hb cs.length h.owned), if_neg hc]
    obtain ⟨b', h1, h2, h3, h4⟩ := coordsUnsafe_run (hb.of_same (sameType_reserved junk g d k cs.length b))
      (coordsOk_reserved junk hb h cs.length) hs (reserved_room junk hb cs.length)
    refine ⟨b', h1, (sameType_reserved junk g d k cs.length b).trans h2, ?_, h4⟩
    intro i hi
    rw [h3 i hi]
    show reservedBufs junk (listDepth g) (strideOf d k) cs.length b i = _
    unfold reservedBufs
    rw [if_neg (by omega)]

end Verif
