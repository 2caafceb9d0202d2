import Verif.Spec.NativeAppend
import Verif.Proof.NativeRead
import Verif.Proof.NativeHistory
import Verif.Props.Coords
/-! # Native writer: appending geometry views, single steps -/
namespace Verif
open Spec

/-! ## Coordinates -/

/-- New doubles in the cells of the next rows. -/
theorem coordsStored {g : Int} {d : Dims} {k : CoordKind} {b : Builder} {cs0 : List Coord} (hb : NativeB g d k b)
    (h : CoordsOk g d k b cs0) {D' : DMem} {new : List Coord} (hn : ∀ c ∈ new, c.length = d.n) (hroom : b.sizeCoords + new.length ≤ b.capCoords)
    (hval : ∀ (t : Nat) (c : Coord), new[t]? = some c → ∀ (j : Nat) (x : Dbl), c[j]? = some x →
      D' (coordCell (listDepth g) d k (b.sizeCoords + t) j).1 (coordCell (listDepth g) d k (b.sizeCoords + t) j).2 = some x)
    (hframe : ∀ i t, (∀ t', t' < new.length → ∀ j, j < d.n → coordCell (listDepth g) d k (b.sizeCoords + t') j ≠ (i, t)) → D' i t = b.cells i t) :
    (∀ i, i ≤ listDepth g → (b.withCells D').bufs i = b.bufs i) ∧
      CoordsOk g d k { b.withCells D' with sizeCoords := b.sizeCoords + new.length } (cs0 ++ new) := by
  have hlt := numBuffers_pos (listDepth g) d k
  rw [← hb.nBuffers] at hlt
  have hmem : ∀ t j, t < b.capCoords → j < d.n →
      8 * (coordCell (listDepth g) d k t j).2 + 8 ≤ (b.bufs (coordCell (listDepth g) d k t j).1).mem.length := by
    intro t j ht hj
    have hr := coordCell_range (listDepth g) d k (t := t) hj
    rw [← hb.nBuffers] at hr
    rw [h.len _ hr.1 hr.2]
    have hlt' := coordCell_lt (listDepth g) d k hj ht
    have hcap := h.cap
    have h1 : b.capCoords * strideOf d k ≤ (b.bufs (b.nBuffers - 1)).mem.length / 8 := by
      rw [hcap]; exact Nat.div_mul_le_self _ _
    omega
  have hcells : ∀ t j, j < d.n → b.cells (coordCell (listDepth g) d k t j).1 (coordCell (listDepth g) d k t j).2 =
      f64At (b.bufs (coordCell (listDepth g) d k t j).1).mem (coordCell (listDepth g) d k t j).2 := by
    intro t j hj
    have hr := coordCell_range (listDepth g) d k (t := t) hj
    rw [← hb.nBuffers] at hr
    unfold Builder.cells
    rw [if_pos hr.2]
  have hother : ∀ t j, j < d.n → ¬ (b.sizeCoords ≤ t ∧ t < b.sizeCoords + new.length) →
      D' (coordCell (listDepth g) d k t j).1 (coordCell (listDepth g) d k t j).2 =
        f64At (b.bufs (coordCell (listDepth g) d k t j).1).mem (coordCell (listDepth g) d k t j).2 := by
    intro t j hj ht
    rw [hframe, hcells t j hj]
    intro t' ht' j' hj' he
    have := coordCell_inj (listDepth g) d k hj' hj he
    omega
  have hread : ∀ t j, t < b.capCoords → j < d.n →
      f64At (putCells (D' (coordCell (listDepth g) d k t j).1) (b.bufs (coordCell (listDepth g) d k t j).1).mem)
        (coordCell (listDepth g) d k t j).2 = D' (coordCell (listDepth g) d k t j).1 (coordCell (listDepth g) d k t j).2 := by
    intro t j ht hj
    rw [f64At_putCells _ _ _ (hmem t j ht hj)]
    have h1 : (D' (coordCell (listDepth g) d k t j).1 (coordCell (listDepth g) d k t j).2).isSome := by
      by_cases hr : b.sizeCoords ≤ t ∧ t < b.sizeCoords + new.length
      · have hl : t - b.sizeCoords < new.length := by omega
        have hc := List.getElem?_eq_getElem hl
        have hj' : j < new[t - b.sizeCoords].length := by rw [hn _ (List.getElem_mem hl)]; exact hj
        have := hval _ _ hc j _ (List.getElem?_eq_getElem hj')
        rw [show b.sizeCoords + (t - b.sizeCoords) = t by omega] at this
        rw [this]
        rfl
      · rw [hother t j hj hr, f64At_isSome]
        exact hmem t j ht hj
    obtain ⟨x, hx⟩ := Option.isSome_iff_exists.mp h1
    rw [hx]
    rfl
  refine ⟨?_, ?_⟩
  · intro i hi
    show { b.bufs i with mem := putCells (D' i) (b.bufs i).mem } = b.bufs i
    rw [putCells_congr]
    intro t
    rw [hframe i t]
    · unfold Builder.cells
      rw [if_pos (by omega)]
    · intro t' ht' j hj he
      have hr := coordCell_range (listDepth g) d k (t := b.sizeCoords + t') hj
      rw [he] at hr
      dsimp only at hr
      omega
  · have hbuf : ∀ i, ({ b.withCells D' with sizeCoords := b.sizeCoords + new.length } : Builder).bufs i =
        { b.bufs i with mem := putCells (D' i) (b.bufs i).mem } := fun i => rfl
    refine ⟨?_, ?_, ?_, ?_, ?_, ?_, ?_, ?_⟩
    · show b.sizeCoords + new.length = _
      rw [List.length_append, h.size]
    · exact hroom
    · intro i h1 h2
      exact h.owned i h1 h2
    · intro i h1 h2
      rw [hbuf]
      show (putCells (D' i) (b.bufs i).mem).length = (putCells (D' (b.nBuffers - 1)) (b.bufs (b.nBuffers - 1)).mem).length
      rw [length_putCells, length_putCells]
      exact h.len i h1 h2
    · show b.capCoords = (putCells (D' (b.nBuffers - 1)) (b.bufs (b.nBuffers - 1)).mem).length / 8 / strideOf d k
      rw [length_putCells]
      exact h.cap
    · intro i h1 h2
      refine Nat.le_trans (h.fits i h1 h2) (Nat.mul_le_mul_left _ ?_)
      rw [List.length_append]; omega
    · exact h.ptr
    · intro t c hc
      have hsz := h.size
      have hle := h.le
      by_cases ht : t < cs0.length
      · rw [List.getElem?_append_left ht] at hc
        refine ⟨(h.holds t c hc).1, ?_⟩
        intro j x hx
        have hj : j < d.n := by rw [← (h.holds t c hc).1]; exact (List.getElem?_eq_some_iff.mp hx).1
        rw [hbuf]
        rw [hread t j (by omega) hj, hother t j hj (by omega)]
        exact (h.holds t c hc).2 j x hx
      · rw [List.getElem?_append_right (by omega)] at hc
        have hlt2 := (List.getElem?_eq_some_iff.mp hc).1
        have hl := hn c (List.mem_of_getElem? hc)
        refine ⟨hl, ?_⟩
        intro j x hx
        have hj : j < d.n := by rw [← hl]; exact (List.getElem?_eq_some_iff.mp hx).1
        have := hval _ _ hc j x hx
        rw [show b.sizeCoords + (t - cs0.length) = t by omega] at this
        rw [hbuf, hread t j (by omega) hj, this]

theorem length_mapCoord (s d : Dims) (c : Coord) : (mapCoord s d c).length = d.n := by
  unfold mapCoord
  rw [List.length_map]
  cases d <;> rfl

/-- The coordinates of a view are copied behind those written so far. -/
theorem nwAppendView_run {g : Int} {d : Dims} {k : CoordKind} {b : Builder} {cs0 : List Coord} (hb : NativeB g d k b)
    (h : CoordsOk g d k b cs0) {m : Mem} {v : View} {x : Geom} (hm : m 0 = emptyPointCoords) (hv : Readable m d v x)
    (hroom : b.sizeCoords + x.allCoords.length ≤ b.capCoords) (hne : 0 < x.allCoords.length) :
    ∃ b', bAppendViewUnsafe m v x.allCoords.length b = .ok () b' ∧ SameType b b' ∧
      (∀ i, i ≤ listDepth g → b'.bufs i = b.bufs i) ∧ CoordsOk g d k b' (cs0 ++ x.coordsAs d) := by
  have hlt := numBuffers_pos (listDepth g) d k
  rw [← hb.nBuffers] at hlt
  have hp : ∀ j, j < d.n → b.target j = ((coordCell (listDepth g) d k 0 j).1, (coordCell (listDepth g) d k 0 j).2) := by
    intro j hj
    rcases h.ptr with h0 | hp
    · omega
    · unfold Builder.target
      rw [hp j hj]
      simp only [if_true]
  have h4 := Dims.n_le d
  let out : Quad Ptr := Quad.ofFn fun j => ⟨(b.target j).1, 8 * (((b.target j).2 + b.stride * b.sizeCoords : Nat) : Int)⟩
  let strides : Quad Int := Quad.ofFn fun _ => ((b.stride * 8 : Nat) : Int)
  have haddr : ∀ (t j : Nat), j < d.n → (out.get j).add ((t : Int) * strides.get j) =
      ⟨(coordCell (listDepth g) d k (b.sizeCoords + t) j).1, 8 * ((coordCell (listDepth g) d k (b.sizeCoords + t) j).2 : Int)⟩ := by
    intro t j hj
    show Ptr.add ((Quad.ofFn _).get j) ((t : Int) * (Quad.ofFn _).get j) = _
    rw [quad_get_ofFn _ (by omega), quad_get_ofFn _ (by omega), hp j hj, hb.stride]
    unfold Ptr.add
    dsimp only
    rw [coordCell_fst (listDepth g) d k (b.sizeCoords + t) j, coordCell_snd (listDepth g) d k (b.sizeCoords + t) j]
    congr 1
    generalize strideOf d k = st
    rw [Nat.add_mul, Nat.mul_comm b.sizeCoords]
    push_cast
    rw [Int.mul_add, Int.mul_add, Int.mul_add, Int.mul_comm (st : Int) 8, Int.mul_left_comm (t : Int) 8 st, Int.add_assoc]
  have hmem : ∀ t j, t < b.capCoords → j < d.n →
      8 * (coordCell (listDepth g) d k t j).2 + 8 ≤ (b.bufs (coordCell (listDepth g) d k t j).1).mem.length := by
    intro t j ht hj
    have hr := coordCell_range (listDepth g) d k (t := t) hj
    rw [← hb.nBuffers] at hr
    rw [h.len _ hr.1 hr.2]
    have hlt' := coordCell_lt (listDepth g) d k hj ht
    have hcap := h.cap
    have h1 : b.capCoords * strideOf d k ≤ (b.bufs (b.nBuffers - 1)).mem.length / 8 := by
      rw [hcap]; exact Nat.div_mul_le_self _ _
    omega
  have homem : ∀ (i t : Nat), b.omem ⟨i, 8 * (t : Int)⟩ = b.cells i t := by
    intro i t
    unfold Builder.omem
    dsimp only
    rw [if_pos (by omega), show ((8 * (t : Int)) / 8).toNat = t by omega]
  obtain ⟨o', h1, h2, h3⟩ := C07_copy_coords_partial (d := d) (out := out) (os := strides) (o := b.omem) hm hv.1 hv.2.2 (by
      intro t ht j hj
      rw [haddr t j hj, homem]
      have hr := coordCell_range (listDepth g) d k (t := b.sizeCoords + t) hj
      rw [← hb.nBuffers] at hr
      unfold Builder.cells
      rw [if_pos hr.2, f64At_isSome]
      exact hmem _ _ (by omega) hj) (by
      intro t ht j hj t' ht' j' hj' he
      rw [haddr t j hj, haddr t' j' hj'] at he
      have e1 := congrArg Ptr.blk he
      have e2 := congrArg Ptr.off he
      dsimp only at e1 e2
      have := coordCell_inj (listDepth g) d k hj hj' (Prod.ext e1 (by omega))
      omega)
  have hlen : (x.coordsAs d).length = x.allCoords.length := List.length_map _
  have hdims : b.schema.dimensions.toNat = d.code := by rw [hb.dims]; rfl
  obtain ⟨h5, h6⟩ := coordsStored (D' := fun i t => o' ⟨i, 8 * (t : Int)⟩) (new := x.coordsAs d) hb h (by
      intro c hc
      obtain ⟨p, -, rfl⟩ := List.mem_map.mp hc
      exact length_mapCoord _ _ _) (by rw [hlen]; exact hroom) (by
      intro t c hc j y hy
      unfold Geom.coordsAs at hc
      rw [List.getElem?_map] at hc
      obtain ⟨⟨s, c'⟩, hc', rfl⟩ := Option.map_eq_some_iff.mp hc
      have hj : j < d.n := by
        rw [← length_mapCoord s d c']
        exact (List.getElem?_eq_some_iff.mp hy).1
      have := h2 t s c' hc' j y hy
      rw [haddr t j hj] at this
      exact this) (by
      intro i t hit
      show o' ⟨i, 8 * (t : Int)⟩ = _
      rw [h3, homem]
      intro t' ht' j hj he
      rw [haddr t' j hj] at he
      have e1 := congrArg Ptr.blk he
      have e2 := congrArg Ptr.off he
      dsimp only at e1 e2
      exact hit t' (by rw [hlen]; exact ht') j hj (Prod.ext e1 (by show _ = t; omega)))
  rw [hlen] at h6
  refine ⟨{ b.withCells (fun i t => o' ⟨i, 8 * (t : Int)⟩) with sizeCoords := b.sizeCoords + x.allCoords.length }, ?_, ⟨rfl, rfl, rfl, rfl, rfl, rfl⟩, h5, h6⟩
  unfold bAppendViewUnsafe
  rw [M.bind_run, M.get_run]
  dsimp only
  rw [hdims]
  rw [show viewCopyCoordsGeneric m v _ _ d.code b.omem = some o' from h1]
  rfl

/-! ## States between calls -/

/-- What a writer holds when only `Append` and `AppendNull` were called. -/
structure AP (g : Int) (d : Dims) (k : CoordKind) (w : NWriter) (ns : Nat → List Nat) (cs : List Coord) (fl : List Bool) : Prop where
  nw : NW g d k w ns cs fl
  last : ∀ i, i < listDepth g → w.lastOffset i = ((ns i).sum : Int)
  len : w.currentLength = fl.length

section
variable {g : Int} {d : Dims} {k : CoordKind} {w : NWriter} {ns : Nat → List Nat} {cs : List Coord} {fl : List Bool}

/-- `GeoArrowNativeWriterAppendSize` -/
theorem size_ap (h : AP g d k w ns cs fl) (junk : Nat → Byte) {i n : Nat} (hi : i < listDepth g) (hn : (ns i).sum + n ≤ 2147483647) :
    ∃ w', nwAppendSize junk i n w = .ok () w' ∧ AP g d k w' (setAt ns i (ns i ++ [n])) cs fl := by
  obtain ⟨b', h1, h2, h3, h4⟩ := built_append h.nw.built junk hi n
  have e : toI32 ((w.lastOffset i % 2 ^ 32).toNat + n) = (((ns i).sum + n : Nat) : Int) := by
    rw [h.last i hi]
    unfold toI32
    rw [show ((((ns i).sum : Nat) : Int) % (2 ^ 32 : Int)).toNat = (ns i).sum by omega, if_pos (by omega)]
    omega
  refine ⟨{ w with lastOffset := setAt w.lastOffset i (((ns i).sum + n : Nat) : Int), builder := b' }, ?_, ⟨h4, ?_, h.nw.bits, h.nw.nulls⟩, ?_, h.len⟩
  · unfold nwAppendSize
    rw [if_neg (by omega), M.bind_run, M.modify_run]
    dsimp only
    rw [M.bind_run, M.get_run]
    dsimp only
    rw [setAt_get, e]
    exact nwB_ok (w := { w with lastOffset := setAt w.lastOffset i (((ns i).sum + n : Nat) : Int) }) h1
  · show (b'.bufs 0).mem = [] ∧ _
    rw [h3]
    exact h.nw.blank
  · intro j hj
    show setAt w.lastOffset i _ j = _
    by_cases hji : j = i
    · subst hji
      rw [setAt_get, setAt_get, List.sum_append, List.sum_singleton]
    · rw [setAt_ne _ _ hji, setAt_ne _ _ hji]
      exact h.last j hj

theorem setAt_append {α : Type} (f : Nat → List α) (i : Nat) (a b : List α) :
    setAt (setAt f i (f i ++ a)) i (setAt f i (f i ++ a) i ++ b) = setAt f i (f i ++ (a ++ b)) := by
  rw [setAt_setAt, setAt_get, List.append_assoc]

/-- `GeoArrowNativeWriterAppendLinestringOffsets` -/
theorem lines_ap (junk : Nat → Byte) {i : Nat} (hi : i < listDepth g) : ∀ (ls rest : List Node) {w : NWriter} {ns : Nat → List Nat},
    AP g d k w ns cs fl → (ns i).sum + (ls.map Node.size).sum ≤ 2147483647 →
    ∃ w', nwLineOffsets junk i ls.length (ls ++ rest) w = .ok () w' ∧ AP g d k w' (setAt ns i (ns i ++ ls.map Node.size)) cs fl
  | [], rest, w, ns, h, _ => by
    refine ⟨w, ?_, ?_⟩
    · cases rest <;> rfl
    · rw [List.map_nil, List.append_nil, setAt_self]
      exact h
  | n :: ls, rest, w, ns, h, hs => by
    rw [List.map_cons, List.sum_cons] at hs
    obtain ⟨w1, h1, h2⟩ := size_ap h junk hi (n := n.size) (by omega)
    obtain ⟨w2, h3, h4⟩ := lines_ap junk hi ls rest h2 (by rw [setAt_get, List.sum_append, List.sum_singleton]; omega)
    refine ⟨w2, ?_, ?_⟩
    · show (nwAppendSize junk i n.size >>= fun _ => nwLineOffsets junk i ls.length (ls ++ rest)) w = _
      rw [M.bind_ok h1, h3]
    · rw [setAt_append] at h4
      exact h4

/-- `GeoArrowNativeWriterAppendPolygonOffsets`: nodes of polygons, each with its rings -/
theorem polys_ap (junk : Nat → Byte) {i : Nat} (hi : i + 1 < listDepth g) : ∀ (ps : List (Node × List Node)) (rest : List Node) {w : NWriter} {ns : Nat → List Nat},
    AP g d k w ns cs fl → (∀ p ∈ ps, p.1.size = p.2.length) → (ns i).sum + (ps.map fun p => p.1.size).sum ≤ 2147483647 →
    (ns (i + 1)).sum + (ps.flatMap fun p => p.2.map Node.size).sum ≤ 2147483647 →
    ∃ w', nwPolyOffsets junk i ps.length (ps.flatMap (fun p => p.1 :: p.2) ++ rest) w = .ok () w' ∧
      AP g d k w' (setAt (setAt ns i (ns i ++ ps.map fun p => p.1.size)) (i + 1) (ns (i + 1) ++ ps.flatMap fun p => p.2.map Node.size)) cs fl
  | [], rest, w, ns, h, _, _, _ => by
    refine ⟨w, ?_, ?_⟩
    · cases rest <;> rfl
    · rw [List.map_nil, List.append_nil, List.flatMap_nil, List.append_nil, setAt_self, setAt_self]
      exact h
  | p :: ps, rest, w, ns, h, hp, hs, hs1 => by
    rw [List.map_cons, List.sum_cons] at hs
    rw [List.flatMap_cons, List.sum_append] at hs1
    have hp0 := hp p (by simp)
    have hne : i + 1 ≠ i := by omega
    obtain ⟨w1, h1, h2⟩ := size_ap h junk (i := i) (by omega) (n := p.1.size) (by omega)
    obtain ⟨w2, h3, h4⟩ := lines_ap junk hi p.2 (ps.flatMap (fun p => p.1 :: p.2) ++ rest) h2 (by rw [setAt_ne _ _ hne]; omega)
    rw [setAt_ne _ _ hne] at h4
    obtain ⟨w3, h5, h6⟩ := polys_ap junk hi ps rest h4 (fun q hq => hp q (by simp [hq]))
      (by rw [setAt_ne _ _ hne.symm, setAt_get, List.sum_append, List.sum_singleton]; omega)
      (by rw [setAt_get, List.sum_append]; omega)
    refine ⟨w3, ?_, ?_⟩
    · show (nwAppendSize junk i p.1.size >>= fun _ => nwLineOffsets junk (i + 1) p.1.size (p.2 ++ ps.flatMap (fun p => p.1 :: p.2) ++ rest) >>= fun _ =>
        nwPolyOffsets junk i ps.length ((p.2 ++ ps.flatMap (fun p => p.1 :: p.2) ++ rest).drop p.1.size)) w = _
      rw [List.append_assoc, M.bind_ok h1, hp0, M.bind_ok h3, List.drop_left, h5]
    · have e : setAt (setAt (setAt (setAt ns i (ns i ++ [p.1.size])) (i + 1) (ns (i + 1) ++ p.2.map Node.size)) i
          (setAt (setAt ns i (ns i ++ [p.1.size])) (i + 1) (ns (i + 1) ++ p.2.map Node.size) i ++ ps.map fun p => p.1.size)) (i + 1)
          (setAt (setAt ns i (ns i ++ [p.1.size])) (i + 1) (ns (i + 1) ++ p.2.map Node.size) (i + 1) ++ ps.flatMap fun p => p.2.map Node.size) =
          setAt (setAt ns i (ns i ++ (p :: ps).map fun p => p.1.size)) (i + 1) (ns (i + 1) ++ (p :: ps).flatMap fun p => p.2.map Node.size) := by
        funext j
        by_cases h1 : j = i + 1
        · subst h1
          rw [setAt_get, setAt_get, setAt_get, List.flatMap_cons, List.append_assoc]
        · by_cases h2 : j = i
          · subst h2
            rw [setAt_ne _ _ h1, setAt_get, setAt_ne _ _ h1, setAt_get, setAt_ne _ _ h1, setAt_get, List.map_cons, List.append_assoc]
            rfl
          · rw [setAt_ne _ _ h1, setAt_ne _ _ h2, setAt_ne _ _ h1, setAt_ne _ _ h2, setAt_ne _ _ h1, setAt_ne _ _ h2]
      rw [e] at h6
      exact h6

/-- Coordinates of a view. -/
theorem view_ap (h : AP g d k w ns cs fl) (junk : Nat → Byte) {m : Mem} {v : View} {x : Geom} (hm : m 0 = emptyPointCoords)
    (hv : Readable m d v x) (hne : 0 < x.allCoords.length) :
    ∃ w', (do nwB (bCoordsReserve junk x.allCoords.length); nwB (bAppendViewUnsafe m v x.allCoords.length) : M NWriter Unit) w = .ok () w' ∧
      AP g d k w' ns (cs ++ x.coordsAs d) fl := by
  have hb := h.nw.built
  have hr := coordsReserve_run junk hb.native x.allCoords.length hb.coords.owned
  have key : ∃ b1, bCoordsReserve junk x.allCoords.length w.builder = .ok () b1 ∧ SameType w.builder b1 ∧ (∀ i, i ≤ listDepth g → b1.bufs i = w.builder.bufs i) ∧
      CoordsOk g d k b1 cs ∧ b1.sizeCoords + x.allCoords.length ≤ b1.capCoords := by
    by_cases hc : w.builder.sizeCoords + x.allCoords.length ≤ w.builder.capCoords
    · rw [if_pos hc] at hr
      exact ⟨_, hr, .rfl' _, fun _ _ => rfl, hb.coords, hc⟩
    · rw [if_neg hc] at hr
      refine ⟨_, hr, sameType_reserved junk g d k _ _, ?_, coordsOk_reserved junk hb.native hb.coords _, reserved_room junk hb.native _⟩
      intro i hi
      show reservedBufs junk (listDepth g) (strideOf d k) _ _ i = _
      unfold reservedBufs
      rw [if_neg (by omega)]
  obtain ⟨b1, h1, h2, h3, h4, h5⟩ := key
  obtain ⟨b2, e1, e2, e3, e4⟩ := nwAppendView_run (hb.native.of_same h2) h4 hm hv h5 hne
  refine ⟨{ w with builder := b2 }, ?_, ⟨⟨(hb.native.of_same h2).of_same e2, ?_, e4⟩, ?_, h.nw.bits, h.nw.nulls⟩, h.last, h.len⟩
  · rw [M.bind_ok (nwB_ok h1)]
    exact nwB_ok (w := { w with builder := b1 }) e1
  · intro i hi
    show Has (b2.bufs (i + 1)) _
    rw [e3 _ (by omega), h3 _ (by omega)]
    exact hb.offsets i hi
  · show (b2.bufs 0).mem = [] ∧ _
    rw [e3 _ (by omega), h3 _ (by omega)]
    exact h.nw.blank

/-- `GeoArrowNativeWriterAppendValidity` -/
theorem validity_ap (h : AP g d k w ns cs fl) (junk : Nat → Byte) (isValid : Bool) :
    ∃ w', nwAppendValidity junk isValid w = .ok () w' ∧ AP g d k w' ns cs (fl ++ [isValid]) := by
  have h0 : NW g d k { w with currentLength := w.currentLength + 1 } ns cs fl := h.nw.congr rfl rfl rfl
  obtain ⟨v, n, h1, h2⟩ := mark_nw h0 junk (!isValid) (len := ((w.currentLength + 1 : Nat) : Int)) (by rw [h.len]; rfl)
  rw [Bool.not_not] at h2
  refine ⟨_, h1, h2, h.last, ?_⟩
  show w.currentLength + 1 = _
  rw [h.len, List.length_append]
  rfl

end
end Verif
