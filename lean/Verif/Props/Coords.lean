import Verif.Proof.CoordsGeneric
import Verif.Props.Visit
/-!
# C05, C07: copying coordinates between dimension sets
-/
namespace Verif
open Spec

/-! ## C05 -/

/-- Copying `n` rows between two coordinate views of any two dimension sets and any two layouts (interleaved or
separated: any base pointers, any stride): each destination row holds the same-named ordinates of the source row and
NaN for an ordinate the source lacks, and no other cell of memory changes. -/
theorem C05_coord_view_copy {S D : DMem} {src dst : CoordView} {s d : Dims} {srcOff dstOff : Nat} {cs : List Coord}
    (hsrc : Holds S src srcOff s cs) (hn : dst.nValues = d.n) (hdst : Writable D dst dstOff cs.length d.n) :
    ∃ D', coordViewCopy S src s.code srcOff D dst d.code dstOff cs.length = some D' ∧
      Holds D' dst dstOff d (cs.map (mapCoord s d)) ∧
      (∀ b i, (∀ t, t < cs.length → ∀ j, j < d.n → dst.cell (dstOff + t) j ≠ (b, i)) → D' b i = D b i) := by
  obtain ⟨D', h1, h2, h3, _⟩ := coordViewCopy_spec hsrc hn hdst
  exact ⟨D', h1, h2, h3⟩

/-- Interleaved XYM source in block 0: (1 2 m3), (3 4 m1). -/
def exSrcMem : DMem := fun b i => if b = 0 then [dbl1, dbl2, dbl3, dbl3, dbl4, dbl1][i]? else none
def exSrcView : CoordView := ⟨⟨(0, 0), (0, 1), (0, 2), (0, 0)⟩, 3, 3⟩
/-- Separated XYZM destination: three cells in each of blocks 0..3. -/
def exDstMem : DMem := fun b i => if b < 4 ∧ i < 3 then some dbl2 else none
def exDstView : CoordView := ⟨⟨(0, 0), (1, 0), (2, 0), (3, 0)⟩, 1, 4⟩

theorem exHolds : Holds exSrcMem exSrcView 0 .xym [[dbl1, dbl2, dbl3], [dbl3, dbl4, dbl1]] := by
  intro t c hc
  have ht := (List.getElem?_eq_some_iff.mp hc).1
  have ht' : t = 0 ∨ t = 1 := by simp at ht; omega
  rcases ht' with rfl | rfl <;> (simp at hc; subst hc; refine ⟨rfl, ?_⟩; intro j x hx
                                 have hj := (List.getElem?_eq_some_iff.mp hx).1
                                 have hj' : j = 0 ∨ j = 1 ∨ j = 2 := by simp at hj; omega
                                 rcases hj' with rfl | rfl | rfl <;> simp at hx <;> subst hx <;> rfl)

theorem exWritable : Writable exDstMem exDstView 1 2 4 := by
  refine ⟨by decide, ?_⟩
  intro t ht j hj t' ht' j' hj' he
  have e : ∀ r c, c < 4 → exDstView.cell r c = (c, r) := by
    intro r c hc
    have : c = 0 ∨ c = 1 ∨ c = 2 ∨ c = 3 := by omega
    rcases this with rfl | rfl | rfl | rfl <;> simp [CoordView.cell, exDstView, Quad.get]
  rw [e _ _ hj, e _ _ hj', Prod.mk.injEq] at he
  omega

example : ∃ D', coordViewCopy exSrcMem exSrcView 3 0 exDstMem exDstView 4 1 2 = some D' ∧
      Holds D' exDstView 1 .xyzm [[dbl1, dbl2, Dbl.nan, dbl3], [dbl3, dbl4, Dbl.nan, dbl1]] := by
  obtain ⟨D', h1, h2, _⟩ := C05_coord_view_copy (d := .xyzm) exHolds rfl exWritable
  exact ⟨D', h1, h2⟩

/-- The index table itself: for every destination ordinate it gives the position of the same-named source ordinate,
or -1 when the source has none. -/
theorem C05_dimension_map (s d : Dims) (j : Nat) (a : Axis) (ha : d.axes[j]? = some a) :
    (∀ i : Nat, (mapDimensions s.code d.code).get j = (i : Int) ↔ s.axes[i]? = some a) ∧
    ((mapDimensions s.code d.code).get j = -1 ↔ a ∉ s.axes) := by
  have hj : j < 4 := by
    have := (List.getElem?_eq_some_iff.mp ha).1
    revert this; cases d <;> simp [Dims.axes] <;> omega
  have hj' : j = 0 ∨ j = 1 ∨ j = 2 ∨ j = 3 := by omega
  refine ⟨fun i => ?_, ?_⟩
  · have hi : i = 0 ∨ i = 1 ∨ i = 2 ∨ i = 3 ∨ 4 ≤ i := by omega
    rcases hi with rfl | rfl | rfl | rfl | hi
    · rcases hj' with rfl | rfl | rfl | rfl <;> cases s <;> cases d <;> cases a <;> revert ha <;> decide
    · rcases hj' with rfl | rfl | rfl | rfl <;> cases s <;> cases d <;> cases a <;> revert ha <;> decide
    · rcases hj' with rfl | rfl | rfl | rfl <;> cases s <;> cases d <;> cases a <;> revert ha <;> decide
    · rcases hj' with rfl | rfl | rfl | rfl <;> cases s <;> cases d <;> cases a <;> revert ha <;> decide
    · have h1 : s.axes[i]? = none := by
        apply List.getElem?_eq_none
        cases s <;> simp [Dims.axes] <;> omega
      rw [h1]
      have hr := mapDimensions_range s d j
      have : s.n ≤ 4 := by cases s <;> decide
      constructor
      · intro h
        rw [h] at hr
        omega
      · intro h; cases h
  · rcases hj' with rfl | rfl | rfl | rfl <;> cases s <;> cases d <;> cases a <;> revert ha <;> decide

example : (mapDimensions Dims.xym.code Dims.xyzm.code).get 3 = 2 :=
  ((C05_dimension_map .xym .xyzm 3 .m rfl).1 2).2 rfl

/-! ## C07 -/

/-- Extracting all coordinates of a geometry view into the caller's strided buffers: the k-th coordinate (points,
linestrings and rings in depth-first order) is written at row k, re-expressed in the requested dimension set, and
nothing else is written.

Partial: a node whose bytes are in the opposite order must have every requested dimension
(see `C07_swapped_fill_not_nan`). -/
theorem C07_copy_coords_partial {m : Mem} {v : View} {g : Geom} {d : Dims} {out : Quad Ptr} {os : Quad Int} {o : OMem}
    (hm : m 0 = emptyPointCoords) (hv : ViewDenotes m v g)
    (hsw : ∀ n ∈ v.nodes, n.swap = true → ∀ s : Dims, n.dims = s.code → ∀ a ∈ d.axes, a ∈ s.axes)
    (halloc : ∀ k, k < g.allCoords.length → ∀ j, j < d.n →
      (o ((out.get j).add ((k : Int) * os.get j))).isSome)
    (hinj : ∀ k, k < g.allCoords.length → ∀ j, j < d.n → ∀ k', k' < g.allCoords.length → ∀ j', j' < d.n →
      (out.get j).add ((k : Int) * os.get j) = (out.get j').add ((k' : Int) * os.get j') → k = k' ∧ j = j') :
    ∃ o', viewCopyCoordsGeneric m v out os d.code o = some o' ∧
      (∀ (k : Nat) (s : Dims) (c : Coord), g.allCoords[k]? = some (s, c) →
        ∀ (j : Nat) (x : Dbl), (mapCoord s d c)[j]? = some x → o' ((out.get j).add ((k : Int) * os.get j)) = some x) ∧
      (∀ p, (∀ k, k < g.allCoords.length → ∀ j, j < d.n → (out.get j).add ((k : Int) * os.get j) ≠ p) →
        o' p = o p) := by
  obtain ⟨L, hL, hfl⟩ := coordsOf_geom g v.nodes hv
  have hrun : viewCopyCoordsGeneric m v out os d.code o = storeO (allWrites out.get os d 0 L) o := by
    unfold viewCopyCoordsGeneric
    rw [nvals_code]
    exact copyNodes_eq hm out.get os d v.nodes L 0 out.get o hL hsw (fun i _ => by simp [Ptr.add])
  have hmem := fun p => mem_allWrites (out := out.get) (os := os) (d := d) L 0 p
  simp only [Nat.zero_add, hfl] at hmem
  have hlt : ∀ {t : Nat} {x}, g.allCoords[t]? = some x → t < g.allCoords.length :=
    fun h => (List.getElem?_eq_some_iff.mp h).1
  obtain ⟨o', h1, h2, h3⟩ := storeO_spec (allWrites out.get os d 0 L) o
    (by
      intro p hp
      obtain ⟨t, s, c, j, hj, hc, rfl⟩ := (hmem p).mp hp
      exact halloc t (hlt hc) j hj)
    (by
      intro p hp q hq he
      obtain ⟨t, s, c, j, hj, hc, rfl⟩ := (hmem p).mp hp
      obtain ⟨t', s', c', j', hj', hc', rfl⟩ := (hmem q).mp hq
      obtain ⟨rfl, rfl⟩ := hinj t (hlt hc) j hj t' (hlt hc') j' hj' he
      rw [hc] at hc'
      cases hc'
      rfl)
  refine ⟨o', by rw [hrun, h1], ?_, ?_⟩
  · intro k s c hk j x hx
    have hlen : c.length = s.n := by
      have := coordsOf_length v.nodes L hL (s, c) (by rw [hfl]; exact List.mem_of_getElem? hk)
      exact this
    have hj : j < d.n := by
      have := (List.getElem?_eq_some_iff.mp hx).1
      have hl : (mapCoord s d c).length = d.n := by unfold mapCoord; cases d <;> rfl
      omega
    rw [viaMap_mapCoord s d c hlen j hj] at hx
    simp only [Option.some.injEq] at hx
    have := h2 _ ((hmem _).mpr ⟨k, s, c, j, hj, hk, rfl⟩)
    rw [hx] at this
    exact this
  · intro p hne
    apply h3
    intro q hq
    obtain ⟨t, s, c, j, hj, hc, rfl⟩ := (hmem q).mp hq
    exact hne t (hlt hc) j hj

/-- Output columns in blocks 0 and 1, stride one double. -/
def exOut : Quad Ptr := ⟨⟨0, 0⟩, ⟨1, 0⟩, ⟨2, 0⟩, ⟨3, 0⟩⟩
def exOutStride : Quad Int := ⟨8, 8, 8, 8⟩
def exOMem : OMem := fun p => if p.blk < 4 ∧ 0 ≤ p.off ∧ p.off < 64 then some dbl4 else none

example : ∃ o', viewCopyCoordsGeneric exMem exView exOut exOutStride 1 exOMem = some o' ∧
    o' ⟨0, 24⟩ = some dbl1 ∧ o' ⟨1, 16⟩ = some dbl4 ∧ o' ⟨2, 0⟩ = some dbl4 := by
  obtain ⟨o', h1, h2, h3⟩ := C07_copy_coords_partial (d := .xy) (out := exOut) (os := exOutStride) (o := exOMem)
    rfl exView_denotes
    (by intro n _ _ s _ a ha; cases s <;> cases a <;> first | decide | (revert ha; decide))
    (by decide)
    (by
      have h : ∀ k, k < exGeom.allCoords.length → ∀ j, j < 2 → ∀ k', k' < exGeom.allCoords.length → ∀ j', j' < 2 →
          ((exOut.get j).add ((k : Int) * exOutStride.get j) ≠ (exOut.get j').add ((k' : Int) * exOutStride.get j') ∨
            k = k' ∧ j = j') := by decide
      exact fun k hk j hj k' hk' j' hj' he => (h k hk j hj k' hk' j' hj').resolve_left (fun hn => hn he))
  refine ⟨o', h1, ?_, ?_, ?_⟩
  · exact h2 3 .xy [dbl1, dbl2] rfl 0 dbl1 (by decide +kernel)
  · exact h2 2 .xy [dbl3, dbl4] rfl 1 dbl4 (by decide +kernel)
  · rw [h3 ⟨2, 0⟩ (by decide)]; decide

/-- The reported coordinate count is the number of coordinates, kept in 32 bits. -/
theorem C07_num_coords {m : Mem} {v : View} {g : Geom} (hv : ViewDenotes m v g) :
    viewNumCoords v = g.allCoords.length % 2 ^ 32 := by
  obtain ⟨L, hL, hfl⟩ := coordsOf_geom g v.nodes hv
  rw [← hfl]
  have key : ∀ (ns : List Node) (L : List (Dims × List Coord)) (acc : Nat), CoordsOf m ns L → acc < 2 ^ 32 →
      ns.foldl (fun count node => if node.gt = 1 ∨ node.gt = 2 then u32 (count + node.size) else count) acc =
        (acc + (flatSeqs L).length) % 2 ^ 32 := by
    intro ns
    induction ns with
    | nil => intro L acc h ha; rw [show L = [] from h]; simp [flatSeqs, Nat.mod_eq_of_lt ha]
    | cons n ns ih =>
      intro L acc h ha
      simp only [CoordsOf] at h
      simp only [List.foldl_cons]
      by_cases hg : n.gt = 1 ∨ n.gt = 2
      · simp only [hg, if_true] at h ⊢
        obtain ⟨s, cs, L', rfl, hs, hr⟩ := h
        rw [ih L' (u32 (acc + n.size)) hr (Nat.mod_lt _ (by decide)), hs.2.1]
        simp only [flatSeqs, List.flatMap_cons, List.length_append, List.length_map, u32]
        omega
      · simp only [hg, if_false] at h ⊢
        exact ih L acc h ha
  have := key v.nodes L 0 hL (by decide)
  simpa [viewNumCoords] using this

example : viewNumCoords exView = 4 := C07_num_coords exView_denotes

/-- Defect: when a byte-swapped node lacks a requested dimension the fill value is itself byte-swapped, so the output
is not NaN but the tiny number with bits 0x000000000000f87f. Here XY data read as XYZ. -/
theorem C07_swapped_fill_not_nan :
    ∃ o', viewCopyCoordsGeneric exMem ⟨[exSeqNode 2 3]⟩ exOut exOutStride Dims.xyz.code exOMem = some o' ∧
      ViewDenotes exMem ⟨[exSeqNode 2 3]⟩ (.linestring .xy exCoords) ∧
      o' ⟨2, 0⟩ = some 0x000000000000f87f#64 := by
  have h : ∃ o', viewCopyCoordsGeneric exMem ⟨[exSeqNode 2 3]⟩ exOut exOutStride Dims.xyz.code exOMem = some o' ∧
      o' ⟨2, 0⟩ = some 0x000000000000f87f#64 := by
    have : ((viewCopyCoordsGeneric exMem ⟨[exSeqNode 2 3]⟩ exOut exOutStride Dims.xyz.code exOMem).bind
      (fun o' => o' ⟨2, 0⟩)) = some 0x000000000000f87f#64 := by decide +kernel
    cases hh : viewCopyCoordsGeneric exMem ⟨[exSeqNode 2 3]⟩ exOut exOutStride Dims.xyz.code exOMem with
    | none => rw [hh] at this; cases this
    | some o' => rw [hh] at this; exact ⟨o', rfl, this⟩
  obtain ⟨o', h1, h2⟩ := h
  exact ⟨o', h1, ⟨_, rfl, rfl, exSeq3⟩, h2⟩

end Verif
