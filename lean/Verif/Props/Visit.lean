import Verif.Proof.VisitShape
/-!
# C06, C08, C09, C10, C11: coordinate sequences and visiting geometry views
-/
namespace Verif
open Spec

/-! ## Concrete data used in the examples

Block 1 holds, big-endian, the XY coordinates (1,2), (3,4), (1,2). -/

def exMem : Mem
  | 0 => emptyPointCoords
  | 1 => [0x3f, 0xf0, 0, 0, 0, 0, 0, 0, 0x40, 0, 0, 0, 0, 0, 0, 0,
          0x40, 0x08, 0, 0, 0, 0, 0, 0, 0x40, 0x10, 0, 0, 0, 0, 0, 0,
          0x3f, 0xf0, 0, 0, 0, 0, 0, 0, 0x40, 0, 0, 0, 0, 0, 0, 0]
  | _ => []

def dbl1 : Dbl := 0x3ff0000000000000#64
def dbl2 : Dbl := 0x4000000000000000#64
def dbl3 : Dbl := 0x4008000000000000#64
def dbl4 : Dbl := 0x4010000000000000#64

def exSeqNode (gt size : Nat) : Node :=
  { coords := ⟨⟨1, 0⟩, ⟨1, 8⟩, ⟨1, 0⟩, ⟨1, 0⟩⟩, stride := ⟨16, 16, 0, 0⟩, size := size, gt := gt, dims := 1,
    swap := true, level := 1 }

def exHeadNode (gt size : Nat) : Node :=
  { coords := ⟨⟨0, 0⟩, ⟨0, 0⟩, ⟨0, 0⟩, ⟨0, 0⟩⟩, stride := ⟨0, 0, 0, 0⟩, size := size, gt := gt, dims := 1,
    swap := false, level := 0 }

def exCoords : List Coord := [[dbl1, dbl2], [dbl3, dbl4], [dbl1, dbl2]]

theorem seqDenotes_of_check {m node d cs} (h1 : node.dims = d.code) (h2 : node.size = cs.length)
    (h3 : cs.length < 2 ^ 32) (h4 : ∀ c ∈ cs, c.length = d.n)
    (h5 : ∀ i, i < cs.length → ∀ j, j < d.n → ordinate m node i j = (cs[i]?.getD [])[j]?) :
    SeqDenotes m node d cs := by
  refine ⟨h1, h2, h3, h4, ?_⟩
  intro i j c v hc hv
  have hi := (List.getElem?_eq_some_iff.mp hc).1
  have hj : j < d.n := by
    have := h4 c (List.mem_of_getElem? hc)
    have := (List.getElem?_eq_some_iff.mp hv).1
    omega
  rw [h5 i hi j hj, hc]
  exact hv

theorem exSeq3 : SeqDenotes exMem (exSeqNode 2 3) .xy exCoords :=
  seqDenotes_of_check rfl rfl (by decide) (by decide) (by decide +kernel)
theorem exSeq1 : SeqDenotes exMem (exSeqNode 1 1) .xy [[dbl1, dbl2]] :=
  seqDenotes_of_check rfl rfl (by decide) (by decide) (by decide +kernel)

/-- GEOMETRYCOLLECTION (POINT (1 2), POLYGON ((1 2, 3 4, 1 2)), MULTIPOINT EMPTY) -/
def exGeom : Geom :=
  .multi .collection .xy [.point .xy [[dbl1, dbl2]], .polygon .xy [exCoords], .multi .multipoint .xy []]
def exView : View :=
  ⟨[exHeadNode 7 3, exSeqNode 1 1, exHeadNode 3 1, exSeqNode 2 3, exHeadNode 4 0]⟩

theorem exView_denotes : ViewDenotes exMem exView exGeom := by
  refine ⟨_, _, rfl, rfl, rfl, rfl, by decide, ?_⟩
  refine ⟨[exSeqNode 1 1], _, rfl, ⟨_, rfl, rfl, exSeq1⟩, ?_⟩
  refine ⟨[exHeadNode 3 1, exSeqNode 2 3], _, rfl, ⟨_, _, rfl, rfl, rfl, rfl, by decide, ?_⟩, ?_⟩
  · exact ⟨_, _, rfl, rfl, exSeq3, rfl⟩
  · exact ⟨[exHeadNode 4 0], [], rfl, ⟨_, _, rfl, rfl, rfl, rfl, by decide, rfl⟩, rfl⟩

/-! ## C06 -/

/-- Writing the coordinates of a sequence node to a caller buffer: with enough room the reported size is 8 bytes per
ordinate, the buffer starts with exactly the interleaved native-order coordinates and is otherwise unchanged; with too
little room the same size is reported and nothing is written. Holds for every stride and byte order.

Partial: the sequence must have fewer than 2^32 ordinates in total (see `C06_size_wraps`). -/
theorem C06_write_sequence_exact_partial {m : Mem} {node : Node} {d : Dims} {cs : List Coord}
    (h : SeqDenotes m node d cs) (hw : d.n * cs.length < 2 ^ 32) (dst : List Byte) :
    (8 * d.n * cs.length ≤ dst.length →
      nodeWriteSequence m node dst =
        some (8 * d.n * cs.length, interleaved cs ++ dst.drop (8 * d.n * cs.length))) ∧
    (dst.length < 8 * d.n * cs.length →
      nodeWriteSequence m node dst = some (8 * d.n * cs.length, dst)) := by
  constructor
  · intro hd
    rw [nodeWriteSequence_eq h hw dst hd]
    congr 2
    simp [splice, length_interleaved h.2.2.2.1]
  · intro hd
    unfold nodeWriteSequence
    rw [h.1, nvals_code, h.2.1]
    have hreq : u32 (d.n * cs.length) * 8 = 8 * d.n * cs.length := by
      rw [u32_of_lt hw, Nat.mul_comm, ← Nat.mul_assoc]
    simp only []
    rw [hreq, if_pos hd]

example : nodeWriteSequence exMem (exSeqNode 2 3) (List.replicate 50 7) =
    some (48, interleaved exCoords ++ [7, 7]) :=
  (C06_write_sequence_exact_partial exSeq3 (by decide) (List.replicate 50 7)).1 (by decide)
example : nodeWriteSequence exMem (exSeqNode 2 3) (List.replicate 47 7) = some (48, List.replicate 47 7) :=
  (C06_write_sequence_exact_partial exSeq3 (by decide) (List.replicate 47 7)).2 (by decide)

/-- Defect: the required size is computed in 32 bits. For a node of 2^31 XY coordinates it is 0, so an empty buffer
passes the check and the copy writes (or reads) outside memory, whatever the node's coordinate pointers. -/
theorem C06_size_wraps (m : Mem) (node : Node) (hd : node.dims = 1) (hs : node.size = 2 ^ 31) :
    nodeWriteSequence m node [] = none := by
  unfold nodeWriteSequence
  rw [hd, hs]
  simp only [nvals]
  rw [if_neg (by decide)]
  have key : ∀ n, writeCoordsLoop m node.stride 2 (n + 1) node.coords.get 0 [] = none := by
    intro n
    simp only [writeCoordsLoop, writeOrds]
    cases hl : m.load (node.coords.get 0) 8 with
    | none => rfl
    | some bs =>
      have := Mem.load_length hl
      simp [bufWrite, this]
  rw [key 2147483647]

example : nodeWriteSequence exMem { exSeqNode 2 3 with size := 2 ^ 31 } [] = none := C06_size_wraps _ _ rfl rfl

/-! ## C08 -/

/-- Visiting a coordinate sequence makes one or more `coords` callbacks whose concatenation is the full sequence in
order; no callback exceeds the 384-ordinate buffer, and none is empty unless the sequence is. -/
theorem C08_sequence_chunks {m : Mem} {node : Node} {d : Dims} {cs : List Coord} (h : SeqDenotes m node d cs) :
    ∃ chunks : List (List Coord), chunks.flatten = cs ∧ chunks ≠ [] ∧
      (∀ ch ∈ chunks, d.n * ch.length ≤ 384) ∧ (cs ≠ [] → ∀ ch ∈ chunks, ch ≠ []) ∧
      Behaves (fun _ h => visitSequence m h node) (chunks.map (Event.coords d.n)) (.done ()) :=
  behaves_sequence h

example : ∃ chunks : List (List Coord), chunks.flatten = exCoords ∧ chunks ≠ [] ∧
      (∀ ch ∈ chunks, 2 * ch.length ≤ 384) ∧ (exCoords ≠ [] → ∀ ch ∈ chunks, ch ≠ []) ∧
      Behaves (fun _ h => visitSequence exMem h (exSeqNode 2 3)) (chunks.map (Event.coords 2)) (.done ()) :=
  C08_sequence_chunks exSeq3

/-! ## C09 -/

/-- Visiting a view that denotes `g` makes exactly the callbacks of one feature holding `g` and succeeds. -/
theorem C09_view_visit {m : Mem} {v : View} {g : Geom} (h : ViewDenotes m v g) :
    ∃ t, FeatureTrace g t ∧ Behaves (fun _ h => viewVisit m h v) t (.done ()) :=
  behaves_view h

/-- The same, spelled out for the recording visitor: the recorded callbacks are those of the feature. -/
theorem C09_recorded {m : Mem} {v : View} {g : Geom} (h : ViewDenotes m v g) :
    ∃ t, FeatureTrace g t ∧ viewVisit m recorder v [] = .ok () t := by
  obtain ⟨t, h1, h2⟩ := behaves_view h
  exact ⟨t, h1, h2.record⟩

example : ∃ t, FeatureTrace exGeom t ∧ viewVisit exMem recorder exView [] = .ok () t :=
  C09_recorded exView_denotes

/-! ## C10 -/

/-- If visiting reports success, for whatever visitor, the node array describes exactly one geometry. Equivalently: a
node array that does not describe exactly one geometry never yields success.

Partial: "fails cleanly" is false when a multi-geometry has fewer children than announced; see
`C10_too_few_nodes_reads_outside`. -/
theorem C10_success_implies_layout_partial {σ} {m : Mem} {h : Handler σ} {v : View} {s s' : σ}
    (hv : viewVisit m h v s = .ok () s') : Layout v.nodes :=
  viewVisit_ok hv

/-- Extra nodes after one complete geometry: every visitor that accepts the callbacks of the geometry gets an `EINVAL`
after them, without `featEnd`, and nothing outside the array is read. -/
theorem C10_too_many_nodes {m : Mem} {g : Geom} {ns extra : List Node} (h : g.Denoted m ns) (he : extra ≠ []) :
    ∃ b, g.Trace b ∧ Behaves (fun _ h => viewVisit m h ⟨ns ++ extra⟩) (.featStart :: b) (.fail EINVAL) := by
  obtain ⟨t, hc, hb⟩ := behaves_node g ns [] extra ((ns ++ extra).length + 1) (ns ++ extra).length h
    (by simp; omega) (by simp only [List.length_append]; omega)
  refine ⟨t, hc, ?_⟩
  have hpos : 0 < extra.length := List.length_pos_iff.mpr he
  have hne : ((ns ++ extra).length : Int) - (ns.length : Int) ≠ 0 := by simp; omega
  simp only [List.nil_append, List.length_nil] at hb
  intro σ hd s
  simp only [viewVisit]
  have := Behaves.bind (Behaves.call .featStart) (f := fun _ _ _ => _)
    (Behaves.bind hb (f := fun _ hh n => if n ≠ 0 then M.fail EINVAL else hh .featEnd)
      (t2 := []) (o := .fail EINVAL) (by simp only [hne, ne_eq, not_false_eq_true, if_true]; exact Behaves.fail _)) σ hd s
  simpa using this

/-- A polygon that announces more rings than there are nodes is rejected before any ring is read. -/
theorem C10_polygon_too_few_rings {m : Mem} {n : Node} {rs : List Node} (hgt : n.gt = 3) (hs : rs.length < n.size) :
    Behaves (fun _ h => viewVisit m h ⟨n :: rs⟩) [.featStart, .geomStart 3 n.dims] (.fail EINVAL) := by
  have hb : Behaves (fun _ h => visitNode m h (n :: rs) ((n :: rs).length + 1) 0 (n :: rs).length)
      [.geomStart 3 n.dims] (.fail EINVAL) := by
    intro σ hd s
    have hlt : ((n :: rs).length : Int) - 1 < n.size := by simp only [List.length_cons]; omega
    simp only [visitNode, List.getElem?_cons_zero, hgt, Nat.reduceEqDiff, or_self, if_false, if_true, hlt]
    exact Behaves.bind (Behaves.call (.geomStart 3 n.dims)) (f := fun _ _ _ => M.fail EINVAL) (Behaves.fail _) σ hd s
  intro σ hd s
  simp only [viewVisit]
  exact Behaves.bind (Behaves.call .featStart) (f := fun _ _ _ => _)
    (Behaves.bind_fail hb (f := fun _ hh n => if n ≠ 0 then M.fail EINVAL else hh .featEnd)) σ hd s

/-- Defect: a multi-geometry that announces a child which is not in the array makes the visit read past the end of the
node array (the "Too few nodes" check sets a message but does not return), for every visitor that accepts the first
callbacks. -/
theorem C10_too_few_nodes_reads_outside {m : Mem} {n : Node} (hgt : 4 ≤ n.gt ∧ n.gt ≤ 7) (hs : 0 < n.size) :
    Behaves (fun _ h => viewVisit m h ⟨[n]⟩) [.featStart, .geomStart n.gt n.dims] .crash := by
  obtain ⟨k, hk⟩ : ∃ k, n.size = k + 1 := ⟨n.size - 1, by omega⟩
  have h1 : ¬ (n.gt = 1 ∨ n.gt = 2) := by omega
  have h3 : ¬ (n.gt = 3) := by omega
  have hb : Behaves (fun _ h => visitNode m h [n] ([n].length + 1) 0 [n].length)
      [.geomStart n.gt n.dims] .crash := by
    intro σ hd s
    have hch : visitChildren (visitNode m hd [n] 1) n.size 1 (([n].length : Int) - 1) = M.undef := by
      funext s'
      rw [hk]
      rfl
    simp only [visitNode, List.length_singleton, List.getElem?_cons_zero, h1, h3, hgt, and_self, if_false, if_true]
    simp only [visitNode, List.length_singleton] at hch
    rw [hch]
    exact Behaves.bind (Behaves.call (.geomStart n.gt n.dims)) (f := fun _ hh _ => (M.undef : M _ Int) >>= fun n' => do
      hh .geomEnd; pure n') (Behaves.bind_crash Behaves.undef) σ hd s
  intro σ hd s
  simp only [viewVisit]
  exact Behaves.bind (Behaves.call .featStart) (f := fun _ _ _ => _)
    (Behaves.bind_crash hb (f := fun _ hh n => if n ≠ 0 then M.fail EINVAL else hh .featEnd)) σ hd s

example : viewVisit exMem recorder ⟨[exHeadNode 4 1]⟩ [] = .ub :=
  (C10_too_few_nodes_reads_outside (by decide) (by decide) : Behaves _ _ _).record
example : viewVisit exMem recorder ⟨[exHeadNode 3 2, exSeqNode 2 3]⟩ [] = .err EINVAL [.featStart, .geomStart 3 1] :=
  (C10_polygon_too_few_rings rfl (by decide) : Behaves _ _ _).record
example : ∃ b, (Geom.point .xy [[dbl1, dbl2]]).Trace b ∧
    Behaves (fun _ h => viewVisit exMem h ⟨[exSeqNode 1 1] ++ [exSeqNode 1 1]⟩) (.featStart :: b) (.fail EINVAL) :=
  C10_too_many_nodes ⟨_, rfl, rfl, exSeq1⟩ (by simp)

/-! ## C11 -/

/-- Visiting any view at all (well-formed or not): the callbacks made and the final outcome are fixed by the view; the
visitor can only cut them short by failing, in which case its code is returned. -/
theorem C11_view_visit (m : Mem) (v : View) : ∃ t o, Behaves (fun _ h => viewVisit m h v) t o :=
  regular_view m v

/-- What `Behaves` means when a callback fails: the reader returns that very code, and the visitor's state is the one
it left, i.e. no further callback was made. Applies to every reader proved to have a fixed behaviour. -/
theorem C11_error_verbatim {α σ} {p : ∀ σ : Type, Handler σ → M σ α} {t1 t2 : List Event} {e : Event} {o : Outcome α}
    (hp : Behaves p (t1 ++ e :: t2) o) (h : Handler σ) (s s1 s2 : σ) (rc : Code)
    (hpre : feed h t1 s = .ok () s1) (he : h e s1 = .err rc s2) : p σ h s = .err rc s2 := by
  rw [hp]
  unfold replay
  rw [feed_append, hpre]
  simp [feed, he]

example : viewVisit exMem (fun e (n : Nat) => if e = .ringStart then .err 99 n else .ok () (n + 1)) exView 0 =
    .err 99 6 := by
  decide +kernel

end Verif
