import Verif.Proof.NativeAppendHistory
import Verif.Props.NativeWriter
/-!
# Properties of the writer of native arrays when it is given geometry views: C35, C36
-/
namespace Verif
open Spec

/-! ## C35 -/

theorem start_ap {g : Int} (hg : 1 ≤ g ∧ g ≤ 6) {d : Dims} {k : CoordKind} {w0 : NWriter} (h0 : NWriterStart (nativeId g d k) w0) :
    AP g d k w0 (fun _ => []) [] [] := by
  obtain ⟨h1, h2, h3⟩ := start_nw hg h0
  exact ⟨h1, fun i _ => h3 i, h2⟩

theorem appended_history {g : Int} (hg : 1 ≤ g ∧ g ≤ 6) {d : Dims} {k : CoordKind} {w0 : NWriter} (h0 : NWriterStart (nativeId g d k) w0)
    (junk : Nat → Byte) {m : Mem} (hm : m 0 = emptyPointCoords) {vs : List (Option View)} {fs : List (Option Geom)} (hf : Features m d vs fs)
    (hfs : ∀ x, some x ∈ fs → (x.appended g d).isSome) (hn : g = 1 ∨ numNodes vs ≤ 2147483647 ∧ numCoords fs ≤ 2147483647) (junk' : Nat → Byte) :
    ∃ w a w', appendAll junk m vs w0 = .ok () w ∧ nwFinish junk' w = .ok a w' ∧ Finished g d k (fs.map Option.isSome) a ∧
      ∀ (i : Nat) (f : Option Geom), fs[i]? = some f → FeatureAt g d k a i (f.bind (Geom.appended g d)) := by
  obtain ⟨w, ys, h1, h2, h3, h4⟩ := append_all hg junk hm vs fs [] [] w0 0 0 hf hfs (hn.imp id fun ⟨a, b⟩ => ⟨by omega, by omega⟩) trivial
    (fun i => by exact Nat.zero_le _) (start_ap hg h0)
  obtain ⟨a, w', h5, h6, h7⟩ := append_finish hg h2 h3 (hn.imp id fun ⟨ha, hb⟩ i => by
    have := h4 i
    split at this <;> omega) junk'
  exact ⟨w, a, w', h1, h5, h6, h7⟩

/-- C35, the array: views and nulls appended to a writer and finished give an array with one slot for each, the nulls counted, slot
`i` holding what is to be stored of view `i` (`Geom.appended`). The writer may have been used for other arrays before. The
views may be of any memory layout and byte order, of other dimensions, and of another type that fits, such as a linestring for
a writer of multilinestrings.

Missing from the full statement: numbers of coordinates and nodes above 2^31 - 1, and byte-swapped views without a dimension
of the writer (see `C05`, `C07`); `C35_too_many_vanish` is about the former. -/
theorem C35_array_partial (g : Int) (hg : 1 ≤ g ∧ g ≤ 6) (d : Dims) (k : CoordKind) (w0 : NWriter) (h0 : NWriterStart (nativeId g d k) w0)
    (junk : Nat → Byte) (m : Mem) (hm : m 0 = emptyPointCoords) (vs : List (Option View)) (fs : List (Option Geom)) (hf : Features m d vs fs)
    (hfs : ∀ x, some x ∈ fs → (x.appended g d).isSome) (hn : g = 1 ∨ numNodes vs ≤ 2147483647 ∧ numCoords fs ≤ 2147483647)
    (junk' : Nat → Byte) :
    ∃ w a w', appendAll junk m vs w0 = .ok () w ∧ nwFinish junk' w = .ok a w' ∧ a.length = (fs.length : Int) ∧ a.nullCount = (numNulls fs : Int) ∧
      ∀ (i : Nat) (f : Option Geom), fs[i]? = some f → FeatureAt g d k a i (f.bind (Geom.appended g d)) := by
  obtain ⟨w, a, w', h1, h2, h3, h4⟩ := appended_history hg h0 junk hm hf hfs hn junk'
  exact ⟨w, a, w', h1, h2, by rw [h3.length, List.length_map], by rw [h3.nulls, numNulls_eq], h4⟩

/-- C35, the whole way: every reader of the type takes the array, and visiting all of it delivers the features, in order and nulls
preserved. -/
theorem C35_round_trip_partial (g : Int) (hg : 1 ≤ g ∧ g ≤ 6) (d : Dims) (k : CoordKind) (w0 : NWriter) (h0 : NWriterStart (nativeId g d k) w0)
    (junk : Nat → Byte) (m : Mem) (hm : m 0 = emptyPointCoords) (vs : List (Option View)) (fs : List (Option Geom)) (hf : Features m d vs fs)
    (hfs : ∀ x, some x ∈ fs → (x.appended g d).isSome) (hn : g = 1 ∨ numNodes vs ≤ 2147483647 ∧ numCoords fs ≤ 2147483647)
    (junk' : Nat → Byte) :
    ∃ w a w', appendAll junk m vs w0 = .ok () w ∧ nwFinish junk' w = .ok a w' ∧
      ∀ (r0 : AReader) (parse : List Byte → Option Dbl), ReaderOf (nativeId g d k) r0 → ∃ r, arrayReaderSetArray a r0 = .ok () r ∧
        ∃ t', FeaturesTrace (fs.map fun f => f.bind (Geom.appended g d)) t' ∧ Behaves (fun _ h => arrayReaderVisit h parse r 0 fs.length) t' (.done ()) := by
  obtain ⟨w, a, w', h1, h2, h3, h4⟩ := appended_history hg h0 junk hm hf hfs hn junk'
  refine ⟨w, a, w', h1, h2, fun r0 parse hro => ?_⟩
  obtain ⟨r, hs⟩ := finished_read hg h3 hro
  refine ⟨r, hs, ?_⟩
  have := C38_reader g d k hg r0 r hro a hs r.wkt r.wkb 0 (fs.map fun f => f.bind (Geom.appended g d)) (fun t f hf => by
    rw [List.getElem?_map] at hf
    obtain ⟨f', h5, rfl⟩ := Option.map_eq_some_iff.mp hf
    rw [Nat.zero_add]
    exact h4 t f' h5) parse
  rw [List.length_map] at this
  exact this

theorem coordsAs_own {d : Dims} {cs : List Coord} (h : ∀ c ∈ cs, c.length = d.n) : (cs.map (d, ·)).map (fun c : Dims × Coord => mapCoord c.1 d c.2) = cs := by
  rw [List.map_map]
  exact map_mapCoord_self h

/-- Members are stored as they are. -/
theorem members_same {d : Dims} {kd : MultiKind} {ps : List Geom} (hw : Geom.WFL ps) (hx : Geom.NoEmptyPartsL d ps) :
    (kd = .multipoint → (∀ p ∈ ps, ∃ s cs, p = .point s cs ∧ cs.length ≤ 1) →
      ps = (((Geom.allCoordsL ps).map fun c => mapCoord c.1 d c.2).map fun c => Geom.point d [c])) ∧
    (kd = .multilinestring → (∀ p ∈ ps, ∃ s cs, p = .linestring s cs) → ps = (ps.map (Geom.coordsAs d)).map (.linestring d)) ∧
    (kd = .multipolygon → (∀ p ∈ ps, ∃ s rs, p = .polygon s rs) → ps = (ps.map (Geom.ringsAs d)).map (.polygon d)) := by
  induction ps with
  | nil => exact ⟨fun _ _ => rfl, fun _ _ => rfl, fun _ _ => rfl⟩
  | cons p ps ih =>
    obtain ⟨h1, h2, h3⟩ := hx
    obtain ⟨i1, i2, i3⟩ := ih hw.2 h3
    refine ⟨fun e hp => ?_, fun e hp => ?_, fun e hp => ?_⟩
    · obtain ⟨s, cs, rfl, hl⟩ := hp p (by simp)
      obtain ⟨rfl, hne⟩ := h2
      match cs, hne, hl, hw.1 with
      | [c], _, _, hc =>
        show _ = ((((s, c) :: Geom.allCoordsL ps).map _).map _)
        rw [List.map_cons, List.map_cons, ← i1 e fun q hq => hp q (by simp [hq])]
        have := map_mapCoord_self (d := s) (cs := [c]) hc
        rw [List.map_singleton] at this
        rw [List.cons.inj this |>.1]
      | _ :: _ :: _, _, h, _ => exact absurd h (by simp)
    · obtain ⟨s, cs, rfl⟩ := hp p (by simp)
      obtain rfl : s = d := h2
      rw [List.map_cons, List.map_cons, ← i2 e fun q hq => hp q (by simp [hq])]
      exact congrArg (· :: ps) (congrArg _ (coordsAs_own hw.1).symm)
    · obtain ⟨s, rs, rfl⟩ := hp p (by simp)
      obtain ⟨rfl, hne⟩ := h2
      rw [List.map_cons, List.map_cons, ← i3 e fun q hq => hp q (by simp [hq])]
      refine congrArg (· :: ps) (congrArg _ ?_)
      show rs = rs.map _
      conv => lhs; rw [← List.map_id rs]
      exact List.map_congr_left fun r hr => (map_mapCoord_self fun c hc => hw.1 r hr c hc).symm

theorem noParts {d : Dims} {ps : List Geom} (hx : Geom.NoEmptyPartsL d ps) (he : Geom.allCoordsL ps = []) : ps = [] := by
  cases ps with
  | nil => rfl
  | cons p ps => exact absurd (List.append_eq_nil_iff.mp he).1 hx.1

/-- C35 for geometries of the type and dimensions of the writer and without empty parts: they are stored as they are. -/
theorem C35_same (g : Int) (d : Dims) (x : Geom) (ht : HasType g x) (hw : x.WF) (hx : x.NoEmptyParts d) : x.appended g d = some x := by
  unfold Geom.appended
  unfold HasType at ht
  split at ht
  · obtain ⟨rfl, hne⟩ := hx
    rename_i cs
    match cs, hne, ht with
    | [c], _, _ =>
      rw [if_neg (by simp [Geom.allCoords]), if_pos rfl, if_pos (by rfl)]
      exact congrArg _ (congrArg _ (coordsAs_own hw))
    | _ :: _ :: _, _, h => exact absurd h (by simp)
  · obtain rfl : _ = d := hx
    rename_i s cs
    by_cases he : cs = []
    · subst he
      rfl
    · rw [if_neg (by simpa [Geom.allCoords] using he), if_neg (by decide), if_pos rfl]
      exact congrArg _ (congrArg _ (map_mapCoord_self hw))
  · obtain ⟨rfl, hne⟩ := hx
    rename_i s rs
    by_cases he : rs = []
    · subst he
      rfl
    · have hf : rs.flatten ≠ [] := by
        match rs, he with
        | r :: rs, _ =>
          intro h
          exact hne r (by simp) (List.append_eq_nil_iff.mp (by rwa [List.flatten_cons] at h)).1
      rw [if_neg (by show ¬ (List.map _ rs.flatten).isEmpty = true; simpa using hf), if_neg (by decide), if_neg (by decide), if_pos rfl]
      refine congrArg some (congrArg (Geom.polygon s) ?_)
      show rs.map _ = rs
      conv => rhs; rw [← List.map_id rs]
      exact List.map_congr_left fun r hr => map_mapCoord_self fun c hc => hw r hr c hc
  · obtain ⟨rfl, hp⟩ := hx
    rename_i s ps
    by_cases he : Geom.allCoordsL ps = []
    · rw [noParts hp he]
      rfl
    · rw [if_neg (by rw [List.isEmpty_iff]; exact he), if_neg (by decide), if_neg (by decide), if_neg (by decide), if_pos rfl]
      exact congrArg _ (congrArg _ ((members_same (kd := .multipoint) hw hp).1 rfl ht).symm)
  · obtain ⟨rfl, hp⟩ := hx
    rename_i s ps
    by_cases he : Geom.allCoordsL ps = []
    · rw [noParts hp he]
      rfl
    · rw [if_neg (by rw [List.isEmpty_iff]; exact he), if_neg (by decide), if_neg (by decide), if_neg (by decide), if_neg (by decide), if_pos rfl]
      exact congrArg _ (congrArg _ ((members_same (kd := .multilinestring) hw hp).2.1 rfl ht).symm)
  · obtain ⟨rfl, hp⟩ := hx
    rename_i s ps
    by_cases he : Geom.allCoordsL ps = []
    · rw [noParts hp he]
      rfl
    · rw [if_neg (by rw [List.isEmpty_iff]; exact he), if_neg (by decide), if_neg (by decide), if_neg (by decide), if_neg (by decide), if_neg (by decide), if_pos rfl]
      exact congrArg _ (congrArg _ ((members_same (kd := .multipolygon) hw hp).2.2 rfl ht).symm)
  · exact ht.elim

/-- Appending a polygon, a null, an empty collection and a multipolygon of one member to a writer of polygons. -/
def exAppendViews : List (Option View) :=
  [some ⟨[exHeadNode 3 1, exSeqNode 2 3]⟩, none, some ⟨[exHeadNode 7 0]⟩, some ⟨[exHeadNode 6 1, exHeadNode 3 2, exSeqNode 2 1, exSeqNode 2 0]⟩]

def exAppendGeoms : List (Option Geom) :=
  [some (.polygon .xy [exCoords]), none, some (.multi .collection .xy []), some (.multi .multipolygon .xy [.polygon .xy [[[dbl1, dbl2]], []]])]

theorem exSeq (n : Nat) (hn : n ≤ 3) : SeqDenotes exMem (exSeqNode 2 n) .xy (exCoords.take n) := by
  have h : n = 0 ∨ n = 1 ∨ n = 2 ∨ n = 3 := by omega
  rcases h with rfl | rfl | rfl | rfl <;>
    exact seqDenotes_of_check rfl rfl (by decide) (by decide +kernel) (by intro i hi j hj; revert j; revert i; decide +kernel)

theorem exAppend_features (d : Dims) (hd : d = .xy) : Features exMem d exAppendViews exAppendGeoms := by
  subst hd
  have hs : ∀ vs : List Node, (∀ n ∈ vs, n.dims = 1) → ∀ n ∈ vs, n.swap = true → ∀ s : Dims, n.dims = s.code → ∀ a ∈ Dims.axes .xy, a ∈ Dims.axes s := by
    intro vs h n hn _ s hs a ha
    have : s = .xy := by
      have h1 := h n hn
      rw [hs] at h1
      cases s <;> simp [Dims.code] at h1 ⊢
    subst this
    exact ha
  refine ⟨⟨⟨_, _, rfl, rfl, rfl, rfl, by decide, _, _, rfl, rfl, exSeq 3 (by decide), rfl⟩, trivial, hs _ (by decide)⟩, ?_⟩
  refine ⟨⟨⟨_, _, rfl, rfl, rfl, rfl, by decide, rfl⟩, trivial, hs _ (by decide)⟩, ?_⟩
  refine ⟨⟨⟨_, _, rfl, rfl, rfl, rfl, by decide, ?_⟩, ⟨trivial, trivial, trivial⟩, hs _ (by decide)⟩, trivial⟩
  refine ⟨[exHeadNode 3 2, exSeqNode 2 1, exSeqNode 2 0], [], rfl, ⟨_, _, rfl, rfl, rfl, rfl, by decide, ?_⟩, rfl⟩
  exact ⟨_, _, rfl, rfl, exSeq 1 (by decide), _, _, rfl, rfl, exSeq 0 (by decide), rfl⟩

example : ∃ w0 w a w', NWriterStart (nativeId 3 .xy .separate) w0 ∧ appendAll (fun _ => 0) exMem exAppendViews w0 = .ok () w ∧
    nwFinish (fun _ => 0) w = .ok a w' ∧ a.length = 4 ∧ a.nullCount = 1 ∧ FeatureAt 3 .xy .separate a 0 (some (.polygon .xy [exCoords])) ∧
    FeatureAt 3 .xy .separate a 1 none ∧ FeatureAt 3 .xy .separate a 2 (some (.polygon .xy [])) ∧
    FeatureAt 3 .xy .separate a 3 (some (.polygon .xy [[[dbl1, dbl2]], []])) := by
  obtain ⟨w0, h0, -⟩ := nwriter_exists (g := 3) (by omega) .xy .separate (fun _ => 0)
  obtain ⟨w, a, w', h1, h2, h3, h4, h5⟩ := C35_array_partial 3 (by omega) .xy .separate w0 h0 (fun _ => 0) exMem rfl _ _ (exAppend_features .xy rfl)
    (by
      intro x hx
      simp only [exAppendGeoms, List.mem_cons, Option.some.injEq, reduceCtorEq, List.not_mem_nil, or_false, false_or] at hx
      rcases hx with rfl | rfl | rfl <;> rfl)
    (.inr ⟨by decide, by decide⟩) (fun _ => 0)
  exact ⟨w0, w, a, w', h0, h1, h2, h3, h4, h5 0 _ rfl, h5 1 _ rfl, h5 2 _ rfl, h5 3 _ rfl⟩

/-! What happens with too many coordinates. -/

/-- `n` times the coordinates (1 2), in 16 bytes. -/
def sameNode (n : Nat) : Node :=
  { coords := ⟨⟨1, 0⟩, ⟨1, 8⟩, ⟨1, 0⟩, ⟨1, 0⟩⟩, stride := ⟨0, 0, 0, 0⟩, size := n, gt := 2, dims := 1, swap := true, level := 1 }

theorem sameNode_denotes (n : Nat) (hn : n < 2 ^ 32) : SeqDenotes exMem (sameNode n) .xy (List.replicate n [dbl1, dbl2]) := by
  refine ⟨rfl, List.length_replicate.symm, by rw [List.length_replicate]; exact hn, fun c hc => by rw [List.eq_of_mem_replicate hc]; rfl, ?_⟩
  intro i j c v hc hv
  have : c = [dbl1, dbl2] := List.eq_of_mem_replicate (List.mem_of_getElem? hc)
  subst this
  have hj : j = 0 ∨ j = 1 := by
    have := (List.getElem?_eq_some_iff.mp hv).1
    simp at this
    omega
  rcases hj with rfl | rfl
  · have : ordinate exMem (sameNode n) i 0 = ordinate exMem (sameNode 1) 0 0 := by
      unfold ordinate sameNode
      simp [Quad.get]
    rw [this, ← hv]
    decide +kernel
  · have : ordinate exMem (sameNode n) i 1 = ordinate exMem (sameNode 1) 0 1 := by
      unfold ordinate sameNode
      simp [Quad.get]
    rw [this, ← hv]
    decide +kernel

theorem append_none {v : View} (h : viewNumCoords v = 0) (junk : Nat → Byte) (m : Mem) (w : NWriter) :
    nwAppend junk m v w = (nwAppendEmpty junk >>= fun _ => nwAppendValidity junk true) w := by
  unfold nwAppend
  rw [M.bind_run, M.get_run]
  dsimp only
  rw [h, if_pos rfl]

/-- What is missing from C35: coordinates are counted in 32 bits. A multilinestring of two linestrings of 2^31 coordinates each is
accepted by a writer of multilinestrings, and stored as an empty one. -/
theorem C35_too_many_vanish : ∃ (v : View) (x : Geom) (w0 w : NWriter) (a : AArray) (w' : NWriter), Readable exMem .xy v x ∧ HasType 5 x ∧
    x.allCoords.length = 2 ^ 32 ∧ NWriterStart (nativeId 5 .xy .separate) w0 ∧ nwAppend (fun _ => 0) exMem v w0 = .ok () w ∧
    nwFinish (fun _ => 0) w = .ok a w' ∧ a.length = 1 ∧ FeatureAt 5 .xy .separate a 0 (some (.multi .multilinestring .xy [])) := by
  obtain ⟨w0, h0, -⟩ := nwriter_exists (g := 5) (by omega) .xy .separate (fun _ => 0)
  let l : Geom := .linestring .xy (List.replicate (2 ^ 31) [dbl1, dbl2])
  obtain ⟨w, h1, h2⟩ := append_ap (v := ⟨[exHeadNode 5 0]⟩) (x := .multi .multilinestring .xy []) (y := .multi .multilinestring .xy [])
    (by omega) (start_ap (by omega) h0) (fun _ => 0) (m := exMem) rfl
    ⟨⟨_, _, rfl, rfl, rfl, rfl, by decide, rfl⟩, trivial, (by intro n hn hs; cases List.mem_singleton.mp hn; cases hs)⟩ rfl (by decide) (fun i => by
      match i with
      | 0 => decide
      | 1 => decide
      | 2 => decide
      | _ + 3 => exact Nat.zero_le _)
  have he : nwAppend (fun _ => 0) exMem ⟨[exHeadNode 5 2, sameNode (2 ^ 31), sameNode (2 ^ 31)]⟩ w0 = nwAppend (fun _ => 0) exMem ⟨[exHeadNode 5 0]⟩ w0 := by
    rw [append_none (show viewNumCoords ⟨[exHeadNode 5 2, sameNode (2 ^ 31), sameNode (2 ^ 31)]⟩ = 0 by decide +kernel),
      append_none (show viewNumCoords ⟨[exHeadNode 5 0]⟩ = 0 by decide +kernel)]
  obtain ⟨a, w', h3, h4, h5⟩ := append_finish (g := 5) (d := .xy) (k := .separate) (w := w) (fs := [some (.multi .multilinestring .xy [])]) (ys := [.multi .multilinestring .xy []]) (by omega)
    ⟨rfl, trivial⟩ (by simp only [List.flatMap_singleton]; exact h2) (.inr fun i => by
      match i with
      | 0 => decide
      | 1 => decide
      | 2 => decide
      | _ + 3 => exact Nat.zero_le _) (fun _ => 0)
  refine ⟨⟨[exHeadNode 5 2, sameNode (2 ^ 31), sameNode (2 ^ 31)]⟩, .multi .multilinestring .xy [l, l], w0, w, a, w', ⟨?_, ?_, ?_⟩, ?_, ?_, h0, he.trans h1, h3,
    h4.length, h5 0 _ rfl⟩
  · refine ⟨_, _, rfl, rfl, rfl, rfl, by decide, [sameNode (2 ^ 31)], [sameNode (2 ^ 31)], rfl, ⟨_, rfl, rfl, sameNode_denotes _ (by decide)⟩,
      [sameNode (2 ^ 31)], [], rfl, ⟨_, rfl, rfl, sameNode_denotes _ (by decide)⟩, rfl⟩
  · exact ⟨trivial, trivial, trivial, trivial, trivial⟩
  · intro n hn _ s hs a ha
    have : n.dims = 1 := by
      simp only [List.mem_cons, List.not_mem_nil, or_false] at hn
      rcases hn with rfl | rfl | rfl <;> rfl
    have : s = .xy := by
      rw [hs] at this
      cases s <;> simp [Dims.code] at this ⊢
    subst this
    exact ha
  · intro p hp
    simp only [List.mem_cons, List.not_mem_nil, or_false, or_self] at hp
    exact ⟨_, _, hp⟩
  · show (List.map _ _ ++ (List.map _ _ ++ [])).length = _
    rw [List.append_nil, List.length_append, List.length_map, List.length_replicate]

/-! ## C36 -/

/-- C36: a geometry that cannot be represented in the type of the writer is refused with `EINVAL`, and the writer, whatever was done
with it before, is the same as before: every array finished later is as if the call had not been made. -/
theorem C36_rejected_partial (g : Int) (hg : 1 ≤ g ∧ g ≤ 6) (d : Dims) (k : CoordKind) (w : NWriter) (h : NWriterOf (nativeId g d k) w)
    (junk : Nat → Byte) (m : Mem) (v : View) (x : Geom) (hv : ViewDenotes m v x) (ht : x.Typed) (hx : x.appended g d = none)
    (hn : x.allCoords.length < 2 ^ 32) : nwAppend junk m v w = .err EINVAL w := by
  obtain ⟨b0, hb, hs⟩ := nwriterOf_same h
  have hgt : w.builder.schema.geometryType = g := ((init_native hg hb).of_same hs).geometry
  exact append_rejected hgt hg junk hv ht hx hn

/-- C36, the other way round: after any views and nulls that were accepted, another view is refused only if its geometry cannot be
represented. -/
theorem C36_only_these_partial (g : Int) (hg : 1 ≤ g ∧ g ≤ 6) (d : Dims) (k : CoordKind) (w0 w : NWriter) (h0 : NWriterStart (nativeId g d k) w0)
    (junk : Nat → Byte) (m : Mem) (hm : m 0 = emptyPointCoords) (vs : List (Option View)) (fs : List (Option Geom)) (hf : Features m d vs fs)
    (hfs : ∀ x, some x ∈ fs → (x.appended g d).isSome) (hw : appendAll junk m vs w0 = .ok () w) (v : View) (x : Geom) (hv : Readable m d v x)
    (hn : x.allCoords.length < 2 ^ 32 ∧ (g = 1 ∨ numNodes vs + v.nodes.length ≤ 2147483647 ∧ numCoords fs + x.allCoords.length ≤ 2147483647)) :
    (∃ w', nwAppend junk m v w = .ok () w') ↔ x.appended g d ≠ none := by
  obtain ⟨w1, ys, h1, h2, h3, h4⟩ := append_all hg junk hm vs fs [] [] w0 0 0 hf hfs (hn.2.imp id fun ⟨a, b⟩ => ⟨by omega, by omega⟩) trivial
    (fun i => by exact Nat.zero_le _) (start_ap hg h0)
  rw [hw] at h1
  cases h1
  constructor
  · rintro ⟨w', e⟩ hx
    rw [append_rejected h3.nw.built.native.geometry hg junk hv.1 hv.2.1 hx hn.1] at e
    cases e
  · intro hx
    obtain ⟨y, hy⟩ := Option.ne_none_iff_exists'.mp hx
    obtain ⟨w', e, -⟩ := append_ap hg h3 junk hm hv hy hn.1 (fun i => by
      rcases hn.2 with rfl | hb
      · have hnil : ∀ f y, StoredIn 1 d f y → offsIn y i = [] := by
          intro f y hf
          rcases stored_shape hg hf with ⟨-, c, rfl⟩ | ⟨h, -⟩ | ⟨h, -⟩ | ⟨h, -⟩ | ⟨h, -⟩ | ⟨h, -⟩
          · rfl
          all_goals omega
        have : ∀ y ∈ ys, offsIn y i = [] := by
          intro y hy
          obtain ⟨t, ht⟩ := List.mem_iff_getElem?.mp hy
          obtain ⟨f, -, hf⟩ := h2.get' ht
          exact hnil f y hf
        rw [List.flatMap_eq_nil_iff.mpr this, hnil (some x) y hy]
        decide
      · have h1 := h4 i
        have h2 := offs_le hg hv.1 hv.2.1 hy i
        split at h1 <;> rename_i hi
        · rw [if_pos hi] at h2; omega
        · rw [if_neg hi] at h2; omega)
    exact ⟨w', e⟩

/-- A polygon is refused by a writer of multilinestrings in the middle of other views. -/
example : ∃ w0 w, NWriterStart (nativeId 5 .xy .interleaved) w0 ∧ appendAll (fun _ => 0) exMem [some ⟨[exSeqNode 2 3]⟩, none] w0 = .ok () w ∧
    nwAppend (fun _ => 0) exMem ⟨[exHeadNode 3 1, exSeqNode 2 3]⟩ w = .err EINVAL w := by
  obtain ⟨w0, h0, -⟩ := nwriter_exists (g := 5) (by omega) .xy .interleaved (fun _ => 0)
  have hs : ∀ vs : List Node, (∀ n ∈ vs, n.dims = 1) → ∀ n ∈ vs, n.swap = true → ∀ s : Dims, n.dims = s.code → ∀ a ∈ Dims.axes .xy, a ∈ Dims.axes s := by
    intro vs h n hn _ s hs a ha
    have : s = .xy := by
      have h1 := h n hn
      rw [hs] at h1
      cases s <;> simp [Dims.code] at h1 ⊢
    subst this
    exact ha
  obtain ⟨w, a, w', h1, -⟩ := C35_array_partial 5 (by omega) .xy .interleaved w0 h0 (fun _ => 0) exMem rfl [some ⟨[exSeqNode 2 3]⟩, none]
    [some (.linestring .xy exCoords), none] ⟨⟨⟨_, rfl, rfl, exSeq 3 (by decide)⟩, trivial, hs _ (by decide)⟩, trivial⟩
    (by
      intro x hx
      simp only [List.mem_cons, Option.some.injEq, reduceCtorEq, List.not_mem_nil, or_false] at hx
      subst hx
      rfl) (.inr ⟨by decide, by decide⟩) (fun _ => 0)
  refine ⟨w0, w, h0, h1, C36_rejected_partial 5 (by omega) .xy .interleaved w ?_ _ _ _ (.polygon .xy [exCoords])
    ⟨_, _, rfl, rfl, rfl, rfl, by decide, _, _, rfl, rfl, exSeq 3 (by decide), rfl⟩ trivial rfl (by decide)⟩
  have key : ∀ (vs : List (Option View)) (w0 w : NWriter), NWriterOf (nativeId 5 .xy .interleaved) w0 → appendAll (fun _ => 0) exMem vs w0 = .ok () w →
      NWriterOf (nativeId 5 .xy .interleaved) w := by
    intro vs
    induction vs with
    | nil => intro w0 w h e; cases e; exact h
    | cons v vs ih =>
      intro w0 w h e
      cases v with
      | none =>
        obtain ⟨_, w1, e1, e2⟩ := M.bind_eq_ok.mp (show (nwAppendNull (fun _ => 0) >>= fun _ => appendAll (fun _ => 0) exMem vs) w0 = _ from e)
        exact ih w1 w (.appendNull h (by rw [e1]; rfl)) e2
      | some v =>
        obtain ⟨_, w1, e1, e2⟩ := M.bind_eq_ok.mp (show (nwAppend (fun _ => 0) exMem v >>= fun _ => appendAll (fun _ => 0) exMem vs) w0 = _ from e)
        exact ih w1 w (.append h (by rw [e1]; rfl)) e2
  refine key _ w0 w ?_ h1
  cases h0 with
  | init h => exact .init h
  | finish h e => exact .finish h (by rw [e]; rfl)

/-- What is missing from C36: a polygon with a ring of 2^31 coordinates is refused with `EOVERFLOW`, but offsets were already written.
After it POLYGON ((1 2, 3 4, 1 2)) is appended, and the array can no longer be finished. -/
theorem C36_too_long_ring_leaks : ∃ (v : View) (x : Geom) (w0 w1 w2 w3 : NWriter), ViewDenotes exMem v x ∧ HasType 3 x ∧
    NWriterStart (nativeId 3 .xy .separate) w0 ∧ nwAppend (fun _ => 0) exMem v w0 = .err EOVERFLOW w1 ∧
    nwAppend (fun _ => 0) exMem ⟨[exHeadNode 3 1, exSeqNode 2 3]⟩ w1 = .ok () w2 ∧ nwFinish (fun _ => 0) w2 = .err EINVAL w3 := by
  have hr : (match nwInit (fun _ => 0) (nativeId 3 .xy .separate) with
    | .error _ => false
    | .ok w0 => match nwAppend (fun _ => 0) exMem ⟨[exHeadNode 3 2, exSeqNode 2 1, sameNode (2 ^ 31)]⟩ w0 with
      | .err rc w1 => rc == EOVERFLOW && (match nwAppend (fun _ => 0) exMem ⟨[exHeadNode 3 1, exSeqNode 2 3]⟩ w1 with
        | .ok _ w2 => (match nwFinish (fun _ => 0) w2 with
          | .err rc _ => rc == EINVAL
          | _ => false)
        | _ => false)
      | _ => false) = true := by decide +kernel
  split at hr
  · cases hr
  rename_i w0 h0
  split at hr
  · rename_i rc w1 h1
    rw [Bool.and_eq_true, beq_iff_eq] at hr
    obtain ⟨rfl, hr⟩ := hr
    split at hr
    · rename_i u w2 h2
      split at hr
      · rename_i rc w3 h3
        rw [beq_iff_eq] at hr
        subst hr
        exact ⟨_, .polygon .xy [[[dbl1, dbl2]], List.replicate (2 ^ 31) [dbl1, dbl2]], w0, w1, w2, w3,
          ⟨_, _, rfl, rfl, rfl, rfl, by decide, _, _, rfl, rfl, exSeq 1 (by decide), _, _, rfl, rfl, sameNode_denotes _ (by decide), rfl⟩, trivial,
          .init h0, h1, h2, h3⟩
      · cases hr
    · cases hr
  · cases hr

end Verif
