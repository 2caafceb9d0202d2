import Verif.Spec.CppWkbArray
import Verif.Props.CppArray
import Verif.Props.WkbParser
/-! Visiting parsed WKB. -/
namespace Verif
open Spec

theorem cppDimsT_code (d : Dims) : cppDimsT d.code = some d.cppT := by cases d <;> rfl

theorem mapM_cast (src dst : Dims) : ∀ (cs : List Coord), (∀ c ∈ cs, c.length = src.n) →
    cs.mapM (cppCast src.cppT dst.cppT) = some (cs.map (mapCoord src dst))
  | [], _ => rfl
  | c :: cs, h => by
    simp only [List.mapM_cons, C59_coord_cast src dst c (h c (by simp)), mapM_cast src dst cs (fun c hc => h c (by simp [hc])),
      List.map_cons]
    rfl

theorem seqVerticesAs_run {blob : List Byte} {d dst : Dims} {cs : List Coord} {q : CppSeq} (hd : q.dims = d.code)
    (h : cppSeqVertices blob q = some cs) (hc : ∀ c ∈ cs, c.length = d.n) :
    cppSeqVerticesAs blob dst.cppT q = some (cs.map (mapCoord d dst)) := by
  simp only [cppSeqVerticesAs, hd, cppDimsT_code, h, Option.bind_eq_bind, Option.bind_some, mapM_cast d dst cs hc]

theorem seqEdgesAs_run {blob : List Byte} {d dst : Dims} {cs : List Coord} {q : CppSeq} (hd : q.dims = d.code)
    (hl : q.length = cs.length) (h : cppSeqVertices blob q = some cs) (hc : ∀ c ∈ cs, c.length = d.n) :
    cppSeqEdgesAs blob dst.cppT q = some (pairs (cs.map (mapCoord d dst))) := by
  unfold cppSeqEdgesAs
  split
  · rename_i h2
    rw [hd, cppDimsT_code]
    match cs, hl with
    | [], _ => rfl
    | [_], _ => rfl
    | _ :: _ :: _, hl => simp at hl; omega
  · rw [seqVerticesAs_run hd h hc]
    cases cs.map (mapCoord d dst) with
    | nil => rfl
    | cons c cs =>
      simp only [Option.bind_eq_bind, Option.bind_some, edgeLoop_pairs]
      rfl

theorem seqsVertices_run {blob : List Byte} {d dst : Dims} : ∀ (css : List (List Coord)) (qs : List CppSeq),
    SeqsHold blob d css qs → (∀ cs ∈ css, ∀ c ∈ cs, c.length = d.n) →
    qs.mapM (cppSeqVerticesAs blob dst.cppT) = some (css.map fun cs => cs.map (mapCoord d dst))
  | [], qs, h, _ => by cases h; rfl
  | cs :: css, qs, h, hc => by
    obtain ⟨q, qs', rfl, h1, h2, h3, h4⟩ := h
    simp only [List.mapM_cons, seqVerticesAs_run h1 h3 (hc cs (by simp)),
      seqsVertices_run css qs' h4 (fun cs h => hc cs (by simp [h]))]
    rfl

theorem seqsEdges_run {blob : List Byte} {d dst : Dims} : ∀ (css : List (List Coord)) (qs : List CppSeq),
    SeqsHold blob d css qs → (∀ cs ∈ css, ∀ c ∈ cs, c.length = d.n) →
    qs.mapM (cppSeqEdgesAs blob dst.cppT) = some (css.map fun cs => pairs (cs.map (mapCoord d dst)))
  | [], qs, h, _ => by cases h; rfl
  | cs :: css, qs, h, hc => by
    obtain ⟨q, qs', rfl, h1, h2, h3, h4⟩ := h
    simp only [List.mapM_cons, seqEdgesAs_run h1 h2 h3 (hc cs (by simp)),
      seqsEdges_run css qs' h4 (fun cs h => hc cs (by simp [h]))]
    rfl

mutual
theorem geomVertices_run {blob : List Byte} {dst : Dims} : ∀ (g : Geom) (t : CppGeom), Tokens blob g t → g.WF →
    cppGeomVertices blob dst.cppT t = some (g.verticesAs dst)
  | .point d cs, .mk _ _ _ qs gs, h, hw => by
    obtain ⟨_, _, rfl, h⟩ := h
    rw [cppGeomVertices, seqsVertices_run _ _ h (by simpa [Geom.WF] using hw)]
    simp [cppGeomVerticesL, Geom.verticesAs, Geom.allCoords]
  | .linestring d cs, .mk _ _ _ qs gs, h, hw => by
    obtain ⟨_, _, rfl, h⟩ := h
    rw [cppGeomVertices, seqsVertices_run _ _ h (by simpa [Geom.WF] using hw)]
    simp [cppGeomVerticesL, Geom.verticesAs, Geom.allCoords]
  | .polygon d rs, .mk _ _ _ qs gs, h, hw => by
    obtain ⟨_, _, rfl, h⟩ := h
    rw [cppGeomVertices, seqsVertices_run _ _ h (by simpa [Geom.WF] using hw)]
    simp [cppGeomVerticesL, Geom.verticesAs, Geom.allCoords, Function.comp_def]
  | .multi k d ps, .mk _ _ _ qs gs, h, hw => by
    obtain ⟨_, _, rfl, h⟩ := h
    rw [cppGeomVertices, geomVerticesL_run ps gs h hw]
    simp [Geom.verticesAs, Geom.allCoords]
theorem geomVerticesL_run {blob : List Byte} {dst : Dims} : ∀ (gs : List Geom) (ts : List CppGeom), TokensL blob gs ts →
    Geom.WFL gs → cppGeomVerticesL blob dst.cppT ts = some ((Geom.allCoordsL gs).map fun c => mapCoord c.1 dst c.2)
  | [], ts, h, _ => by cases h; rfl
  | g :: gs, ts, h, hw => by
    obtain ⟨t, ts', rfl, h1, h2⟩ := h
    rw [cppGeomVerticesL, geomVertices_run g t h1 hw.1, geomVerticesL_run gs ts' h2 hw.2]
    simp [Geom.verticesAs, Geom.allCoordsL]
end

mutual
theorem geomEdges_run {blob : List Byte} {dst : Dims} : ∀ (g : Geom) (t : CppGeom), Tokens blob g t → g.WF →
    cppGeomEdges blob dst.cppT t = some (g.edgesAs dst)
  | .point d cs, .mk gt _ _ qs gs, h, hw => by
    have hv := geomVertices_run (dst := dst) _ _ h hw
    obtain ⟨rfl, _, rfl, h⟩ := h
    rw [cppGeomEdges, if_pos (Or.inl rfl), hv]
    simp [Geom.verticesAs, Geom.allCoords, Geom.edgesAs]
  | .linestring d cs, .mk gt _ _ qs gs, h, hw => by
    obtain ⟨rfl, _, rfl, h⟩ := h
    rw [cppGeomEdges, if_neg (by decide), seqsEdges_run _ _ h (by simpa [Geom.WF] using hw)]
    simp [cppGeomEdgesL, Geom.edgesAs]
  | .polygon d rs, .mk gt _ _ qs gs, h, hw => by
    obtain ⟨rfl, _, rfl, h⟩ := h
    rw [cppGeomEdges, if_neg (by decide), seqsEdges_run _ _ h (by simpa [Geom.WF] using hw)]
    simp [cppGeomEdgesL, Geom.edgesAs, List.flatMap_def]
  | .multi .multipoint d ps, .mk gt _ _ qs gs, h, hw => by
    have hv := geomVertices_run (dst := dst) _ _ h hw
    obtain ⟨rfl, _, rfl, h⟩ := h
    rw [cppGeomEdges, if_pos (by decide), hv]
    simp [Geom.verticesAs, Geom.allCoords, Geom.edgesAs]
  | .multi .multilinestring d ps, .mk gt _ _ qs gs, h, hw => by
    obtain ⟨rfl, _, rfl, h⟩ := h
    rw [cppGeomEdges, if_neg (by decide), geomEdgesL_run ps gs h hw]
    simp [Geom.edgesAs]
  | .multi .multipolygon d ps, .mk gt _ _ qs gs, h, hw => by
    obtain ⟨rfl, _, rfl, h⟩ := h
    rw [cppGeomEdges, if_neg (by decide), geomEdgesL_run ps gs h hw]
    simp [Geom.edgesAs]
  | .multi .collection d ps, .mk gt _ _ qs gs, h, hw => by
    obtain ⟨rfl, _, rfl, h⟩ := h
    rw [cppGeomEdges, if_neg (by decide), geomEdgesL_run ps gs h hw]
    simp [Geom.edgesAs]
theorem geomEdgesL_run {blob : List Byte} {dst : Dims} : ∀ (gs : List Geom) (ts : List CppGeom), TokensL blob gs ts →
    Geom.WFL gs → cppGeomEdgesL blob dst.cppT ts = some (Geom.edgesAsL dst gs)
  | [], ts, h, _ => by cases h; rfl
  | g :: gs, ts, h, hw => by
    obtain ⟨t, ts', rfl, h1, h2⟩ := h
    rw [cppGeomEdgesL, geomEdges_run g t h1 hw.1, geomEdgesL_run gs ts' h2 hw.2]
    simp [Geom.edgesAsL]
end

mutual
/-- Encoded geometries have coordinates of the right size. -/
theorem enc_wf : ∀ (g : Geom) (b : List Byte), WkbEnc g b → g.WF
  | .point d cs, b, h => by
    obtain ⟨_, _, c, rfl, h, _⟩ := h
    simpa [Geom.WF] using h
  | .linestring d cs, b, h => by
    obtain ⟨_, _, _, h, _⟩ := h
    simpa [Geom.WF] using h
  | .polygon d rs, b, h => by
    obtain ⟨_, _, _, h, _⟩ := h
    simp only [Geom.WF]
    exact fun r hr => (h r hr).2
  | .multi k d ps, b, h => by
    obtain ⟨_, _, b', _, _, h, _⟩ := h
    exact enc_wfL ps b' h
theorem enc_wfL : ∀ (gs : List Geom) (b : List Byte), WkbEncL gs b → Geom.WFL gs
  | [], _, _ => trivial
  | g :: gs, b, h => by
    obtain ⟨b1, b2, h1, h2, _⟩ := h
    exact ⟨enc_wf g b1 h1, enc_wfL gs b2 h2⟩
end

theorem blob_some {a : CppBlobs} {i : Nat} {bs : List Byte} (ho : 0 ≤ a.offset) (h : BlobAt a i (some bs)) :
    a.isValid i = some true ∧ a.blob i = some bs := by
  obtain ⟨h1, b, e, h2, h3, h4, h5, rfl⟩ := h
  constructor
  · unfold CppBlobs.isValid
    cases hv : a.validity with
    | none => rfl
    | some bits =>
      have := h1 bits hv
      simp only []
      rw [if_neg (by omega), show ((i : Int) + a.offset).toNat = a.offset.toNat + i by omega]
      exact this
  · unfold CppBlobs.blob cppAt
    rw [if_pos (by omega), if_pos (by omega), show (a.offset + (i : Int)).toNat = a.offset.toNat + i by omega,
      show (a.offset + (i : Int) + 1).toNat = a.offset.toNat + i + 1 by omega, h2, h3]
    simp only [Option.bind_eq_bind, Option.bind_some]
    rw [if_pos (by omega), Int.toNat_natCast, show ((e : Int) - (b : Int)).toNat = e - b by omega]
    rfl

theorem blob_none {a : CppBlobs} {i : Nat} (ho : 0 ≤ a.offset) (h : BlobAt a i none) : a.isValid i = some false := by
  obtain ⟨bits, h1, h2⟩ := h
  unfold CppBlobs.isValid
  rw [h1]
  simp only []
  rw [if_neg (by omega), show ((i : Int) + a.offset).toNat = a.offset.toNat + i by omega]
  exact h2

/-- What one parsed and visited element gives. -/
def VisitsAs {α} (visit : List Byte → CppGeom → Option (List α)) (r : Geom → List α) : Prop :=
  ∀ b g t, Tokens b g t → g.WF → visit b t = some (r g)

theorem blobLoop_run {α} {a : CppBlobs} {ps : Int → CppP} {visit : List Byte → CppGeom → Option (List α)} {r : Geom → List α}
    (hv : VisitsAs visit r) (ho : 0 ≤ a.offset) : ∀ (els : List (Option (List Byte))) (gs : List (Option Geom)) (i : Nat),
    (∀ j (h : j < els.length), BlobAt a (i + j) els[j]) → EncodedAs els gs →
    cppBlobLoop a ps visit i els.length = some ⟨(gs.filterMap id).flatMap r, none⟩
  | [], gs, i, _, he => by cases he; rfl
  | none :: els, gs, i, h, he => by
    obtain ⟨gs', rfl, he⟩ := he
    have h0 := blob_none ho (h 0 (by simp))
    rw [Nat.add_zero] at h0
    have ih := blobLoop_run (ps := ps) hv ho els gs' (i + 1) (fun j hj => by
      have := h (j + 1) (by simpa using hj)
      rw [show i + 1 + j = i + (j + 1) by omega]; exact this) he
    rw [List.length_cons, cppBlobLoop, h0]
    simp only [Option.bind_eq_bind, Option.bind_some, Bool.false_eq_true, if_false]
    rw [show ((i : Int) + 1) = ((i + 1 : Nat) : Int) by omega, ih]
    rfl
  | some b :: els, gs, i, h, he => by
    obtain ⟨g, gs', rfl, hg, hb, he⟩ := he
    have h0 := blob_some ho (h 0 (by simp))
    rw [Nat.add_zero] at h0
    have ih := blobLoop_run (ps := ps) hv ho els gs' (i + 1) (fun j hj => by
      have := h (j + 1) (by simpa using hj)
      rw [show i + 1 + j = i + (j + 1) by omega]; exact this) he
    obtain ⟨t, h1, h2⟩ := C16_view_valid hg hb (ps i)
    rw [List.length_cons, cppBlobLoop, h0.1]
    simp only [Option.bind_eq_bind, Option.bind_some, if_true, h0.2, h1, hv b g t h2 (enc_wf g b hg)]
    rw [show ((i : Int) + 1) = ((i + 1 : Nat) : Int) by omega, ih]
    rfl

/-- Nothing goes wrong silently: every element before a reported failure was visited, the failing one is named. -/
theorem blobLoop_throw {α} {a : CppBlobs} {ps : Int → CppP} {visit : List Byte → CppGeom → Option (List α)} {r : Geom → List α}
    (hv : VisitsAs visit r) (ho : 0 ≤ a.offset) {rc : Code} {bad : List Byte} {rest : Nat} (hrc : rc ≠ 0) :
    ∀ (els : List (Option (List Byte))) (gs : List (Option Geom)) (i : Nat),
    (∀ j (h : j < els.length), BlobAt a (i + j) els[j]) → EncodedAs els gs → BlobAt a (i + els.length) (some bad) →
    (∀ p, ∃ o, cppParseView p bad = some o ∧ o.status = rc) →
    cppBlobLoop a ps visit i (els.length + (rest + 1)) =
      some ⟨(gs.filterMap id).flatMap r, some (((i + els.length : Nat) : Int), rc)⟩
  | [], gs, i, _, he, hb, hp => by
    cases he
    have h0 := blob_some ho hb
    simp only [List.length_nil, Nat.add_zero] at h0
    obtain ⟨o, h1, h2⟩ := hp (ps i)
    rw [List.length_nil, Nat.zero_add, cppBlobLoop, h0.1]
    simp only [Option.bind_eq_bind, Option.bind_some, if_true, h0.2, h1, h2]
    split
    · exact absurd rfl hrc
    · rfl
  | none :: els, gs, i, h, he, hb, hp => by
    obtain ⟨gs', rfl, he⟩ := he
    have h0 := blob_none ho (h 0 (by simp))
    rw [Nat.add_zero] at h0
    have ih := blobLoop_throw (ps := ps) (rest := rest) hv ho hrc els gs' (i + 1) (fun j hj => by
      have := h (j + 1) (by simpa using hj)
      rw [show i + 1 + j = i + (j + 1) by omega]; exact this) he
      (by rw [show i + 1 + els.length = i + (els.length + 1) by omega]; exact hb) hp
    rw [List.length_cons, show els.length + 1 + (rest + 1) = (els.length + (rest + 1)) + 1 by omega, cppBlobLoop, h0]
    simp only [Option.bind_eq_bind, Option.bind_some, Bool.false_eq_true, if_false]
    rw [show ((i : Int) + 1) = ((i + 1 : Nat) : Int) by omega, ih,
      show i + 1 + els.length = i + (els.length + 1) by omega]
    rfl
  | some b :: els, gs, i, h, he, hb, hp => by
    obtain ⟨g, gs', rfl, hg, hbl, he⟩ := he
    have h0 := blob_some ho (h 0 (by simp))
    rw [Nat.add_zero] at h0
    have ih := blobLoop_throw (ps := ps) (rest := rest) hv ho hrc els gs' (i + 1) (fun j hj => by
      have := h (j + 1) (by simpa using hj)
      rw [show i + 1 + j = i + (j + 1) by omega]; exact this) he
      (by rw [show i + 1 + els.length = i + (els.length + 1) by omega]; exact hb) hp
    obtain ⟨t, h1, h2⟩ := C16_view_valid hg hbl (ps i)
    rw [List.length_cons, show els.length + 1 + (rest + 1) = (els.length + (rest + 1)) + 1 by omega, cppBlobLoop, h0.1]
    simp only [Option.bind_eq_bind, Option.bind_some, if_true, h0.2, h1, hv b g t h2 (enc_wf g b hg)]
    rw [show ((i : Int) + 1) = ((i + 1 : Nat) : Int) by omega, ih,
      show i + 1 + els.length = i + (els.length + 1) by omega]
    rfl

end Verif
