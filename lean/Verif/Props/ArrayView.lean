import Verif.Proof.ArrayView
import Verif.Props.Schema
import Verif.Props.Visit
/-!
# C38, C39, C55 and C11: array views
-/
namespace Verif
open Spec

/-! ## The views of a type -/

/-- What is fixed by the type of a view. -/
structure ViewParts (g : Int) (d : Dims) (ct type : Int) (v : AView) : Prop where
  type : v.schema.type = type
  geometry : v.schema.geometryType = g
  dims : v.schema.dimensions = d.code
  coords : v.schema.coordType = ct
  nOffsets : v.nOffsets = avNumOffsets g
  nValues : v.nValues = avNumValues g d.code
  stride : v.stride = avStride ct (avNumValues g d.code)

theorem ViewParts.of_fixed {g d ct type v w} (h : ViewParts g d ct type v) (hf : Fixed v w) : ViewParts g d ct type w := by
  obtain ⟨h1, h2, h3, h4⟩ := hf
  exact ⟨h1 ▸ h.1, h1 ▸ h.2, h1 ▸ h.3, h1 ▸ h.4, h2 ▸ h.5, h3 ▸ h.6, h4 ▸ h.7⟩

theorem viewParts_init {g : Int} {d : Dims} {ct type : Int} {s : SView} (h0 : s.type = type) (h1 : s.geometryType = g)
    (h2 : s.dimensions = d.code) (h3 : s.coordType = ct) : ViewParts g d ct type (arrayViewInit s) := by
  subst h1 h3 h0
  exact ⟨rfl, rfl, h2, rfl, rfl, by rw [← h2]; rfl, by rw [← h2]; rfl⟩

theorem makeType_eq {g d c : Int} (h : ValidParts g d c) : makeType g d c = g + 1000 * (d - 1) + 10000 * (c - 1) := by
  obtain ⟨hd1, hd4, h⟩ := h
  have hd : d = 1 ∨ d = 2 ∨ d = 3 ∨ d = 4 := by omega
  rcases h with ⟨h1, h2, h3, h4⟩ | ⟨rfl, rfl⟩
  · have hg : g = 1 ∨ g = 2 ∨ g = 3 ∨ g = 4 ∨ g = 5 ∨ g = 6 := by omega
    have hc : c = 1 ∨ c = 2 := by omega
    rcases hd with rfl | rfl | rfl | rfl <;> rcases hg with rfl | rfl | rfl | rfl | rfl | rfl <;> rcases hc with rfl | rfl <;> rfl
  · rcases hd with rfl | rfl | rfl | rfl <;> rfl

theorem viewOf_parts {g : Int} {d : Dims} {c type : Int} (hv : ValidParts g d.code c)
    (ht : type = g + 1000 * ((d.code : Int) - 1) + 10000 * (c - 1)) {v : AView} (h : ViewOf type v) : ViewParts g d c type v := by
  have hm := C02_make_then_split g d.code c hv
  rw [makeType_eq hv, ← ht] at hm
  obtain ⟨hmem, hg, hd, hc⟩ := hm
  induction h with
  | @fromType v s h =>
    unfold arrayViewInitFromType at h
    obtain ⟨_, s1, h1, h2⟩ := M.bind_eq_ok.mp h
    cases h2
    unfold schemaViewInitFromType at h1
    rw [M.bind_run, M.modify_run] at h1
    dsimp only at h1
    rw [if_neg (by intro h0; rw [h0] at hmem; exact absurd hmem (by decide))] at h1
    cases he : extensionNameFromType type with
    | none => rw [he] at h1; cases h1
    | some n => rw [he] at h1; cases h1; exact viewParts_init rfl hg hd hc
  | @fromSchema c' v s hf hz h htype =>
    unfold arrayViewInitFromSchema at h
    obtain ⟨_, s1, h1, h2⟩ := M.bind_eq_ok.mp h
    cases h2
    have hty : s.type = type := htype
    obtain ⟨d', _, _, h5, h6, h7⟩ := C04_accepted_layout_partial c' hf hz _ s h1 (by rw [hty]; exact hmem)
    exact viewParts_init hty (by rw [h5, hty]; exact hg) (by rw [h6, hty]; exact hd) (by rw [h7, hty]; exact hc)
  | @setArray v w a _ h ih => exact ih.of_fixed (keeps_setArray a v w h)

theorem validParts_of {g : Int} (hg : 1 ≤ g ∧ g ≤ 6) (d : Dims) (k : CoordKind) : ValidParts g d.code k.code := by
  refine ⟨by cases d <;> decide, by cases d <;> decide, .inl ⟨hg.1, hg.2, ?_⟩⟩
  cases k <;> decide

theorem avNumOffsets_eq {g : Int} (hg : 1 ≤ g ∧ g ≤ 6) : avNumOffsets g = listDepth g := by
  have h6 : g = 1 ∨ g = 2 ∨ g = 3 ∨ g = 4 ∨ g = 5 ∨ g = 6 := by omega
  rcases h6 with rfl | rfl | rfl | rfl | rfl | rfl <;> rfl

theorem avNumValues_eq {g : Int} (hg : g ≠ 990) (d : Dims) : avNumValues g d.code = d.n := by
  unfold avNumValues
  simp only []
  rw [if_neg (show ¬ g = GT.box from hg)]
  cases d <;> rfl

/-- What setting an array on a view of a native type does, in one statement. -/
theorem setArray_native {g d k} (hg : 1 ≤ g ∧ g ≤ 6) {v0 : AView} (hv : ViewParts g d k.code (nativeId g d k) v0) (a : AArray) :
    arrayViewSetArray a v0 = (do
      avSetInternal (listDepth g) 0 a
      let b ← orUb a.buffers[0]?
      M.modify fun v : AView => { v with validity := b }) v0 := by
  unfold arrayViewSetArray
  rw [M.bind_run, M.get_run]
  dsimp only
  have ht := hv.type
  have hd1 : 1 ≤ d.code ∧ d.code ≤ 4 := by cases d <;> decide
  have hk1 : k.code = 1 ∨ k.code = 2 := by cases k <;> decide
  unfold nativeId at ht
  have h0 : ∀ t : Int, t = g + 1000 * ((d.code : Int) - 1) + 10000 * (k.code - 1) → ¬ (t = 100003 ∨ t = 100001) ∧
      ¬ (t = 990 ∨ t = 1990 ∨ t = 2990 ∨ t = 3990) := by omega
  obtain ⟨h1, h2⟩ := h0 _ ht
  rw [if_neg h1, if_neg h2, hv.nOffsets, avNumOffsets_eq hg]

/-! ## C55 -/

/-- Setting an array of any shape whose offsets can be read: accepted exactly if the numbers of children and buffers at
every level are those of the type, and rejected with `EINVAL` otherwise. Partial: `buffers[0]` must exist, which is not
checked (`C55_root_buffers_unchecked`). -/
theorem C55_native_exact_partial (g : Int) (d : Dims) (k : CoordKind) (hg : 1 ≤ g ∧ g ≤ 6) (v0 : AView)
    (hv : ViewOf (nativeId g d k) v0) (a : AArray) (hr : OffsetsReadable (listDepth g) a) (hb : a.buffers ≠ []) :
    (ListShape k d.n (listDepth g) a ∧ ∃ v, arrayViewSetArray a v0 = .ok () v) ∨
    (¬ ListShape k d.n (listDepth g) a ∧ ∃ v, arrayViewSetArray a v0 = .err EINVAL v) := by
  have hp := viewOf_parts (validParts_of hg d k) rfl hv
  have hpost := avSetInternal_post k d.n (listDepth g) 0 a v0 (by rw [hp.nValues, avNumValues_eq (by omega)]) hp.coords hr
  rw [setArray_native hg hp, M.bind_run]
  cases hs : avSetInternal (listDepth g) 0 a v0 with
  | ub => rw [hs] at hpost; exact hpost.elim
  | err rc w =>
    rw [hs] at hpost
    exact .inr ⟨hpost.2.1, w, by rw [hpost.1]⟩
  | ok u w =>
    rw [hs] at hpost
    refine .inl ⟨hpost.1, ?_⟩
    obtain ⟨b, bs, hb⟩ := List.exists_cons_of_ne_nil hb
    rw [hb]
    exact ⟨_, rfl⟩

/-- An array that was accepted has the shape of the type, all its first and last offsets were in memory, and the view shows
its validity bitmap and, at every level, the offset, length and offsets of the array of that level and the coordinates of
the innermost one. -/
theorem C55_native_accepted (g : Int) (d : Dims) (k : CoordKind) (hg : 1 ≤ g ∧ g ≤ 6) (v0 : AView)
    (hv : ViewOf (nativeId g d k) v0) (a : AArray) (v : AView) (hs : arrayViewSetArray a v0 = .ok () v) :
    ListShape k d.n (listDepth g) a ∧ OffsetsReadable (listDepth g) a ∧ a.buffers[0]? = some v.validity ∧
    Exposed k v (listDepth g) 0 a ∧ v.nValues = d.n ∧ (v.stride = match k with | .separate => (1 : Int) | .interleaved => d.n) := by
  have hp := viewOf_parts (validParts_of hg d k) rfl hv
  have hpv := hp.of_fixed (keeps_setArray a v0 v (by rw [hs]; rfl))
  rw [setArray_native hg hp] at hs
  obtain ⟨_, w, h1, h2⟩ := M.bind_eq_ok.mp hs
  have hr := avSetInternal_readable _ _ _ _ _ h1
  have hpost := avSetInternal_post k d.n (listDepth g) 0 a v0 (by rw [hp.nValues, avNumValues_eq (by omega)]) hp.coords hr
  rw [h1] at hpost
  obtain ⟨hsh, hex, -⟩ := hpost
  have hn : v.nValues = d.n := by rw [hpv.nValues, avNumValues_eq (by omega)]
  refine ⟨hsh, hr, ?_, ?_, hn, ?_⟩
  · cases hb : a.buffers[0]? with
    | none => rw [hb] at h2; cases h2
    | some b => rw [hb] at h2; cases h2; rfl
  · cases hb : a.buffers[0]? with
    | none => rw [hb] at h2; cases h2
    | some b =>
      rw [hb] at h2
      cases h2
      cases k <;> exact hex
  · rw [hpv.stride, avNumValues_eq (by omega)]
    cases k <;> rfl

theorem viewOf_box {d : Dims} {v : AView} (h : ViewOf (boxId d) v) : ViewParts 990 d 1 (boxId d) v :=
  viewOf_parts ⟨by cases d <;> decide, by cases d <;> decide, .inr ⟨rfl, rfl⟩⟩ (by unfold boxId; omega) h

theorem setArray_box {d : Dims} {v0 : AView} (hv : ViewParts 990 d 1 (boxId d) v0) (a : AArray) :
    arrayViewSetArray a v0 = (do
      avSetBox a
      let b ← orUb a.buffers[0]?
      M.modify fun v : AView => { v with validity := b }) v0 := by
  unfold arrayViewSetArray
  rw [M.bind_run, M.get_run]
  dsimp only
  have ht := hv.type
  unfold boxId at ht
  have hd : d.code = 1 ∨ d.code = 2 ∨ d.code = 3 ∨ d.code = 4 := by cases d <;> decide
  have h0 : ∀ t : Int, t = 990 + 1000 * ((d.code : Int) - 1) → ¬ (t = 100003 ∨ t = 100001) ∧
      (t = 990 ∨ t = 1990 ∨ t = 2990 ∨ t = 3990) := by omega
  obtain ⟨h1, h2⟩ := h0 _ ht
  rw [if_neg h1, if_pos h2]

theorem setBox_post {d : Dims} {v0 : AView} (hv : ViewParts 990 d 1 (boxId d) v0) (a : AArray) :
    (avSetBox a v0).Post
      (fun _ w => CoordShape .separate (2 * d.n) a ∧ CoordsExposed .separate w a ∧ w.offset 0 = a.offset ∧ w.length 0 = a.length ∧
        w.nCoords = a.length)
      (fun rc _ => rc = EINVAL ∧ ¬ CoordShape .separate (2 * d.n) a) := by
  unfold avSetBox
  rw [M.bind_run, M.modify_run]
  dsimp only
  refine (avSetStruct_post a _ (2 * d.n) ?_).imp ?_ ?_
  · exact hv.nValues.trans (by cases d <;> rfl)
  · rintro _ w ⟨h1, h2, h3⟩
    refine ⟨h1, h2, ?_, ?_, ?_⟩
    · exact (congrFun (congrArg AView.offset h3) 0).trans (setAt_same v0.offset 0 a.offset)
    · exact (congrFun (congrArg AView.length h3) 0).trans (setAt_same v0.length 0 a.length)
    · rw [h3]
  · rintro rc w ⟨h1, h2, -⟩
    exact ⟨h1, h2⟩

/-- The same for boxes: a struct of twice as many children as dimensions. -/
theorem C55_box_exact_partial (d : Dims) (v0 : AView) (hv : ViewOf (boxId d) v0) (a : AArray) (hb : a.buffers ≠ []) :
    (CoordShape .separate (2 * d.n) a ∧ ∃ v, arrayViewSetArray a v0 = .ok () v ∧ a.buffers[0]? = some v.validity ∧
      CoordsExposed .separate v a ∧ v.offset 0 = a.offset ∧ v.length 0 = a.length ∧ v.nCoords = a.length) ∨
    (¬ CoordShape .separate (2 * d.n) a ∧ ∃ v, arrayViewSetArray a v0 = .err EINVAL v) := by
  have hp := viewOf_box hv
  have hpost := setBox_post hp a
  rw [setArray_box hp, M.bind_run]
  cases hs : avSetBox a v0 with
  | ub => rw [hs] at hpost; exact hpost.elim
  | err rc w =>
    rw [hs] at hpost
    exact .inr ⟨hpost.2, w, by rw [hpost.1]⟩
  | ok u w =>
    rw [hs] at hpost
    refine .inl ⟨hpost.1, ?_⟩
    obtain ⟨b, bs, hb⟩ := List.exists_cons_of_ne_nil hb
    rw [hb]
    exact ⟨_, rfl, rfl, hpost.2⟩

/-- The number of buffers of a serialized array is not checked: with none, memory outside of the array is read. -/
theorem C55_serialized_buffers_unchecked : ∃ v0, ViewOf 100001 v0 ∧
    (∀ l n o, arrayViewSetArray (.mk l n o [none, none] []) v0 = .ub) ∧
    (∀ l n o b0 b1 b2 bs, ∃ v, arrayViewSetArray (.mk l n o (b0 :: b1 :: b2 :: bs) []) v0 = .ok () v) := by
  refine ⟨_, .fromType rfl, fun l n o => rfl, fun l n o b0 b1 b2 bs => ⟨_, rfl⟩⟩

/-- Nor is that of the outermost array of coordinates: none at all makes `buffers[0]` an access outside of the array, too
many are accepted. -/
theorem C55_root_buffers_unchecked : ∃ v0, ViewOf 1 v0 ∧
    (∀ l n o c1 c2, c1.buffers.length = 2 → c2.buffers.length = 2 → arrayViewSetArray (.mk l n o [] [c1, c2]) v0 = .ub) ∧
    (∀ l n o b bs c1 c2, c1.buffers.length = 2 → c2.buffers.length = 2 →
      ∃ v, arrayViewSetArray (.mk l n o (b :: bs) [c1, c2]) v0 = .ok () v) := by
  refine ⟨_, .fromType rfl, ?_, ?_⟩
  · intro l n o c1 c2 h1 h2
    obtain ⟨l1, n1, o1, b1, x1⟩ := c1
    obtain ⟨l2, n2, o2, b2, x2⟩ := c2
    match b1, h1 with
    | [_, _], _ =>
      match b2, h2 with
      | [_, _], _ => rfl
  · intro l n o b bs c1 c2 h1 h2
    obtain ⟨l1, n1, o1, b1, x1⟩ := c1
    obtain ⟨l2, n2, o2, b2, x2⟩ := c2
    match b1, h1 with
    | [_, _], _ =>
      match b2, h2 with
      | [_, _], _ => exact ⟨_, rfl⟩

/-! ## C38 -/

/-- Visiting a range of a native array: the features of its slots, in order, and nothing else. The array may be sliced at
every level (`FeatureAt` is the meaning of a slot in the Arrow format), and the view may have been used for others before. -/
theorem C38_visit_range (g : Int) (d : Dims) (k : CoordKind) (hg : 1 ≤ g ∧ g ≤ 6) (v0 v : AView)
    (hv : ViewOf (nativeId g d k) v0) (a : AArray) (hs : arrayViewSetArray a v0 = .ok () v) (offset : Nat)
    (fs : List (Option Geom)) (hf : ∀ (t : Nat) (f : Option Geom), fs[t]? = some f → FeatureAt g d k a (offset + t) f) :
    ∃ t, FeaturesTrace fs t ∧ Behaves (fun _ h => visitNative v h offset fs.length) t (.done ()) := by
  have hp := viewOf_parts (validParts_of hg d k) rfl hv
  have hpv := hp.of_fixed (keeps_setArray a v0 v (by rw [hs]; rfl))
  obtain ⟨_, _, hval, hex, hn, _⟩ := C55_native_accepted g d k hg v0 hv a v hs
  have hsee : Sees d k v (listDepth g) 0 a :=
    ⟨hex, hn, by rw [hpv.stride, avNumValues_eq (by omega)], hpv.dims⟩
  obtain ⟨t, h1, h2⟩ := behaves_avLoop (T := OptFeatureTrace) (f := fun _ h => avFeature v h (avBody v h g)) fs
    (a.offset + offset) fun t f ht => by
      have hft := hf t f ht
      have he : a.offset + (offset : Int) + (t : Int) = a.offset + ((offset + t : Nat) : Int) := by omega
      rw [he]
      cases f with
      | none => exact behaves_avFeature_null (body := fun _ h => avBody v h g) (avValid_of_null hval hft)
      | some x =>
        exact behaves_avFeature (body := fun _ h => avBody v h g) (avValid_of_valid hval hft.1) (behaves_avBody hsee hft.2)
  refine ⟨t, featuresTrace_of_concat h1, ?_⟩
  simp only [visitNative_eq v _ hg hpv.geometry, avFeatures, Int.toNat_natCast, hsee.offset]
  exact h2

/-- Visiting consecutive ranges one after the other is visiting the union, for every view and visitor. -/
theorem C38_consecutive {σ : Type} (v : AView) (h : Handler σ) (offset : Int) (n m : Nat) :
    visitNative v h offset ((n + m : Nat) : Int) =
      (visitNative v h offset (n : Int) >>= fun _ => visitNative v h (offset + n) (m : Int)) := by
  have key : ∀ body, avFeatures v h body offset ((n + m : Nat) : Int) =
      (avFeatures v h body offset (n : Int) >>= fun _ => avFeatures v h body (offset + n) (m : Int)) := by
    intro body
    unfold avFeatures
    rw [Int.toNat_natCast, Int.toNat_natCast, Int.toNat_natCast, avLoop_append, Int.add_assoc]
  unfold visitNative
  simp only []
  split
  · split
    · rfl
    · exact key _
  · split
    · exact key _
    · split
      · exact key _
      · split
        · exact key _
        · split
          · exact key _
          · split
            · exact key _
            · split
              · exact key _
              · rfl

/-! ## C39 -/

/-- Visiting a range of an array of XY boxes: a rectangle for every box, no ring where a minimum exceeds its maximum. -/
theorem C39_visit_boxes (v0 v : AView) (hv : ViewOf (boxId .xy) v0) (a : AArray) (hs : arrayViewSetArray a v0 = .ok () v)
    (offset : Nat) (fs : List (Option Geom))
    (hf : ∀ (t : Nat) (f : Option Geom), fs[t]? = some f → BoxFeatureAt a (offset + t) f) :
    ∃ t, FeaturesTrace fs t ∧ Behaves (fun _ h => visitNative v h offset fs.length) t (.done ()) := by
  have hp := viewOf_box hv
  have hpv := hp.of_fixed (keeps_setArray a v0 v (by rw [hs]; rfl))
  rw [setArray_box hp] at hs
  obtain ⟨_, w, g1, g2⟩ := M.bind_eq_ok.mp hs
  have hpost := setBox_post hp a
  rw [g1] at hpost
  obtain ⟨-, hex, hoff, -, -⟩ := hpost
  have hfin : a.buffers[0]? = some v.validity ∧ v.offset = w.offset ∧ v.values = w.values := by
    cases hb : a.buffers[0]? with
    | none => rw [hb] at g2; cases g2
    | some b => rw [hb] at g2; cases g2; exact ⟨rfl, rfl, rfl⟩
  obtain ⟨hval, hvo, hvv⟩ := hfin
  have hex : CoordsExposed .separate v a := fun j c hc => by rw [hvv]; exact hex j c hc
  obtain ⟨t, h1, h2⟩ := behaves_avLoop (T := OptFeatureTrace) (f := fun _ h => avFeature v h (avBox v h)) fs
    (a.offset + offset) fun t f ht => by
      have hft := hf t f ht
      have he : a.offset + (offset : Int) + (t : Int) = a.offset + ((offset + t : Nat) : Int) := by omega
      rw [he]
      cases f with
      | none => exact behaves_avFeature_null (body := fun _ h => avBox v h) (avValid_of_null hval hft)
      | some x =>
        obtain ⟨hva, xmin, ymin, xmax, ymax, hb, hbox⟩ := hft
        refine behaves_avFeature (body := fun _ h => avBox v h) (avValid_of_valid hval hva) ?_
        have hbb := behaves_avBox hex hpv.stride hpv.nValues hpv.dims hb
        have hiff : (xmin.gt xmax || (ymin.gt ymax || false)) = true ↔ (Spec.Dbl.Exceeds xmin xmax ∨ Spec.Dbl.Exceeds ymin ymax) := by
          rw [Bool.or_false, Bool.or_eq_true, gt_iff, gt_iff]
        rcases hbox with ⟨hc, rfl⟩ | ⟨hc, rfl⟩
        · rw [if_pos (hiff.mpr hc)] at hbb; exact hbb
        · rw [if_neg (fun h => hc (hiff.mp h))] at hbb; exact hbb
  refine ⟨t, featuresTrace_of_concat h1, ?_⟩
  have hg : v.schema.geometryType = GT.box := hpv.geometry
  have hd : ¬ v.schema.dimensions ≠ 1 := fun h => h hpv.dims
  simp only [visitNative, hg, if_true, if_neg hd, avFeatures, Int.toNat_natCast, hvo, hoff]
  exact h2

/-- Boxes with more dimensions are not supported; no callback is made. -/
theorem C39_other_dimensions (d : Dims) (hd : d ≠ .xy) (v : AView) (hv : ViewOf (boxId d) v) (offset length : Int) :
    Behaves (fun _ h => visitNative v h offset length) [] (.fail ENOTSUP) := by
  have hp := viewOf_box hv
  have hg : v.schema.geometryType = GT.box := hp.geometry
  have hdd : v.schema.dimensions ≠ 1 := by rw [hp.dims]; cases d <;> simp_all [Dims.code]
  simp only [visitNative, hg, if_true, if_pos hdd]
  exact Behaves.fail _

/-! ## An example: two linestrings, sliced at every level -/

/-- Interleaved XY coordinates: starts with slot 1, and the doubles start with element 1. -/
def exCoordArr : AArray :=
  .mk 3 0 1 [none] [.mk 8 0 1 [none, some ([dbl4, dbl4, dbl4, dbl1, dbl2, dbl3, dbl1, dbl2, dbl2].flatMap Dbl.bytes)] []]
/-- Linestrings: starts with slot 1; the first has coordinates 1 and 2, the second is null. -/
def exLineArr : AArray := .mk 2 1 1 [some [0x02], some ([7, 1, 3, 3].flatMap (leBytes 4))] [exCoordArr]
def exLineView : AView := arrayViewInit ⟨some (str "geoarrow.linestring"), none, 10002, 2, 1, 2⟩

theorem exLineView_of : ViewOf (nativeId 2 .xy .interleaved) exLineView := .fromType rfl

theorem exLine_set : ∃ v, arrayViewSetArray exLineArr exLineView = .ok () v := by
  have h : (match arrayViewSetArray exLineArr exLineView with | .ok _ _ => true | _ => false) = true := by decide +kernel
  split at h
  · exact ⟨_, by assumption⟩
  · cases h

theorem coordAt_of_check {d : Dims} {k : CoordKind} {a : AArray} {i : Nat} {c : Coord} (hl : c.length = d.n)
    (h : (List.range d.n).all (fun j => match k with
      | .separate => (a.children[j]?.bind fun ch => (ch.buffers[1]?.bind id).bind fun b => f64At b (ch.offset + (a.offset + i))) == c[j]?
      | .interleaved => (a.children[0]?.bind fun ch => (ch.buffers[1]?.bind id).bind fun b =>
          f64At b (ch.offset + ((a.offset + i) * d.n + j))) == c[j]?) = true) : CoordAt d k a i c := by
  refine ⟨hl, ?_⟩
  rw [List.all_eq_true] at h
  cases k with
  | separate =>
    intro j x hx
    have hj := h j (by rw [List.mem_range, ← hl]; exact (List.getElem?_eq_some_iff.mp hx).1)
    simp only [beq_iff_eq, hx] at hj
    obtain ⟨ch, h1, hj⟩ := Option.bind_eq_some_iff.mp hj
    obtain ⟨b, h2, hj⟩ := Option.bind_eq_some_iff.mp hj
    obtain ⟨b', h3, h4⟩ := Option.bind_eq_some_iff.mp h2
    exact ⟨ch, h1, b, by rw [h3]; exact congrArg some h4, hj⟩
  | interleaved =>
    intro j x hx
    have hj := h j (by rw [List.mem_range, ← hl]; exact (List.getElem?_eq_some_iff.mp hx).1)
    simp only [beq_iff_eq, hx] at hj
    obtain ⟨ch, h1, hj⟩ := Option.bind_eq_some_iff.mp hj
    obtain ⟨b, h2, hj⟩ := Option.bind_eq_some_iff.mp hj
    obtain ⟨b', h3, h4⟩ := Option.bind_eq_some_iff.mp h2
    exact ⟨ch, h1, b, by rw [h3]; exact congrArg some h4, hj⟩

theorem exLine_features (t : Nat) (f : Option Geom)
    (h : [some (Geom.linestring .xy [[dbl3, dbl1], [dbl2, dbl2]]), none][t]? = some f) :
    FeatureAt 2 .xy .interleaved exLineArr (0 + t) f := by
  match t, h with
  | 0, rfl =>
    refine ⟨.inr ⟨_, rfl, by decide, by decide +kernel⟩, .linestring ⟨1, 3, exCoordArr, ⟨by decide, rfl, by decide, by decide, _, rfl, ?_, ?_⟩, rfl, ?_⟩⟩
    · decide +kernel
    · decide +kernel
    · intro t x hx
      match t, hx with
      | 0, rfl => exact coordAt_of_check rfl (by decide +kernel)
      | 1, rfl => exact coordAt_of_check rfl (by decide +kernel)
  | 1, rfl => exact ⟨_, rfl, by decide, by decide +kernel⟩

example : ∃ v t, arrayViewSetArray exLineArr exLineView = .ok () v ∧
    FeaturesTrace [some (.linestring .xy [[dbl3, dbl1], [dbl2, dbl2]]), none] t ∧
    Behaves (fun _ h => visitNative v h 0 2) t (.done ()) :=
  let ⟨v, hv⟩ := exLine_set
  let ⟨t, h1, h2⟩ := C38_visit_range 2 .xy .interleaved (by decide) exLineView v exLineView_of exLineArr hv 0 _ exLine_features
  ⟨v, t, hv, h1, h2⟩
example : ListShape .interleaved 2 1 exLineArr := by
  obtain ⟨v, hv⟩ := exLine_set
  exact (C55_native_accepted 2 .xy .interleaved (by decide) exLineView exLineView_of exLineArr v hv).1
example : ∃ v, arrayViewSetArray (.mk 0 0 0 [none, none, none] [exCoordArr]) exLineView = .err EINVAL v := by
  rcases C55_native_exact_partial 2 .xy .interleaved (by decide) exLineView exLineView_of (.mk 0 0 0 [none, none, none] [exCoordArr])
    (by
      intro l b hl hb hpos
      obtain rfl : l = 0 := by revert hl; unfold listDepth; simp
      cases hb
      exact absurd hpos (by decide)) (by simp [AArray.buffers]) with ⟨h, _⟩ | ⟨_, h⟩
  · exact absurd h.1 (by decide)
  · exact h

/-- Boxes: an empty one and a proper one. -/
def exBoxArr : AArray := .mk 2 0 0 [none] [.mk 2 0 0 [none, some ([dbl4, dbl1].flatMap Dbl.bytes)] [],
  .mk 2 0 0 [none, some ([dbl1, dbl2].flatMap Dbl.bytes)] [], .mk 2 0 0 [none, some ([dbl1, dbl3].flatMap Dbl.bytes)] [],
  .mk 2 0 0 [none, some ([dbl1, dbl4].flatMap Dbl.bytes)] []]

def exBoxView : AView := arrayViewInit ⟨some (str "geoarrow.box"), none, 990, 990, 1, 1⟩

theorem exBoxView_of : ViewOf (boxId .xy) exBoxView := .fromType rfl

theorem exBox_features (t : Nat) (f : Option Geom)
    (h : [some (Geom.polygon .xy []), some (.polygon .xy [rectangle dbl1 dbl2 dbl3 dbl4])][t]? = some f) :
    BoxFeatureAt exBoxArr (0 + t) f := by
  have key : ∀ (i : Nat) (x y z w : Dbl), (((List.range 4).all fun j => (exBoxArr.children[j]?.bind fun ch =>
      (ch.buffers[1]?.bind id).bind fun b => f64At b (ch.offset + (exBoxArr.offset + i))) == [x, y, z, w][j]?) = true) →
      BoxAt .xy exBoxArr i [x, y] [z, w] := by
    intro i x y z w h
    refine ⟨rfl, rfl, ?_⟩
    rw [List.all_eq_true] at h
    intro j u hu
    have hj := h j (by rw [List.mem_range]; exact (List.getElem?_eq_some_iff.mp hu).1)
    rw [show ([x, y, z, w] : List Dbl)[j]? = some u from hu] at hj
    simp only [beq_iff_eq] at hj
    obtain ⟨ch, h1, hj⟩ := Option.bind_eq_some_iff.mp hj
    obtain ⟨b, h2, hj⟩ := Option.bind_eq_some_iff.mp hj
    obtain ⟨b', h3, h4⟩ := Option.bind_eq_some_iff.mp h2
    exact ⟨ch, h1, b, by rw [h3]; exact congrArg some h4, hj⟩
  match t, h with
  | 0, rfl =>
    exact ⟨.inl rfl, dbl4, dbl1, dbl1, dbl1, key _ _ _ _ _ (by decide +kernel), .inl ⟨.inl ((gt_iff _ _).mp (by decide)), rfl⟩⟩
  | 1, rfl =>
    refine ⟨.inl rfl, dbl1, dbl2, dbl3, dbl4, key _ _ _ _ _ (by decide +kernel), .inr ⟨?_, rfl⟩⟩
    rw [← gt_iff, ← gt_iff]
    decide

example : ∃ v t, arrayViewSetArray exBoxArr exBoxView = .ok () v ∧
    FeaturesTrace [some (.polygon .xy []), some (.polygon .xy [rectangle dbl1 dbl2 dbl3 dbl4])] t ∧
    Behaves (fun _ h => visitNative v h 0 2) t (.done ()) := by
  rcases C55_box_exact_partial .xy exBoxView exBoxView_of exBoxArr (by simp [exBoxArr, AArray.buffers]) with ⟨_, v, hv, _⟩ | ⟨h, _⟩
  · obtain ⟨t, h1, h2⟩ := C39_visit_boxes exBoxView v exBoxView_of exBoxArr hv 0 _ exBox_features
    exact ⟨v, t, hv, h1, h2⟩
  · refine absurd ⟨rfl, ?_⟩ h
    intro c hc
    simp [exBoxArr, AArray.children] at hc
    rcases hc with rfl | rfl | rfl | rfl <;> rfl
example : ViewOf (boxId .xyz) (arrayViewInit ⟨some (str "geoarrow.box"), none, 1990, 990, 2, 1⟩) := .fromType rfl

/-! ## C11 -/

theorem regular_orUb {α} (x : Option α) : Regular (fun _ _ => (orUb x : M _ α)) := by
  cases x with
  | none => exact Regular.undef
  | some a => exact Regular.pure a

theorem regular_avLoop {f : ∀ σ : Type, Handler σ → Int → M σ Unit} (hf : ∀ i, Regular (fun _ h => f _ h i)) :
    ∀ (n : Nat) (i : Int), Regular (fun _ h => avLoop (f _ h) n i)
  | 0, _ => Regular.pure ()
  | n + 1, i => Regular.bind (hf i) fun _ => regular_avLoop hf n (i + 1)

theorem regular_avCoords (v : AView) (start n : Int) : Regular (fun _ h => avCoords v h start n) :=
  Regular.bind (regular_orUb _) fun _ => Regular.call _
theorem regular_avSequence (v : AView) (l i) : Regular (fun _ h => avSequence v h l i) :=
  Regular.bind (regular_orUb _) fun _ => regular_avCoords v _ _
theorem regular_avRing (v : AView) (l i) : Regular (fun _ h => avRing v h l i) :=
  Regular.bind (Regular.call _) fun _ => Regular.bind (regular_avSequence v l i) fun _ => Regular.call _
theorem regular_avParts (v : AView) (l i) {f : ∀ σ : Type, Handler σ → Int → M σ Unit} (hf : ∀ i, Regular (fun _ h => f _ h i)) :
    Regular (fun _ h => avParts v l (f _ h) i) :=
  Regular.bind (regular_orUb _) fun _ => regular_avLoop hf _ _
theorem regular_shell (v : AView) (g : Nat) {p : ∀ σ : Type, Handler σ → M σ Unit} (hp : Regular p) :
    Regular (fun _ h => do avGeomStart v h g; p _ h; h .geomEnd) :=
  Regular.bind (Regular.call _) fun _ => Regular.bind hp fun _ => Regular.call _
theorem regular_avPoint (v : AView) (i) : Regular (fun _ h => avPoint v h i) := regular_shell v 1 (regular_avCoords v _ _)
theorem regular_avLinestring (v : AView) (l i) : Regular (fun _ h => avLinestring v h l i) :=
  regular_shell v 2 (regular_avSequence v _ _)
theorem regular_avPolygon (v : AView) (l i) : Regular (fun _ h => avPolygon v h l i) :=
  regular_shell v 3 (regular_avParts v _ _ (f := fun _ h => avRing v h (l + 1)) fun _ => regular_avRing v _ _)

theorem regular_avBox (v : AView) (i) : Regular (fun _ h => avBox v h i) := by
  refine Regular.bind (regular_orUb _) fun e => Regular.bind (Regular.call _) fun _ => ?_
  cases e with
  | true => exact Regular.call _
  | false =>
    exact Regular.bind (regular_orUb _) fun _ => Regular.bind (Regular.call _) fun _ => Regular.bind (Regular.call _) fun _ =>
      Regular.bind (Regular.call _) fun _ => Regular.call _

theorem regular_avFeatures (v : AView) (o n) {body : ∀ σ : Type, Handler σ → Int → M σ Unit}
    (hb : ∀ i, Regular (fun _ h => body _ h i)) : Regular (fun _ h => avFeatures v h (body _ h) o n) := by
  refine regular_avLoop (f := fun _ h => avFeature v h (body _ h)) (fun i => ?_) _ _
  refine Regular.bind (Regular.call _) fun _ => Regular.bind (regular_orUb _) fun b => ?_
  cases b with
  | true => exact Regular.bind (hb i) fun _ => Regular.call _
  | false => exact Regular.bind (Regular.call _) fun _ => Regular.call _

/-- For every array view whatsoever the callbacks and the outcome of visiting a range are fixed; a failing callback's code is
returned as is, at once. -/
theorem C11_native_visit (v : AView) (offset length : Int) :
    ∃ t o, Behaves (fun _ h => visitNative v h offset length) t o := by
  show Regular _
  unfold visitNative
  simp only []
  split
  · split
    · exact Regular.fail _
    · exact regular_avFeatures v _ _ (body := fun _ h => avBox v h) (regular_avBox v)
  · split
    · exact regular_avFeatures v _ _ (body := fun _ h => avPoint v h) (regular_avPoint v)
    · split
      · exact regular_avFeatures v _ _ (body := fun _ h => avLinestring v h 0) (regular_avLinestring v 0)
      · split
        · exact regular_avFeatures v _ _ (body := fun _ h => avPolygon v h 0) (regular_avPolygon v 0)
        · split
          · exact regular_avFeatures v _ _ (body := fun _ h => avMultipoint v h) fun i =>
              regular_shell v 4 (regular_avParts v _ _ (f := fun _ h => avPoint v h) (regular_avPoint v))
          · split
            · exact regular_avFeatures v _ _ (body := fun _ h => avMultilinestring v h) fun i =>
                regular_shell v 5 (regular_avParts v _ _ (f := fun _ h => avLinestring v h 1) (regular_avLinestring v 1))
            · split
              · exact regular_avFeatures v _ _ (body := fun _ h => avMultipolygon v h) fun i =>
                  regular_shell v 6 (regular_avParts v _ _ (f := fun _ h => avPolygon v h 1) (regular_avPolygon v 1))
              · exact Regular.fail _

end Verif
