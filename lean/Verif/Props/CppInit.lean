import Verif.Proof.CppInit
import Verif.Proof.CppWkbArray
import Verif.Props.ArrayView
/-!
# C71: the C++ arrays made from a view of an Arrow array

`FeatureAt g d k a t f` (Spec/NativeArray.lean) is the meaning of slot `t` of an Arrow array; C38 says that the C reader visits the same features.
-/
namespace Verif
open Verif.Spec

theorem cppNesting_eq {g : Int} (hg : 1 ≤ g ∧ g ≤ 6) : cppNesting g = listDepth g := by
  have h6 : g = 1 ∨ g = 2 ∨ g = 3 ∨ g = 4 ∨ g = 5 ∨ g = 6 := by omega
  rcases h6 with rfl | rfl | rfl | rfl | rfl | rfl <;> rfl

theorem arrInit_eq (n k : Nat) (v : AView) : cppArrInit n k v =
    if k = v.nOffsets ∧ (n : Int) ≤ v.nValues % 2 ^ 32 then .ok ⟨sqOf n v k 0, v.validity⟩ else .error EINVAL := by
  unfold cppArrInit
  rw [initSq_eq, Nat.zero_add]
  by_cases h : k = v.nOffsets ∧ (n : Int) ≤ v.nValues % 2 ^ 32
  · rw [if_pos h, if_pos h]
  · rw [if_neg h, if_neg h]

/-- A view of a native array is accepted by a C++ array exactly if the nesting is that of the geometry type and the coordinate type has no more
ordinates than the array. -/
theorem C71_accepted (g : Int) (d : Dims) (k : CoordKind) (hg : 1 ≤ g ∧ g ≤ 6) (v0 v : AView) (hv : ViewOf (nativeId g d k) v0) (a : AArray)
    (hs : arrayViewSetArray a v0 = .ok () v) (g' : Int) (hg' : 1 ≤ g' ∧ g' ≤ 6) (src : Dims) :
    (listDepth g' = listDepth g ∧ src.n ≤ d.n ∧ ∃ arr, cppArrInit src.n (cppNesting g') v = .ok arr) ∨
    (¬ (listDepth g' = listDepth g ∧ src.n ≤ d.n) ∧ cppArrInit src.n (cppNesting g') v = .error EINVAL) := by
  have hp := viewOf_parts (validParts_of hg d k) rfl hv
  have hpv := hp.of_fixed (keeps_setArray a v0 v (by rw [hs]; rfl))
  have hd := dims_n_le d
  rw [arrInit_eq, cppNesting_eq hg', hpv.nOffsets, hpv.nValues, avNumOffsets_eq hg, avNumValues_eq (by omega),
    show ((d.n : Nat) : Int) % 2 ^ 32 = d.n by omega]
  by_cases h : listDepth g' = listDepth g ∧ src.n ≤ d.n
  · exact .inl ⟨h.1, h.2, _, if_pos ⟨h.1, by omega⟩⟩
  · exact .inr ⟨h, if_neg fun h' => h ⟨h'.1, by omega⟩⟩

/-- What is known of the elements of a native array once it is in a C++ array. -/
theorem native_elements {g : Int} {d : Dims} {k : CoordKind} (hg : 1 ≤ g ∧ g ≤ 6) {v0 v : AView} (hv : ViewOf (nativeId g d k) v0) {a : AArray}
    (hs : arrayViewSetArray a v0 = .ok () v) {fs : List (Option Geom)} (hl : a.length = fs.length)
    (hf : ∀ (t : Nat) (f : Option Geom), fs[t]? = some f → FeatureAt g d k a t f) {n : Nat} (hn : n ≤ d.n) :
    cppArrInit n (cppNesting g) v = .ok ⟨sqOf n v (listDepth g) 0, v.validity⟩ ∧
    ArrElements (cppMemOf v) ⟨sqOf n v (listDepth g) 0, v.validity⟩ fs (fun x val =>
      val.vertices = x.allCoords.map (fun c => c.2.take n) ∧ (∀ c ∈ x.allCoords, c.1 = d ∧ c.2.length = d.n) ∧
      (g ≠ 1 → g ≠ 4 → n = d.n → val.edges = x.edgesAs d) ∧
      (g = 1 ∨ g = 4 → x.edgesAs d = x.allCoords.map fun c => (mapCoord c.1 d c.2, mapCoord c.1 d c.2))) := by
  have hp := viewOf_parts (validParts_of hg d k) rfl hv
  have hpv := hp.of_fixed (keeps_setArray a v0 v (by rw [hs]; rfl))
  obtain ⟨_, _, hval, hex, hnv, _⟩ := C55_native_accepted g d k hg v0 hv a v hs
  have hsee : Sees d k v (listDepth g) 0 a := ⟨hex, hnv, by rw [hpv.stride, avNumValues_eq (by omega)], hpv.dims⟩
  have hd := dims_n_le d
  have ho : (sqOf n v (listDepth g) 0).offset = a.offset := by rw [sqOf_offset, hsee.offset]
  refine ⟨?_, ?_, ?_, ?_, ?_⟩
  · rw [arrInit_eq, cppNesting_eq hg, hpv.nOffsets, avNumOffsets_eq hg, hnv, if_pos ⟨rfl, by omega⟩]
  · show (sqOf n v (listDepth g) 0).length = _
    rw [sqOf_length, ← hl]
    exact (hex.1 0 a (by omega) rfl).2
  · intro bits hb hne
    have hb : v.validity = some bits := hb
    rw [hb] at hval
    show 0 ≤ (sqOf n v (listDepth g) 0).offset
    rw [ho]
    obtain ⟨f, fs', rfl⟩ := List.exists_cons_of_ne_nil hne
    have h0 := hf 0 f rfl
    cases f with
    | none =>
      obtain ⟨_, _, h1, _⟩ := h0
      exact h1
    | some x =>
      rcases h0.1 with h1 | ⟨_, _, h1, _⟩
      · rw [h1] at hval; cases hval
      · exact h1
  · intro t ht
    obtain ⟨bits, h1, -, h2⟩ := hf t none ht
    rw [hval] at h1
    refine ⟨bits, Option.some.inj h1, ?_⟩
    show bitGet bits ((sqOf n v (listDepth g) 0).offset + (t : Int)).toNat = _
    rw [ho]
    exact h2
  · intro t x ht
    obtain ⟨h1, h2⟩ := hf t (some x) ht
    refine ⟨?_, ?_⟩
    · intro bits hb
      have hb : v.validity = some bits := hb
      rw [hb] at hval
      show bitGet bits ((sqOf n v (listDepth g) 0).offset + (t : Int)).toNat = _
      rw [ho]
      rcases h1 with h1 | ⟨bits', h1, -, h3⟩
      · rw [h1] at hval; cases hval
      · rw [h1] at hval
        cases hval
        exact h3
    · show ∃ val, item _ (sqOf n v (listDepth g) 0) ((sqOf n v (listDepth g) 0).offset + (t : Int)) = some val ∧ _
      rw [ho]
      exact item_geom hsee h2 hn

theorem mem_filterMap {γ : Type} {fs : List (Option γ)} {x : γ} (h : x ∈ fs.filterMap id) : some x ∈ fs := by
  obtain ⟨o, ho, hx⟩ := List.mem_filterMap.mp h
  cases hx
  exact ho

theorem verticesAs_same (d : Dims) (cs : List (Dims × Coord)) (h : ∀ c ∈ cs, c.1 = d ∧ c.2.length = d.n) (dst : Dims) :
    (cs.map fun c => mapCoord d dst c.2) = cs.map fun c => mapCoord c.1 dst c.2 :=
  List.map_congr_left fun c hc => by rw [(h c hc).1]

theorem geomAt_coords {d ck v a i g x} (h : Sees d ck v (listDepth g) 0 a) (hx : GeomAt d ck a i g x) :
    ∀ c ∈ x.allCoords, c.1 = d ∧ c.2.length = d.n := by
  obtain ⟨_, _, _, h3, _⟩ := item_geom h hx (Nat.le_refl d.n)
  exact h3

/-- The coordinates of the features of a native array. -/
theorem feature_coords {g : Int} {d : Dims} {k : CoordKind} (hg : 1 ≤ g ∧ g ≤ 6) {v0 v : AView} (hv : ViewOf (nativeId g d k) v0) {a : AArray}
    (hs : arrayViewSetArray a v0 = .ok () v) {fs : List (Option Geom)}
    (hf : ∀ (t : Nat) (f : Option Geom), fs[t]? = some f → FeatureAt g d k a t f) (x : Geom) (hx : some x ∈ fs) :
    ∀ c ∈ x.allCoords, c.1 = d ∧ c.2.length = d.n := by
  have hp := viewOf_parts (validParts_of hg d k) rfl hv
  have hpv := hp.of_fixed (keeps_setArray a v0 v (by rw [hs]; rfl))
  obtain ⟨_, _, hval, hex, hnv, _⟩ := C55_native_accepted g d k hg v0 hv a v hs
  have hsee : Sees d k v (listDepth g) 0 a := ⟨hex, hnv, by rw [hpv.stride, avNumValues_eq (by omega)], hpv.dims⟩
  obtain ⟨t, ht⟩ := List.getElem?_of_mem hx
  exact geomAt_coords hsee (hf t _ ht).2

/-- Any run of elements, read with any coordinate type that is not too large: the leading ordinates. -/
theorem C71_leading {g : Int} {d : Dims} {k : CoordKind} (hg : 1 ≤ g ∧ g ≤ 6) {v0 v : AView} (hv : ViewOf (nativeId g d k) v0) {a : AArray}
    (hs : arrayViewSetArray a v0 = .ok () v) {fs : List (Option Geom)} (hl : a.length = fs.length)
    (hf : ∀ (t : Nat) (f : Option Geom), fs[t]? = some f → FeatureAt g d k a t f) (src : Dims) (hn : src.n ≤ d.n) :
    ∃ arr, cppArrInit src.n (cppNesting g) v = .ok arr ∧ ∀ o len, o + len ≤ fs.length →
      cppArrVertices (cppMemOf v) (arr.slice o len) =
        some ((((fs.drop o).take len).filterMap id).flatMap fun x => x.allCoords.map fun c => c.2.take src.n) := by
  obtain ⟨h1, h2⟩ := native_elements hg hv hs hl hf hn
  refine ⟨_, h1, fun o len ho => ?_⟩
  rw [(h2.slice o len ho).vertices (fun x => x.allCoords.map fun c => c.2.take src.n) fun x val h => h.1, optList_filterMap]

theorem mem_run {γ : Type} {fs : List γ} {o len : Nat} {x : γ} (h : x ∈ (fs.drop o).take len) : x ∈ fs :=
  List.mem_of_mem_drop (List.mem_of_mem_take h)

/-- Visiting the vertices of any run of elements with any destination coordinate type: those of the features that are not null, in order. -/
theorem C71_vertices (g : Int) (d : Dims) (k : CoordKind) (hg : 1 ≤ g ∧ g ≤ 6) (v0 v : AView) (hv : ViewOf (nativeId g d k) v0) (a : AArray)
    (hs : arrayViewSetArray a v0 = .ok () v) (fs : List (Option Geom)) (hl : a.length = fs.length)
    (hf : ∀ (t : Nat) (f : Option Geom), fs[t]? = some f → FeatureAt g d k a t f) :
    ∃ arr, cppArrInit d.n (cppNesting g) v = .ok arr ∧ ∀ (dst : Dims) o len, o + len ≤ fs.length →
      cppArrVerticesAs (cppMemOf v) d.cppT dst.cppT (arr.slice o len) =
        some ((((fs.drop o).take len).filterMap id).flatMap (Geom.verticesAs dst)) := by
  obtain ⟨arr, h1, h2⟩ := C71_leading hg hv hs hl hf d (Nat.le_refl _)
  refine ⟨arr, h1, fun dst o len ho => ?_⟩
  have hc : ∀ x ∈ ((fs.drop o).take len).filterMap id, ∀ c ∈ x.allCoords, c.1 = d ∧ c.2.length = d.n := fun x hx =>
    feature_coords hg hv hs hf x (mem_run (mem_filterMap hx))
  unfold cppArrVerticesAs
  rw [h2 o len ho, Option.bind_some, mapM_cast d dst, List.map_flatMap]
  · congr 1
    rw [List.flatMap_def, List.flatMap_def]
    congr 1
    refine List.map_congr_left fun x hx => ?_
    rw [List.map_map, Geom.verticesAs]
    refine List.map_congr_left fun c hcx => ?_
    obtain ⟨e1, e2⟩ := hc x hx c hcx
    rw [Function.comp, List.take_of_length_le (by omega), e1]
  · intro c hcx
    obtain ⟨x, hx, hcx⟩ := List.mem_flatMap.mp hcx
    obtain ⟨c', hc', rfl⟩ := List.mem_map.mp hcx
    rw [List.length_take, (hc x hx c' hc').2, Nat.min_self]

/-- Visiting the edges of any run of elements. -/
theorem C71_edges (g : Int) (d : Dims) (k : CoordKind) (hg : 1 ≤ g ∧ g ≤ 6) (v0 v : AView) (hv : ViewOf (nativeId g d k) v0) (a : AArray)
    (hs : arrayViewSetArray a v0 = .ok () v) (fs : List (Option Geom)) (hl : a.length = fs.length)
    (hf : ∀ (t : Nat) (f : Option Geom), fs[t]? = some f → FeatureAt g d k a t f) :
    ∃ arr, cppArrInit d.n (cppNesting g) v = .ok arr ∧ ∀ o len, o + len ≤ fs.length →
      cppTypedEdges g (cppMemOf v) (arr.slice o len) = some ((((fs.drop o).take len).filterMap id).flatMap (Geom.edgesAs d)) := by
  obtain ⟨h1, h2⟩ := native_elements hg hv hs hl hf (Nat.le_refl d.n)
  refine ⟨_, h1, fun o len ho => ?_⟩
  have h3 := h2.slice o len ho
  unfold cppTypedEdges
  by_cases hp : g = 1 ∨ g = 4
  · rw [if_pos hp, cppPointEdges, h3.vertices (fun x => x.allCoords.map fun c => c.2.take d.n) (fun x val h => h.1), optList_filterMap]
    rw [Option.map_some, List.map_flatMap]
    congr 1
    rw [List.flatMap_def, List.flatMap_def]
    congr 1
    refine List.map_congr_left fun x hx => ?_
    obtain ⟨t, ht⟩ := List.getElem?_of_mem (mem_filterMap hx)
    obtain ⟨-, val, -, -, hc, -, he⟩ := h3.value t x ht
    rw [he hp, List.map_map]
    refine List.map_congr_left fun c hcx => ?_
    obtain ⟨e1, e2⟩ := hc c hcx
    rw [Function.comp, List.take_of_length_le (by omega), e1, mapCoord_same d c.2 e2]
  · rw [if_neg hp]
    obtain ⟨m, hm⟩ : ∃ m, listDepth g = m + 1 := by
      have h6 : g = 2 ∨ g = 3 ∨ g = 5 ∨ g = 6 := by omega
      rcases h6 with rfl | rfl | rfl | rfl
      · exact ⟨_, rfl⟩
      · exact ⟨_, rfl⟩
      · exact ⟨_, rfl⟩
      · exact ⟨_, rfl⟩
    have hsq : ∃ o' l' off ch, (CppArr.slice ⟨sqOf d.n v (listDepth g) 0, v.validity⟩ o len).value = .list o' l' off ch := by
      rw [hm]
      exact ⟨_, _, _, _, rfl⟩
    obtain ⟨o', l', off, ch, hsq⟩ := hsq
    rw [h3.edges (Geom.edgesAs d) (fun x val h => h.2.2.1 (by omega) (by omega) rfl) hsq, optList_filterMap]

theorem take_prefix {d src : Dims} (h : src.axes <+: d.axes) (c : Coord) (hc : c.length = d.n) : c.take src.n = mapCoord d src c := by
  cases d with
  | xy =>
    match c, hc with
    | [_, _], _ => cases src <;> first | rfl | (simp [Dims.axes] at h)
  | xyz =>
    match c, hc with
    | [_, _, _], _ => cases src <;> first | rfl | (simp [Dims.axes] at h)
  | xym =>
    match c, hc with
    | [_, _, _], _ => cases src <;> first | rfl | (simp [Dims.axes] at h)
  | xyzm =>
    match c, hc with
    | [_, _, _, _], _ => cases src <;> first | rfl | (simp [Dims.axes] at h)

/-- Reading with a coordinate type whose axes are the first axes of the array's (all of them, XY, or XYZ of XYZM): the vertices without the
other ordinates. -/
theorem C71_fewer (g : Int) (d : Dims) (k : CoordKind) (hg : 1 ≤ g ∧ g ≤ 6) (v0 v : AView) (hv : ViewOf (nativeId g d k) v0) (a : AArray)
    (hs : arrayViewSetArray a v0 = .ok () v) (fs : List (Option Geom)) (hl : a.length = fs.length)
    (hf : ∀ (t : Nat) (f : Option Geom), fs[t]? = some f → FeatureAt g d k a t f) (src : Dims) (hsrc : src.axes <+: d.axes) :
    ∃ arr, cppArrInit src.n (cppNesting g) v = .ok arr ∧ ∀ o len, o + len ≤ fs.length →
      cppArrVertices (cppMemOf v) (arr.slice o len) = some ((((fs.drop o).take len).filterMap id).flatMap (Geom.verticesAs src)) := by
  have hn : src.n ≤ d.n := by
    have := hsrc.length_le
    cases src <;> cases d <;> first | decide | exact absurd this (by decide)
  obtain ⟨arr, h1, h2⟩ := C71_leading hg hv hs hl hf src hn
  refine ⟨arr, h1, fun o len ho => ?_⟩
  rw [h2 o len ho, List.flatMap_def, List.flatMap_def]
  congr 2
  refine List.map_congr_left fun x hx => ?_
  rw [Geom.verticesAs]
  refine List.map_congr_left fun c hcx => ?_
  obtain ⟨e1, e2⟩ := feature_coords hg hv hs hf x (mem_run (mem_filterMap hx)) c hcx
  rw [e1]
  obtain ⟨c1, c2⟩ := c
  dsimp only at e1 e2 ⊢
  exact take_prefix hsrc c2 e2

/-- Only the number of ordinates is compared. An XYM array is accepted where XYZ is expected, and delivers m as z; an XYZ or XYZM array is
accepted where XYM is expected, and delivers z as m. -/
theorem C71_axes_confused (g : Int) (d src : Dims) (ax : Axis)
    (hd : (d, src, ax) = (.xym, .xyz, .m) ∨ (d, src, ax) = (.xyz, .xym, .z) ∨ (d, src, ax) = (.xyzm, .xym, .z))
    (k : CoordKind) (hg : 1 ≤ g ∧ g ≤ 6) (v0 v : AView) (hv : ViewOf (nativeId g d k) v0) (a : AArray)
    (hs : arrayViewSetArray a v0 = .ok () v) (fs : List (Option Geom)) (hl : a.length = fs.length)
    (hf : ∀ (t : Nat) (f : Option Geom), fs[t]? = some f → FeatureAt g d k a t f) :
    ∃ arr, cppArrInit src.n (cppNesting g) v = .ok arr ∧ ∀ o len, o + len ≤ fs.length →
      cppArrVertices (cppMemOf v) (arr.slice o len) = some ((((fs.drop o).take len).filterMap id).flatMap fun x =>
        x.allCoords.map fun c => [ordNamed d c.2 .x, ordNamed d c.2 .y, ordNamed d c.2 ax]) := by
  have hn : src.n ≤ d.n := by rcases hd with h | h | h <;> cases h <;> decide
  obtain ⟨arr, h1, h2⟩ := C71_leading hg hv hs hl hf src hn
  refine ⟨arr, h1, fun o len ho => ?_⟩
  rw [h2 o len ho, List.flatMap_def, List.flatMap_def]
  congr 2
  refine List.map_congr_left fun x hx => ?_
  refine List.map_congr_left fun c hcx => ?_
  obtain ⟨e1, e2⟩ := feature_coords hg hv hs hf x (mem_run (mem_filterMap hx)) c hcx
  obtain ⟨c1, c2⟩ := c
  dsimp only at e1 e2 ⊢
  rcases hd with h | h | h <;> cases h
  · match c2, e2 with
    | [_, _, _], _ => rfl
  · match c2, e2 with
    | [_, _, _], _ => rfl
  · match c2, e2 with
    | [_, _, _, _], _ => rfl

/-- `Coords()` of any run of an array without nulls: a single sequence of all vertices. -/
theorem C71_coords (g : Int) (d : Dims) (k : CoordKind) (hg : 1 ≤ g ∧ g ≤ 6) (v0 v : AView) (hv : ViewOf (nativeId g d k) v0) (a : AArray)
    (hs : arrayViewSetArray a v0 = .ok () v) (gs : List Geom) (hl : a.length = gs.length)
    (hf : ∀ (t : Nat) (x : Geom), gs[t]? = some x → FeatureAt g d k a t (some x)) :
    ∃ arr, cppArrInit d.n (cppNesting g) v = .ok arr ∧ ∀ o len, o + len ≤ gs.length →
      ∃ c, cppAllCoords (cppNesting g) (arr.slice o len).value = some c ∧
        cppVertices (cppMemOf v) 0 c = some (((gs.drop o).take len).flatMap (Geom.verticesAs d)) := by
  have hfs : ∀ (t : Nat) (f : Option Geom), (gs.map some)[t]? = some f → FeatureAt g d k a t f := by
    intro t f ht
    rw [List.getElem?_map] at ht
    obtain ⟨x, hx, rfl⟩ := Option.map_eq_some_iff.mp ht
    exact hf t x hx
  obtain ⟨h1, h2⟩ := native_elements hg hv hs (fs := gs.map some) (by rw [List.length_map]; exact hl) hfs (Nat.le_refl d.n)
  refine ⟨_, h1, fun o len ho => ?_⟩
  have h3 := h2.slice o len (by rw [List.length_map]; exact ho)
  have h4 : ArrElements (cppMemOf v) ⟨(CppArr.slice ⟨sqOf d.n v (listDepth g) 0, v.validity⟩ o len).value, none⟩
      (((gs.map some).drop o).take len) (fun x val => val.vertices = x.verticesAs d) := by
    refine ⟨h3.length, fun bits hb => (by cases hb), ?_, ?_⟩
    · intro t ht
      have := List.mem_of_getElem? ht
      have := mem_run this
      obtain ⟨_, _, h⟩ := List.mem_map.mp this
      cases h
    · intro t x ht
      obtain ⟨-, val, h5, h6, h7, -⟩ := h3.value t x ht
      refine ⟨fun bits hb => (by cases hb), val, h5, ?_⟩
      rw [h6, Geom.verticesAs]
      refine List.map_congr_left fun c hc => ?_
      obtain ⟨e1, e2⟩ := h7 c hc
      rw [List.take_of_length_le (by omega), e1, mapCoord_same d c.2 e2]
  obtain ⟨vs, h5, h6⟩ := h4.contents rfl
  obtain ⟨c, h7, h8⟩ := allCoords_contents (listDepth g) _ vs
    (by rw [CppArr.slice, depth_slice, sqOf_depth]) h5
  refine ⟨c, by rw [cppNesting_eq hg]; exact h7, ?_⟩
  rw [h8, ← verticesL_flatten, ← List.flatMap_def, h6 Val.vertices (Geom.verticesAs d) fun x val h => h, optList_filterMap,
    ← List.map_drop, ← List.map_take, List.filterMap_map]
  congr 2
  exact List.filterMap_some

/-- Arrays of boxes: the lower and upper bounds of any run are the points of the boxes that are not null. -/
theorem C71_boxes (d : Dims) (v0 v : AView) (hv : ViewOf (boxId d) v0) (a : AArray) (hs : arrayViewSetArray a v0 = .ok () v)
    (bs : List (Option (Coord × Coord))) (hl : a.length = bs.length) (h0 : 0 ≤ a.offset)
    (hn : ∀ t : Nat, bs[t]? = some none → NullAt a t)
    (hb : ∀ (t : Nat) lo hi, bs[t]? = some (some (lo, hi)) → ValidAt a t ∧ BoxAt d a t lo hi) :
    ∃ arr, cppArrInit (2 * d.n) (cppNesting 990) v = .ok arr ∧ ∀ o len, o + len ≤ bs.length →
      cppArrVertices (cppMemOf v) (cppLowerBound d.cppT (arr.slice o len)) = some ((((bs.drop o).take len).filterMap id).map (·.1)) ∧
      cppArrVertices (cppMemOf v) (cppUpperBound d.cppT (arr.slice o len)) = some ((((bs.drop o).take len).filterMap id).map (·.2)) := by
  have hp := viewOf_box hv
  have hpv := hp.of_fixed (keeps_setArray a v0 v (by rw [hs]; rfl))
  have hd := dims_n_le d
  have hnv : v.nValues = ((2 * d.n : Nat) : Int) := hpv.nValues.trans (by cases d <;> rfl)
  have hst : v.stride = 1 := hpv.stride
  have hpost := setBox_post hp a
  rw [setArray_box hp] at hs
  obtain ⟨_, w, e1, e2⟩ := M.bind_eq_ok.mp hs
  rw [e1] at hpost
  obtain ⟨-, hex, ho, hlen, -⟩ := hpost
  obtain ⟨b, hb0⟩ : ∃ b, a.buffers[0]? = some b := by
    cases hb0 : a.buffers[0]? with
    | none => rw [hb0] at e2; cases e2
    | some b => exact ⟨b, rfl⟩
  have hw : v = { w with validity := b } := by
    rw [hb0] at e2
    cases e2
    rfl
  have hval : a.buffers[0]? = some v.validity := by rw [hb0, hw]
  have hex : CoordsExposed .separate v a := by rw [hw]; exact hex
  have ho : v.offset 0 = a.offset := by rw [hw]; exact ho
  have hlen : v.length 0 = a.length := by rw [hw]; exact hlen
  have hT : d.cppT.n = d.n := by cases d <;> rfl
  refine ⟨⟨sqOf (2 * d.n) v 0 0, v.validity⟩, ?_, ?_⟩
  · rw [arrInit_eq, hpv.nOffsets, hnv, show cppNesting 990 = 0 from rfl, if_pos ⟨rfl, by omega⟩]
  · intro o len hk
    -- the bounds as arrays of points over a run of values
    have key : ∀ (s : Nat) (pick : Coord × Coord → Coord), s + d.n ≤ 2 * d.n →
        (∀ lo hi, lo.length = d.n → hi.length = d.n → ((lo ++ hi).drop s).take d.n = pick (lo, hi)) →
        cppArrVertices (cppMemOf v) (CppArr.slice ⟨.coords (v.offset 0) (v.length 0) v.stride
          ((List.range' s d.n).map fun j => (j, (v.values j).2)), v.validity⟩ o len) =
          some ((((bs.drop o).take len).filterMap id).map pick) := by
      intro s pick hsn hpick
      have hE : ArrElements (cppMemOf v) ⟨.coords (v.offset 0) (v.length 0) v.stride
          ((List.range' s d.n).map fun j => (j, (v.values j).2)), v.validity⟩ bs (fun x val => val.vertices = [pick x]) := by
        refine ⟨?_, ?_, ?_, ?_⟩
        · show v.length 0 = _
          rw [hlen, hl]
        · intro _ _ _
          show 0 ≤ v.offset 0
          rw [ho]
          exact h0
        · intro t ht
          obtain ⟨bits, f1, -, f2⟩ := hn t ht
          rw [hval] at f1
          refine ⟨bits, Option.some.inj f1, ?_⟩
          show bitGet bits (v.offset 0 + (t : Int)).toNat = _
          rw [ho]
          exact f2
        · rintro t ⟨lo, hi⟩ ht
          obtain ⟨f1, f2⟩ := hb t lo hi ht
          refine ⟨?_, ?_⟩
          · intro bits hbits
            have hbits : v.validity = some bits := hbits
            rw [hbits] at hval
            show bitGet bits (v.offset 0 + (t : Int)).toNat = _
            rw [ho]
            rcases f1 with f1 | ⟨bits', f1, -, f3⟩
            · rw [f1] at hval; cases hval
            · rw [f1] at hval
              cases hval
              exact f3
          · refine ⟨.coord (((lo ++ hi).drop s).take d.n), ?_, ?_⟩
            · show item _ _ (v.offset 0 + (t : Int)) = _
              rw [ho]
              exact item_box hex hst f2 _ _ s d.n hsn
            · rw [Val.vertices, hpick lo hi f2.1 f2.2.1]
      rw [(hE.slice o len hk).vertices (fun x => [pick x]) fun x val h => h, optList_filterMap]
      congr 1
      generalize ((bs.drop o).take len).filterMap id = l
      induction l with
      | nil => rfl
      | cons x l ih => rw [List.flatMap_cons, ih]; rfl
    refine ⟨?_, ?_⟩
    · have h1 := key 0 (·.1) (by omega) fun lo hi e1 e2 => by rw [List.drop_zero, List.take_left' e1]
      rw [← h1]
      congr 1
      show CppArr.mk (.coords _ _ _ (((List.range (2 * d.n)).map fun j => (j, (v.values j).2)).take d.cppT.n)) _ = _
      rw [hT, ← List.map_take, List.take_range, Nat.min_eq_left (by omega), List.range_eq_range']
      rfl
    · have h1 := key d.n (·.2) (by omega) fun lo hi e1 e2 => by
        rw [List.drop_left' e1, List.take_of_length_le (by omega)]
      rw [← h1]
      congr 1
      show CppArr.mk (.coords _ _ _ ((((List.range (2 * d.n)).map fun j => (j, (v.values j).2)).drop d.cppT.n).take d.cppT.n)) _ = _
      rw [hT, ← List.map_drop, ← List.map_take, List.range_eq_range', List.drop_range', Nat.zero_add, Nat.mul_one,
        List.take_of_length_le (by rw [List.length_range']; omega), show 2 * d.n - d.n = d.n by omega]
      rfl

/-! ## Examples -/

example : ∃ v arr, arrayViewSetArray exLineArr exLineView = .ok () v ∧ cppArrInit 2 1 v = .ok arr ∧
    cppArrVerticesAs (cppMemOf v) Dims.xy.cppT Dims.xyz.cppT (arr.slice 0 2) = some [[dbl3, dbl1, Dbl.nan], [dbl2, dbl2, Dbl.nan]] ∧
    cppTypedEdges 2 (cppMemOf v) (arr.slice 0 2) = some [([dbl3, dbl1], [dbl2, dbl2])] := by
  obtain ⟨v, hv⟩ := exLine_set
  have hf : ∀ t f, [some (Geom.linestring .xy [[dbl3, dbl1], [dbl2, dbl2]]), none][t]? = some f → FeatureAt 2 .xy .interleaved exLineArr t f :=
    fun t f h => by have := exLine_features t f h; rwa [Nat.zero_add] at this
  obtain ⟨arr, h1, h2⟩ := C71_vertices 2 .xy .interleaved (by decide) exLineView v exLineView_of exLineArr hv _ rfl hf
  obtain ⟨arr', h1', h2'⟩ := C71_edges 2 .xy .interleaved (by decide) exLineView v exLineView_of exLineArr hv _ rfl hf
  rw [h1] at h1'
  cases h1'
  exact ⟨v, arr, hv, h1, h2 .xyz 0 2 (by decide), h2' 0 2 (by decide)⟩
example : ∃ v, arrayViewSetArray exLineArr exLineView = .ok () v ∧ cppArrInit 2 2 v = .error EINVAL ∧ cppArrInit 3 1 v = .error EINVAL := by
  obtain ⟨v, hv⟩ := exLine_set
  rcases C71_accepted 2 .xy .interleaved (by decide) exLineView v exLineView_of exLineArr hv 3 (by decide) .xy with ⟨h, _⟩ | ⟨_, h⟩
  · exact absurd h (by decide)
  rcases C71_accepted 2 .xy .interleaved (by decide) exLineView v exLineView_of exLineArr hv 2 (by decide) .xyz with ⟨_, h', _⟩ | ⟨_, h'⟩
  · exact absurd h' (by decide)
  exact ⟨v, hv, h, h'⟩

/-- An XYM point array with two points, the second null; read as XYZ, m comes out as z. -/
def exXymArr : AArray := .mk 2 1 0 [some [0x01]] [.mk 2 0 0 [none, some ([dbl1, dbl4].flatMap Dbl.bytes)] [],
  .mk 2 0 0 [none, some ([dbl2, dbl4].flatMap Dbl.bytes)] [], .mk 2 0 0 [none, some ([dbl3, dbl4].flatMap Dbl.bytes)] []]
def exXymView : AView := arrayViewInit ⟨some (str "geoarrow.point"), none, 2001, 1, 3, 1⟩
theorem exXymView_of : ViewOf (nativeId 1 .xym .separate) exXymView := .fromType rfl

theorem exXym_features (t : Nat) (f : Option Geom) (h : [some (Geom.point .xym [[dbl1, dbl2, dbl3]]), none][t]? = some f) :
    FeatureAt 1 .xym .separate exXymArr t f := by
  match t, h with
  | 0, rfl => exact ⟨.inr ⟨_, rfl, by decide, by decide +kernel⟩, .point (coordAt_of_check rfl (by decide +kernel))⟩
  | 1, rfl => exact ⟨_, rfl, by decide, by decide +kernel⟩

example : ∃ v arr, arrayViewSetArray exXymArr exXymView = .ok () v ∧ cppArrInit Dims.xyz.n (cppNesting 1) v = .ok arr ∧
    cppArrVertices (cppMemOf v) (arr.slice 0 2) = some [[dbl1, dbl2, dbl3]] := by
  have hs : ∃ v, arrayViewSetArray exXymArr exXymView = .ok () v := by
    have h : (match arrayViewSetArray exXymArr exXymView with | .ok _ _ => true | _ => false) = true := by decide +kernel
    split at h
    · exact ⟨_, by assumption⟩
    · cases h
  obtain ⟨v, hv⟩ := hs
  obtain ⟨arr, h1, h2⟩ := C71_axes_confused 1 .xym .xyz .m (.inl rfl) .separate (by decide) exXymView v exXymView_of exXymArr hv _ rfl exXym_features
  exact ⟨v, arr, hv, h1, h2 0 2 (by decide)⟩

theorem exBoxAt (i : Nat) (x y z w : Dbl) (h : ((List.range 4).all fun j => (exBoxArr.children[j]?.bind fun ch =>
    (ch.buffers[1]?.bind id).bind fun b => f64At b (ch.offset + (exBoxArr.offset + i))) == [x, y, z, w][j]?) = true) :
    BoxAt .xy exBoxArr i [x, y] [z, w] := by
  refine ⟨rfl, rfl, ?_⟩
  rw [List.all_eq_true] at h
  intro j u hu
  have hj := h j (by rw [List.mem_range]; exact (List.getElem?_eq_some_iff.mp hu).1)
  rw [show ([x, y, z, w] : List Dbl)[j]? = some u from hu] at hj
  simp only [beq_iff_eq] at hj
  obtain ⟨ch, h1, hj⟩ := Option.bind_eq_some_iff.mp hj
  obtain ⟨b, h2, hj⟩ := Option.bind_eq_some_iff.mp hj
  obtain ⟨b', h3, h4⟩ := Option.bind_eq_some_iff.mp h2
  exact ⟨ch, h1, b, by rw [h3]; exact congrArg some h4, hj⟩

example : ∃ v arr, arrayViewSetArray exBoxArr exBoxView = .ok () v ∧ cppArrInit 4 0 v = .ok arr ∧
    cppArrVertices (cppMemOf v) (cppLowerBound Dims.xy.cppT (arr.slice 1 1)) = some [[dbl1, dbl2]] ∧
    cppArrVertices (cppMemOf v) (cppUpperBound Dims.xy.cppT (arr.slice 1 1)) = some [[dbl3, dbl4]] := by
  have hs : ∃ v, arrayViewSetArray exBoxArr exBoxView = .ok () v := by
    have h : (match arrayViewSetArray exBoxArr exBoxView with | .ok _ _ => true | _ => false) = true := by decide +kernel
    split at h
    · exact ⟨_, by assumption⟩
    · cases h
  obtain ⟨v, hv⟩ := hs
  obtain ⟨arr, h1, h2⟩ := C71_boxes .xy exBoxView v exBoxView_of exBoxArr hv
    [some ([dbl4, dbl1], [dbl1, dbl1]), some ([dbl1, dbl2], [dbl3, dbl4])] rfl (by decide)
    (fun t ht => by
      match t, ht with
      | 0, ht => cases ht
      | 1, ht => cases ht)
    (fun t lo hi ht => by
      match t, ht with
      | 0, rfl => exact ⟨.inl rfl, exBoxAt _ _ _ _ _ (by decide +kernel)⟩
      | 1, rfl => exact ⟨.inl rfl, exBoxAt _ _ _ _ _ (by decide +kernel)⟩)
  exact ⟨v, arr, hv, h1, h2 1 1 (by decide)⟩

end Verif
