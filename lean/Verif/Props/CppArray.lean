import Verif.Proof.CppArray
import Verif.Spec.Axes
import Verif.Props.Visit
/-!
# C50, C51, C52, C59, C60: C++ array views
-/
namespace Verif
open Spec

/-! ## C50 -/

/-- Visiting a sequence of any nesting depth delivers the coordinates of its elements in order. -/
theorem C50_vertices {mem : CppMem} {s : CppSq} {vs : List Val} (h : Contents mem s vs) :
    cppVertices mem s.depth s = some (vs.flatMap Val.vertices) := by
  rw [List.flatMap_def, verticesL_flatten]
  exact vertices_contents _ s vs (Nat.le_refl _) h

/-- Dereferencing the iterator at position `i` of a list sequence gives a sequence holding exactly the `i`-th element. -/
theorem C50_element {mem : CppMem} {o l : Int} {off : List Int} {ch : CppSq} {vs : List Val}
    (h : Contents mem (.list o l off ch) vs) {i : Nat} (hi : i < vs.length) :
    ∃ e ws, cppElement o off ch i = some e ∧ vs[i] = .list ws ∧ Contents mem e ws := by
  have hg := span_get h.2 i (by rw [← span_length h.2]; exact hi)
  rw [List.getElem?_eq_getElem hi] at hg
  obtain ⟨e, ws, h1, h2, h3, _⟩ := element_contents hg
  exact ⟨e, ws, h1, h2, h3⟩

/-- A slice holds exactly the selected elements, and visiting it visits exactly those. -/
theorem C50_slice {mem : CppMem} {s : CppSq} {vs : List Val} (h : Contents mem s vs) {o k : Nat} (hk : o + k ≤ vs.length) :
    Contents mem (s.slice o k) ((vs.drop o).take k) ∧
    cppVertices mem (s.slice o k).depth (s.slice o k) = some (((vs.drop o).take k).flatMap Val.vertices) :=
  ⟨slice_contents h hk, C50_vertices (slice_contents h hk)⟩

/-- Visiting a nullable array delivers the coordinates of the elements that are not null. -/
theorem C50_array {mem : CppMem} {a : CppArr} {flags : List Bool} {vs : List Val} (hf : Flags a flags)
    (h : Contents mem a.value vs) : cppArrVertices mem a = some ((present flags vs).flatMap Val.vertices) := by
  rw [cppArrVertices]
  cases hv : a.validity with
  | none =>
    have h1 := hf.2.2
    rw [hv] at h1
    have := span_length h.2
    rw [present_all flags vs (by rw [hf.1, this]) h1]
    exact C50_vertices h
  | some bits =>
    rw [List.flatMap_def]
    exact masked hf h fun i v hi => itemVertices_run hi

/-- `is_valid` and `is_null` say what the bitmap says. -/
theorem C50_validity {a : CppArr} {flags : List Bool} (hf : Flags a flags) {i : Nat} (hi : i < flags.length) :
    a.isValid i = some flags[i] ∧ a.isNull i = some (!flags[i]) := by
  have h := isValid_of_flags hf hi
  rw [List.getElem?_eq_getElem hi] at h
  refine ⟨h, ?_⟩
  unfold CppArr.isValid at h
  unfold CppArr.isNull
  cases hv : a.validity with
  | none =>
    rw [hv] at h
    have h' : flags[i] = true := by simpa using h.symm
    rw [h']; rfl
  | some bits =>
    rw [hv] at h
    simp only [] at h ⊢
    split at h
    · cases h
    · rename_i hn
      rw [if_neg hn]
      rw [Option.map_eq_some_iff] at h ⊢
      obtain ⟨b, h1, h2⟩ := h
      exact ⟨b, h1, by rw [h2]⟩

/-- Slicing an array keeps elements and their validity together. -/
theorem C50_array_slice {mem : CppMem} {a : CppArr} {flags : List Bool} {vs : List Val} (hf : Flags a flags)
    (h : Contents mem a.value vs) {o k : Nat} (hk : o + k ≤ vs.length) :
    cppArrVertices mem (a.slice o k) =
      some ((present ((flags.drop o).take k) ((vs.drop o).take k)).flatMap Val.vertices) := by
  have hlen := span_length h.2
  have hfl : flags.length = vs.length := by rw [hf.1, hlen]
  refine C50_array (a := a.slice o k) ⟨?_, ?_, ?_⟩ (slice_contents h hk)
  · simp only [CppArr.slice, CppSq.slice, length_set, Int.toNat_natCast, List.length_take, List.length_drop]; omega
  · simp only [CppArr.slice, CppSq.slice, offset_set]; have := hf.2.1; omega
  · have h3 := hf.2.2
    simp only [CppArr.slice, CppSq.slice, offset_set]
    cases hv : a.validity with
    | none =>
      rw [hv] at h3
      intro b hb
      exact h3 b (List.mem_of_mem_drop (List.mem_of_mem_take hb))
    | some bits =>
      rw [hv] at h3
      intro i hi
      simp only [List.length_take, List.length_drop] at hi
      rw [List.getElem?_take_of_lt (by omega), List.getElem?_drop, ← h3 (o + i) (by omega)]
      have := hf.2.1
      rw [show (a.value.offset + (o : Int)).toNat + i = a.value.offset.toNat + (o + i) by omega]

/-- Two polygons over interleaved XY coordinates, the outer sequence starting at offset 1, the ring sequence at 1 and the
coordinates at 1. -/
def exSq : CppSq := .list 1 2 [0, 0, 1, 3] (.list 1 3 [7, 0, 2, 2, 3] (.coords 1 3 2 [(0, 0), (0, 1)]))
def exSqMem : CppMem := fun _ => [dbl4, dbl4, dbl1, dbl2, dbl2, dbl3, dbl3, dbl1]
def exSqVals : List Val :=
  [.list [.list [.coord [dbl1, dbl2], .coord [dbl2, dbl3]]], .list [.list [], .list [.coord [dbl3, dbl1]]]]
theorem exSq_contents : Contents exSqMem exSq exSqVals := ⟨by decide, rfl⟩
def exArr : CppArr := ⟨exSq, some [0b10#8]⟩
theorem exArr_flags : Flags exArr [true, false] := by
  refine ⟨rfl, by decide, ?_⟩
  intro i hi
  match i, hi with
  | 0, _ => rfl
  | 1, _ => rfl
example : cppVertices exSqMem 2 exSq = some [[dbl1, dbl2], [dbl2, dbl3], [dbl3, dbl1]] := C50_vertices exSq_contents
example : cppArrVertices exSqMem exArr = some [[dbl1, dbl2], [dbl2, dbl3]] := C50_array exArr_flags exSq_contents
example : cppArrVertices exSqMem (exArr.slice (1 : Nat) (1 : Nat)) = some [] :=
  C50_array_slice exArr_flags exSq_contents (by decide)

/-! ## C51 -/

/-- A coordinate sequence of `n` vertices gives the consecutive pairs in order. -/
theorem C51_coordinates {mem : CppMem} {o l st : Int} {v : List (Nat × Int)} {cs : List Coord}
    (h : Contents mem (.coords o l st v) (cs.map Val.coord)) :
    cppEdges mem 0 (.coords o l st v) = some (cs.zip cs.tail) := by
  rw [edges_contents 0 _ _ (Nat.le_refl _) h, Val.edges]
  have h1 : ∀ cs : List Coord, coordsIn (cs.map Val.coord) = cs := by
    intro cs; induction cs with
    | nil => rfl
    | cons c cs ih => simp [coordsIn, ih]
  have h2 : ∀ cs : List Coord, Val.edgesL (cs.map Val.coord) = [] := by
    intro cs; induction cs with
    | nil => rfl
    | cons c cs ih => simp [Val.edgesL, Val.edges, ih]
  have h3 : ∀ cs : List Coord, pairs cs = cs.zip cs.tail := by
    intro cs
    induction cs with
    | nil => rfl
    | cons c cs ih =>
      cases cs with
      | nil => rfl
      | cons d cs => rw [pairs, ih]; rfl
  rw [h1, h2, h3, List.append_nil]

/-- A list sequence of any depth gives the edges of its elements in order. -/
theorem C51_lists {mem : CppMem} {o l : Int} {off : List Int} {ch : CppSq} {vs : List Val}
    (h : Contents mem (.list o l off ch) vs) :
    cppEdges mem (ch.depth + 1) (.list o l off ch) = some (vs.flatMap Val.edges) := by
  rw [edges_contents (ch.depth + 1) _ _ (Nat.le_refl _) h, Val.edges, coordsIn_lists _ _ _ h.2, List.flatMap_def, edgesL_flatten]
  rfl

/-- A nullable array of lists gives the edges of the elements that are not null. -/
theorem C51_array {mem : CppMem} {a : CppArr} {o l : Int} {off : List Int} {ch : CppSq} {flags : List Bool} {vs : List Val}
    (ha : a.value = .list o l off ch) (hf : Flags a flags) (h : Contents mem a.value vs) :
    cppArrEdges mem a = some ((present flags vs).flatMap Val.edges) := by
  rw [cppArrEdges]
  cases hv : a.validity with
  | none =>
    have h1 := hf.2.2
    rw [hv] at h1
    have := span_length h.2
    rw [present_all flags vs (by rw [hf.1, this]) h1]
    simp only []
    rw [ha] at h ⊢
    exact C51_lists h
  | some bits =>
    rw [List.flatMap_def]
    refine masked hf h fun i v hi => ?_
    rw [ha] at hi ⊢
    exact itemEdges_run hi

/-- Point and multipoint arrays give every coordinate of a non-null element as a degenerate edge. -/
theorem C51_points {mem : CppMem} {a : CppArr} {flags : List Bool} {vs : List Val} (hf : Flags a flags)
    (h : Contents mem a.value vs) :
    cppPointEdges mem a = some (((present flags vs).flatMap Val.vertices).map fun c => (c, c)) := by
  rw [cppPointEdges, C50_array hf h]
  rfl

example : cppEdges exSqMem 2 exSq = some [([dbl1, dbl2], [dbl2, dbl3])] := C51_lists exSq_contents
example : cppEdges exSqMem 0 (.coords 1 3 2 [(0, 0), (0, 1)]) =
    some [([dbl1, dbl2], [dbl2, dbl3]), ([dbl2, dbl3], [dbl3, dbl1])] :=
  C51_coordinates (cs := [[dbl1, dbl2], [dbl2, dbl3], [dbl3, dbl1]]) ⟨by decide, rfl⟩
example : cppArrEdges exSqMem exArr = some [([dbl1, dbl2], [dbl2, dbl3])] := C51_array rfl exArr_flags exSq_contents
example : cppPointEdges exSqMem exArr = some [([dbl1, dbl2], [dbl1, dbl2]), ([dbl2, dbl3], [dbl2, dbl3])] :=
  C51_points exArr_flags exSq_contents

/-! ## C52 -/

/-- A box contains nothing: every minimum is +infinity and every maximum -infinity. -/
def EmptyBox (n : Nat) (box : List Dbl) : Prop :=
  box = List.replicate n (0x7ff0000000000000#64) ++ List.replicate n (0xfff0000000000000#64)

/-- True of the XY and XYZM boxes. Missing: XYZ and XYM, where it is false (`C52_xyz_xym_not_empty`). -/
theorem C52_empty_partial : EmptyBox 2 (cppEmptyBox Dims.xy.cppT) ∧ EmptyBox 4 (cppEmptyBox Dims.xyzm.cppT) := ⟨rfl, rfl⟩

/-- The XYZ and XYM boxes are initialised from four values only: the third minimum is -infinity, the last two maxima are
0, so the box is not empty. -/
theorem C52_xyz_xym_not_empty (d : Dims) (hd : d = .xyz ∨ d = .xym) :
    ¬ EmptyBox 3 (cppEmptyBox d.cppT) ∧
    cppLower d.cppT (cppEmptyBox d.cppT) = [Dbl.inf, Dbl.inf, Dbl.negInf] ∧
    cppUpper d.cppT (cppEmptyBox d.cppT) = [Dbl.negInf, 0#64, 0#64] := by
  rcases hd with rfl | rfl <;> exact ⟨by unfold EmptyBox; decide, rfl, rfl⟩

/-! ## C59 -/

/-- Converting a coordinate between any two coordinate types keeps same-named ordinates and fills the others with NaN. -/
theorem C59_coord_cast (src dst : Dims) (c : Coord) (hc : c.length = src.n) :
    cppCast src.cppT dst.cppT c = some (mapCoord src dst c) := by
  cases src <;> simp only [Dims.n] at hc
  · match c, hc with
    | [x, y], _ => cases dst <;> rfl
  · match c, hc with
    | [x, y, z], _ => cases dst <;> rfl
  · match c, hc with
    | [x, y, m], _ => cases dst <;> rfl
  · match c, hc with
    | [x, y, z, m], _ => cases dst <;> rfl

example : cppCast Dims.xym.cppT Dims.xyzm.cppT [dbl1, dbl2, dbl3] = some [dbl1, dbl2, Dbl.nan, dbl3] := rfl

/-! ## C60 -/

/-- Of a box array holding boxes of `2n` values, the lower-bound array holds the first halves and the upper-bound array
the second halves, with the same validity. -/
theorem C60_bounds {mem : CppMem} {d : Dims} {a : CppArr} {o l st : Int} {v : List (Nat × Int)} {boxes : List Coord}
    (ha : a.value = .coords o l st v) (hv : v.length = 2 * d.n)
    (h : Contents mem a.value (boxes.map Val.coord)) :
    Contents mem (cppLowerBound d.cppT a).value (boxes.map fun b => Val.coord (b.take d.n)) ∧
    Contents mem (cppUpperBound d.cppT a).value (boxes.map fun b => Val.coord (b.drop d.n)) ∧
    (cppLowerBound d.cppT a).validity = a.validity ∧ (cppUpperBound d.cppT a).validity = a.validity := by
  have hn : d.cppT.n = d.n := by cases d <;> rfl
  have key : ∀ (w : List (Nat × Int)) (r : Coord → Coord),
      (∀ i c, v.mapM (fun v => cppAt (mem v.1) (v.2 + i * st)) = some c →
        w.mapM (fun v => cppAt (mem v.1) (v.2 + i * st)) = some (r c)) →
      Contents mem (.coords o l st w) (boxes.map fun b => Val.coord (r b)) := by
    intro w r hr
    rw [ha] at h
    refine ⟨h.1, ?_⟩
    have h2 := h.2
    simp only [CppSq.offset, CppSq.length] at h2 ⊢
    have := span_map (g := item mem (.coords o l st w))
      (r := fun x => match x with | .coord c => Val.coord (r c) | x => x) h2 (by
        intro i x _ _ hx
        simp only [item, Option.map_eq_some_iff] at hx
        obtain ⟨c, hc, rfl⟩ := hx
        simp only [item, hr i c hc]
        rfl)
    rw [this, List.map_map]
    rfl
  have hlow := key (v.take d.n) (·.take d.n) (fun i c hc => by
    exact mapM_take _ _ _ _ hc)
  have hup := key ((v.drop d.n).take d.n) (·.drop d.n) (fun i c hc => by
    rw [List.take_of_length_le (by simp; omega)]
    exact mapM_drop _ _ _ _ hc)
  refine ⟨?_, ?_, ?_, ?_⟩
  · simp only [cppLowerBound, ha, hn]; exact hlow
  · simp only [cppUpperBound, ha, hn]; exact hup
  · simp only [cppLowerBound, ha]
  · simp only [cppUpperBound, ha]
where
  mapM_take {α β} (f : α → Option β) : ∀ (n : Nat) (l : List α) (c : List β), l.mapM f = some c →
      (l.take n).mapM f = some (c.take n)
    | 0, l, c, h => rfl
    | n + 1, [], c, h => by cases h; rfl
    | n + 1, x :: l, c, h => by
      simp only [List.mapM_cons, Option.bind_eq_bind, Option.bind_eq_some_iff] at h
      obtain ⟨y, hy, ys, hys, h⟩ := h
      cases h
      simp only [List.take_succ_cons, List.mapM_cons, hy, mapM_take f n l ys hys]
      rfl
  mapM_drop {α β} (f : α → Option β) : ∀ (n : Nat) (l : List α) (c : List β), l.mapM f = some c →
      (l.drop n).mapM f = some (c.drop n)
    | 0, l, c, h => h
    | n + 1, [], c, h => by cases h; rfl
    | n + 1, x :: l, c, h => by
      simp only [List.mapM_cons, Option.bind_eq_bind, Option.bind_eq_some_iff] at h
      obtain ⟨y, hy, ys, hys, h⟩ := h
      cases h
      exact mapM_drop f n l ys hys

example : Contents exSqMem (cppUpperBound Dims.xy.cppT ⟨.coords 1 1 4 [(0, 0), (0, 1), (0, 2), (0, 3)], none⟩).value
    [.coord [dbl3, dbl1]] :=
  (C60_bounds (d := .xy) (boxes := [[dbl2, dbl3, dbl3, dbl1]]) rfl rfl ⟨by decide, rfl⟩).2.1

end Verif
