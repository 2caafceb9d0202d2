import Verif.Proof.KernelBox
/-! # The array of boxes -/
namespace Verif
open Spec

theorem length_flat (xs : List Dbl) : (xs.flatMap Dbl.bytes).length = 8 * xs.length := by
  induction xs with
  | nil => rfl
  | cons x xs ih =>
    rw [List.flatMap_cons, List.length_append, ih, List.length_cons, show (Dbl.bytes x).length = 8 from by simp [Dbl.bytes]]
    omega

theorem f64At_flat : ∀ {xs : List Dbl} {i : Nat} {x : Dbl}, xs[i]? = some x → f64At (xs.flatMap Dbl.bytes) (i : Int) = some x := by
  intro xs i x h
  have hi := (List.getElem?_eq_some_iff.mp h).1
  unfold f64At
  rw [if_pos ⟨by omega, by rw [length_flat]; omega⟩]
  congr 1
  have hd : ((8 : Int) * (i : Int)).toNat = 8 * i := by omega
  rw [hd]
  clear hd hi
  induction xs generalizing i with
  | nil => cases h
  | cons y ys ih =>
    have hy : (Dbl.bytes y).length = 8 := by simp [Dbl.bytes]
    rw [List.flatMap_cons]
    cases i with
    | zero =>
      cases h
      rw [Nat.mul_zero, List.drop_zero, List.take_append_of_le_length (by omega), List.take_of_length_le (by omega)]
      exact Dbl.ofBytes_bytes x
    | succ i =>
      rw [List.drop_append, List.drop_eq_nil_of_le (by omega), hy, show 8 * (i + 1) - 8 = 8 * i by omega, List.nil_append]
      exact ih (by simpa using h)

/-- An array with the given rows. -/
structure RowsArray (out : AArray) (rows : List BoxRow) : Prop where
  length : out.length = rows.length
  offset : out.offset = 0
  nullCount : out.nullCount = ((rows.map BoxRow.valid).filter (!·)).length
  children : out.children.length = 4 ∧ ∀ c ∈ out.children, c.length = rows.length ∧ c.offset = 0
  row : ∀ (i : Nat) (r : BoxRow), rows[i]? = some r → (if r.valid then ValidAt out i else NullAt out i) ∧ BoxAt .xy out i [r.x0, r.y0] [r.x1, r.y1]

theorem minimal_double {a : AArray} : naMinimalOk .double a = true ↔
    0 ≤ a.length ∧ ((a.nullCount = 0 ∧ a.bufSize 0 = 0) ∨ (bytesForBits a.length.toNat : Int) ≤ a.bufSize 0) ∧ 8 * a.length ≤ a.bufSize 1 := by
  simp [naMinimalOk, and_assoc]

theorem minimal_struct {a : AArray} : naMinimalOk .struct a = true ↔
    0 ≤ a.length ∧ ((a.nullCount = 0 ∧ a.bufSize 0 = 0) ∨ (bytesForBits a.length.toNat : Int) ≤ a.bufSize 0) ∧ ∀ c ∈ a.children, a.length ≤ c.length := by
  simp [naMinimalOk, and_assoc]

theorem boxArray_ok {rows : List BoxRow} {s : BoxS} (h : Pending rows s) :
    naTreeMinimal boxTree (boxArray s) = true ∧ naTreeDefault boxTree (boxArray s) = some true := by
  have l0 : s.values0.length = rows.length := by rw [h.v0, List.length_map]
  have l1 : s.values1.length = rows.length := by rw [h.v1, List.length_map]
  have l2 : s.values2.length = rows.length := by rw [h.v2, List.length_map]
  have l3 : s.values3.length = rows.length := by rw [h.v3, List.length_map]
  have hc : ∀ vs : List Dbl, vs.length = rows.length → naTreeMinimal (.node .double []) (boxChild s.values0.length vs) = true := by
    intro vs hv
    have : naMinimalOk .double (boxChild s.values0.length vs) = true := by
      refine minimal_double.mpr ⟨?_, .inl ⟨rfl, rfl⟩, ?_⟩
      · show 0 ≤ (s.values0.length : Int)
        omega
      · show 8 * (s.values0.length : Int) ≤ ((vs.flatMap Dbl.bytes).length : Int)
        rw [length_flat]
        omega
    simp only [naTreeMinimal, naTreesMinimal, this, Bool.and_true]
  have hroot : naMinimalOk .struct (boxArray s) = true := by
    refine minimal_struct.mpr ⟨?_, ?_, ?_⟩
    · show 0 ≤ (s.values0.length : Int)
      omega
    · by_cases hn : 0 < s.nullCount
      · right
        rcases h.bits with ⟨_, _, _, h4⟩ | ⟨h1, h2⟩
        · exfalso
          have := h.nulls
          rw [h4] at this
          simp at this
          omega
        · have e1 := h2.2.1
          have e2 := h2.2.2.1
          rw [List.length_map] at e1
          have hb : (boxArray s).bufSize 0 = ((s.validity.buf.take s.validity.sizeBytes).length : Int) := by
            show (match [if 0 < s.nullCount then (if s.validity.buf = [] then none else some (s.validity.buf.take s.validity.sizeBytes)) else none][0]? with
              | some (some b) => (b.length : Int)
              | _ => 0) = _
            rw [if_pos hn, if_neg h1]
            rfl
          rw [hb, List.length_take, Nat.min_eq_left e2, e1]
          show ((bytesForBits (s.values0.length : Int).toNat : Nat) : Int) ≤ _
          rw [l0]
          simp
      · left
        constructor
        · show (if 0 < s.nullCount then (-1 : Int) else 0) = 0
          rw [if_neg hn]
        · show (match [if 0 < s.nullCount then (if s.validity.buf = [] then none else some (s.validity.buf.take s.validity.sizeBytes)) else none][0]? with
              | some (some b) => (b.length : Int)
              | _ => 0) = _
          rw [if_neg hn]
          rfl
    · intro c hc
      have : c ∈ [boxChild s.values0.length s.values0, boxChild s.values0.length s.values1, boxChild s.values0.length s.values2, boxChild s.values0.length s.values3] := hc
      simp only [List.mem_cons, List.not_mem_nil, or_false] at this
      rcases this with rfl | rfl | rfl | rfl <;> exact Int.le_refl _
  constructor
  · unfold boxTree
    rw [naTreeMinimal, hroot, Bool.true_and]
    show naTreesMinimal _ [boxChild s.values0.length s.values0, boxChild s.values0.length s.values1, boxChild s.values0.length s.values2, boxChild s.values0.length s.values3] = true
    simp only [naTreesMinimal, hc _ l0, hc _ l1, hc _ l2, hc _ l3, Bool.and_true]
  · have hd : naDefaultOk .struct (boxArray s) = some true := by
      simp [naDefaultOk, boxArray, boxChild, AArray.children, AArray.length]
    unfold boxTree
    rw [naTreeDefault, hd]
    rfl

theorem boxFinish_run {rows : List BoxRow} {s : BoxS} (h : Pending rows s) :
    ∃ s', boxFinish s = .ok ((boxArray s).withNullCount s.nullCount) s' ∧ RowsArray ((boxArray s).withNullCount s.nullCount) rows := by
  obtain ⟨h1, h2⟩ := boxArray_ok h
  have l0 : s.values0.length = rows.length := by rw [h.v0, List.length_map]
  refine ⟨{ s with validity := Bitmap.init, values0 := [], values1 := [], values2 := [], values3 := [], nullCount := 0 }, ?_, ?_⟩
  rotate_left
  · refine ⟨?_, rfl, h.nulls, ⟨rfl, ?_⟩, ?_⟩
    · show (s.values0.length : Int) = _
      rw [l0]
    · intro c hc
      have : c ∈ [boxChild s.values0.length s.values0, boxChild s.values0.length s.values1, boxChild s.values0.length s.values2, boxChild s.values0.length s.values3] := hc
      simp only [List.mem_cons, List.not_mem_nil, or_false] at this
      rcases this with rfl | rfl | rfl | rfl <;> exact ⟨by show (s.values0.length : Int) = _; rw [l0], rfl⟩
    · intro i r hr
      have hi := (List.getElem?_eq_some_iff.mp hr).1
      constructor
      · by_cases hn : 0 < s.nullCount
        · rcases h.bits with ⟨_, _, _, h4⟩ | ⟨e1, e2⟩
          · exfalso
            have := h.nulls
            rw [h4] at this
            simp at this
            omega
          · have hb : (boxArray s).buffers = [some (s.validity.buf.take s.validity.sizeBytes)] := by
              show [if 0 < s.nullCount then (if s.validity.buf = [] then none else some (s.validity.buf.take s.validity.sizeBytes)) else none] = _
              rw [if_pos hn, if_neg e1]
            have hbit : bitGet (s.validity.buf.take s.validity.sizeBytes) i = some r.valid := by
              obtain ⟨f1, f2, f3, f4⟩ := e2
              have hv := f4 i r.valid (by rw [List.getElem?_map, hr]; rfl)
              rw [List.length_map] at f2
              have hsz := bytesForBits_spec rows.length
              have hlt : i / 8 < s.validity.sizeBytes := by omega
              have hlt2 : i / 8 < (s.validity.buf.take s.validity.sizeBytes).length := by rw [List.length_take]; omega
              have e := bitGet_eq (buf := s.validity.buf) (i := i) (by omega)
              rw [hv] at e
              rw [← e]
              unfold bitGet
              rw [List.getElem?_take_of_lt hlt]
            have h0 : ((0 : Int) + (i : Int)).toNat = i := by omega
            cases hv : r.valid with
            | true =>
              rw [if_pos rfl]
              rw [hv] at hbit
              exact .inr ⟨_, by show (boxArray s).buffers[0]? = _; rw [hb]; rfl, Int.le_refl _, by rw [show ((boxArray s).withNullCount s.nullCount).offset = 0 from rfl, h0]; exact hbit⟩
            | false =>
              rw [if_neg (by decide)]
              rw [hv] at hbit
              exact ⟨_, by show (boxArray s).buffers[0]? = _; rw [hb]; rfl, Int.le_refl _, by rw [show ((boxArray s).withNullCount s.nullCount).offset = 0 from rfl, h0]; exact hbit⟩
        · have hv : r.valid = true := by
            have hn2 := h.nulls
            have h0 : ((rows.map BoxRow.valid).filter (!·)) = [] := List.eq_nil_of_length_eq_zero (by omega)
            rw [List.filter_eq_nil_iff] at h0
            have := h0 r.valid (List.mem_map.mpr ⟨r, List.mem_of_getElem? hr, rfl⟩)
            simpa using this
          rw [if_pos hv]
          left
          show [if 0 < s.nullCount then _ else none][0]? = _
          rw [if_neg hn]
          rfl
      · refine ⟨rfl, rfl, ?_⟩
        intro j x hx
        have hd : ∀ (vs : List Dbl) (f : BoxRow → Dbl), vs = rows.map f → DoubleAt (boxChild s.values0.length vs) (0 + (i : Int)) (f r) := by
          intro vs f hv
          refine ⟨vs.flatMap Dbl.bytes, rfl, ?_⟩
          show f64At _ (0 + (0 + (i : Int))) = _
          rw [Int.zero_add, Int.zero_add]
          exact f64At_flat (by rw [hv, List.getElem?_map, hr]; rfl)
        match j, hx with
        | 0, hx => cases hx; exact ⟨_, rfl, hd _ _ h.v0⟩
        | 1, hx => cases hx; exact ⟨_, rfl, hd _ _ h.v1⟩
        | 2, hx => cases hx; exact ⟨_, rfl, hd _ _ h.v2⟩
        | 3, hx => cases hx; exact ⟨_, rfl, hd _ _ h.v3⟩
        | j + 4, hx => cases hx
  · unfold boxFinish
    rw [M.bind_run, M.get_run]
    dsimp only
    rw [M.bind_run, M.modify_run]
    dsimp only
    rw [if_neg (by rw [h1]; decide), h2]
    rfl

/-- A successful call leaves nothing behind. -/
theorem boxFinish_clean {s s' : BoxS} {out : AArray} (h : boxFinish s = .ok out s') : Pending [] s' := by
  unfold boxFinish at h
  rw [M.bind_run, M.get_run] at h
  dsimp only at h
  rw [M.bind_run, M.modify_run] at h
  dsimp only at h
  split at h
  · cases h
  · obtain ⟨ok, s1, h1, h2⟩ := M.bind_eq_ok.mp h
    split at h2
    · cases hq : naTreeDefault boxTree (boxArray s) with
      | none => rw [hq] at h1; cases h1
      | some v =>
        rw [hq] at h1
        cases h1
        cases h2
        exact ⟨rfl, rfl, rfl, rfl, VOk.nil rfl rfl, rfl⟩
    · cases h2

theorem bounds_of (g : Geom) : IsBounds g.allCoords (rowOf (some g)).x0 (rowOf (some g)).y0 (rowOf (some g)).x1 (rowOf (some g)).y1 :=
  ⟨isLeast_inf _, isLeast_inf _, isGreatest_negInf _, isGreatest_negInf _⟩

theorem numNulls_rows (fs : List (Option Geom)) : ((((fs.map rowOf).map BoxRow.valid).filter (!·)).length) = numNulls fs := by
  unfold numNulls
  rw [List.map_map]
  induction fs with
  | nil => rfl
  | cons f fs ih =>
    rw [List.map_cons, List.filter_cons, List.filter_cons]
    cases f <;> simpa [rowOf] using ih

theorem boundsArray_of {out : AArray} {fs : List (Option Geom)} (h : RowsArray out (fs.map rowOf)) : BoundsArray out fs := by
  obtain ⟨h1, h2, h3, ⟨h4, h5⟩, h6⟩ := h
  refine ⟨by rw [h1, List.length_map], h2, by rw [h3, numNulls_rows], ⟨h4, fun c hc => by rw [(h5 c hc).1, List.length_map]; exact ⟨rfl, (h5 c hc).2⟩⟩, ?_⟩
  intro i f hf
  obtain ⟨e1, e2⟩ := h6 i (rowOf f) (by rw [List.getElem?_map, hf]; rfl)
  cases f with
  | none => exact e1
  | some g => exact ⟨e1, _, _, _, _, e2, bounds_of g⟩

end Verif
