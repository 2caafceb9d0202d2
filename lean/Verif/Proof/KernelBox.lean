import Verif.Spec.Kernel
import Verif.Proof.NativeWriter
import Verif.Proof.NativeVisit
import Verif.Proof.Batch
/-! # Bounding boxes -/
namespace Verif
open Spec

/-! ## Least and greatest -/

def loOf (m : Dbl) (xs : List Dbl) : Dbl := xs.foldl (fun m x => if m.gt x then x else m) m
def hiOf (m : Dbl) (xs : List Dbl) : Dbl := xs.foldl (fun m x => if x.gt m then x else m) m

theorem nan_gt {x y : Dbl} (h : Dbl.IsNaN x) : ¬ Dbl.Exceeds y x := fun hc => hc.2.1 h
theorem nan_gt' {x y : Dbl} (h : Dbl.IsNaN x) : ¬ Dbl.Exceeds x y := fun hc => hc.1 h

theorem inf_number : ¬ Dbl.IsNaN Dbl.inf := by unfold Dbl.IsNaN Dbl.inf; decide
theorem negInf_number : ¬ Dbl.IsNaN Dbl.negInf := by unfold Dbl.IsNaN Dbl.negInf; decide

theorem inf_scaled (x : Dbl) (h : ¬ Dbl.IsNaN x) : Dbl.scaled x ≤ Dbl.scaled Dbl.inf ∧ (Dbl.scaled x = Dbl.scaled Dbl.inf → x = Dbl.inf) := by
  have hg := gt_iff x Dbl.inf
  have hx := x.isLt
  have hn := inf_number
  have key : x.gt Dbl.inf = false := by
    unfold Dbl.gt Dbl.inf
    unfold Dbl.IsNaN at h
    simp only [Bool.and_eq_false_iff, decide_eq_false_iff_not]
    right
    have : (0x7ff0000000000000#64).toNat = 0x7ff0000000000000 := rfl
    rw [this]
    split <;> split <;> omega
  rw [key] at hg
  have h1 : Dbl.scaled x ≤ Dbl.scaled Dbl.inf := by
    by_cases hc : Dbl.scaled Dbl.inf < Dbl.scaled x
    · have := hg.mpr ⟨h, hn, hc⟩
      cases this
    · omega
  refine ⟨h1, fun he => ?_⟩
  have hg2 := gt_iff Dbl.inf x
  by_cases hb : Dbl.inf.gt x = true
  · have := (hg2.mp hb).2.2
    omega
  · unfold Dbl.gt Dbl.inf at hb
    unfold Dbl.IsNaN at h
    simp only [Bool.and_eq_true, decide_eq_true_eq, not_and] at hb
    have e : (0x7ff0000000000000#64).toNat = 0x7ff0000000000000 := rfl
    rw [e] at hb
    have := hb ⟨by omega, by omega⟩
    apply BitVec.eq_of_toNat_eq
    unfold Dbl.inf
    rw [e]
    split at this <;> split at this <;> omega

theorem neginf_scaled (x : Dbl) (h : ¬ Dbl.IsNaN x) : Dbl.scaled Dbl.negInf ≤ Dbl.scaled x ∧ (Dbl.scaled Dbl.negInf = Dbl.scaled x → x = Dbl.negInf) := by
  have hg := gt_iff Dbl.negInf x
  have hx := x.isLt
  have hn := negInf_number
  have key : Dbl.negInf.gt x = false := by
    unfold Dbl.gt Dbl.negInf
    unfold Dbl.IsNaN at h
    simp only [Bool.and_eq_false_iff, decide_eq_false_iff_not]
    right
    have : (0xfff0000000000000#64).toNat = 0xfff0000000000000 := rfl
    rw [this]
    split <;> split <;> omega
  rw [key] at hg
  have h1 : Dbl.scaled Dbl.negInf ≤ Dbl.scaled x := by
    by_cases hc : Dbl.scaled x < Dbl.scaled Dbl.negInf
    · have := hg.mpr ⟨hn, h, hc⟩
      cases this
    · omega
  refine ⟨h1, fun he => ?_⟩
  have hg2 := gt_iff x Dbl.negInf
  by_cases hb : x.gt Dbl.negInf = true
  · have := (hg2.mp hb).2.2
    omega
  · unfold Dbl.gt Dbl.negInf at hb
    unfold Dbl.IsNaN at h
    simp only [Bool.and_eq_true, decide_eq_true_eq, not_and] at hb
    have e : (0xfff0000000000000#64).toNat = 0xfff0000000000000 := rfl
    rw [e] at hb
    have := hb ⟨by omega, by omega⟩
    apply BitVec.eq_of_toNat_eq
    unfold Dbl.negInf
    rw [e]
    split at this <;> split at this <;> omega

theorem isLeast_step {xs : List Dbl} {m x : Dbl} (h : IsLeast xs m) : IsLeast (xs ++ [x]) (if m.gt x then x else m) := by
  by_cases hg : m.gt x = true
  · rw [if_pos hg]
    have hx := (gt_iff m x).mp hg
    refine .inl ⟨by simp, hx.2.1, ?_⟩
    intro y hy
    rcases List.mem_append.mp hy with hy | hy
    · rcases h with ⟨_, _, h3⟩ | ⟨h1, _⟩
      · intro hc
        exact h3 y hy ⟨hx.1, hc.2.1, Int.lt_trans hc.2.2 hx.2.2⟩
      · exact nan_gt (h1 y hy)
    · simp only [List.mem_singleton] at hy
      subst hy
      exact fun hc => by have := hc.2.2; omega
  · rw [if_neg hg]
    rcases h with ⟨h1, h2, h3⟩ | ⟨h1, rfl⟩
    · refine .inl ⟨by simp [h1], h2, ?_⟩
      intro y hy
      rcases List.mem_append.mp hy with hy | hy
      · exact h3 y hy
      · simp only [List.mem_singleton] at hy
        subst hy
        exact fun hc => hg ((gt_iff _ _).mpr hc)
    · by_cases hn : Dbl.IsNaN x
      · refine .inr ⟨?_, rfl⟩
        intro y hy
        rcases List.mem_append.mp hy with hy | hy
        · exact h1 y hy
        · simp only [List.mem_singleton] at hy
          subst hy
          exact hn
      · obtain ⟨i1, i2⟩ := inf_scaled x hn
        have hx : x = Dbl.inf := i2 (by
          by_cases hc : Dbl.scaled x < Dbl.scaled Dbl.inf
          · exact absurd ((gt_iff _ _).mpr ⟨inf_number, hn, hc⟩) hg
          · omega)
        subst hx
        refine .inl ⟨by simp, hn, ?_⟩
        intro y hy
        rcases List.mem_append.mp hy with hy | hy
        · exact nan_gt (h1 y hy)
        · simp only [List.mem_singleton] at hy
          subst hy
          exact fun hc => by have := hc.2.2; omega

theorem isGreatest_step {xs : List Dbl} {m x : Dbl} (h : IsGreatest xs m) : IsGreatest (xs ++ [x]) (if x.gt m then x else m) := by
  by_cases hg : x.gt m = true
  · rw [if_pos hg]
    have hx := (gt_iff x m).mp hg
    refine .inl ⟨by simp, hx.1, ?_⟩
    intro y hy
    rcases List.mem_append.mp hy with hy | hy
    · rcases h with ⟨_, _, h3⟩ | ⟨h1, _⟩
      · intro hc
        exact h3 y hy ⟨hc.1, hx.2.1, Int.lt_trans hx.2.2 hc.2.2⟩
      · exact nan_gt' (h1 y hy)
    · simp only [List.mem_singleton] at hy
      subst hy
      exact fun hc => by have := hc.2.2; omega
  · rw [if_neg hg]
    rcases h with ⟨h1, h2, h3⟩ | ⟨h1, rfl⟩
    · refine .inl ⟨by simp [h1], h2, ?_⟩
      intro y hy
      rcases List.mem_append.mp hy with hy | hy
      · exact h3 y hy
      · simp only [List.mem_singleton] at hy
        subst hy
        exact fun hc => hg ((gt_iff _ _).mpr hc)
    · by_cases hn : Dbl.IsNaN x
      · refine .inr ⟨?_, rfl⟩
        intro y hy
        rcases List.mem_append.mp hy with hy | hy
        · exact h1 y hy
        · simp only [List.mem_singleton] at hy
          subst hy
          exact hn
      · obtain ⟨i1, i2⟩ := neginf_scaled x hn
        have hx : x = Dbl.negInf := i2 (by
          by_cases hc : Dbl.scaled Dbl.negInf < Dbl.scaled x
          · exact absurd ((gt_iff _ _).mpr ⟨hn, negInf_number, hc⟩) hg
          · omega)
        subst hx
        refine .inl ⟨by simp, hn, ?_⟩
        intro y hy
        rcases List.mem_append.mp hy with hy | hy
        · exact nan_gt' (h1 y hy)
        · simp only [List.mem_singleton] at hy
          subst hy
          exact fun hc => by have := hc.2.2; omega

theorem isLeast_lo : ∀ (ys xs : List Dbl) (m : Dbl), IsLeast xs m → IsLeast (xs ++ ys) (loOf m ys)
  | [], xs, m, h => by rw [List.append_nil]; exact h
  | y :: ys, xs, m, h => by
    have := isLeast_lo ys (xs ++ [y]) _ (isLeast_step (x := y) h)
    rwa [List.append_assoc] at this

theorem isGreatest_hi : ∀ (ys xs : List Dbl) (m : Dbl), IsGreatest xs m → IsGreatest (xs ++ ys) (hiOf m ys)
  | [], xs, m, h => by rw [List.append_nil]; exact h
  | y :: ys, xs, m, h => by
    have := isGreatest_hi ys (xs ++ [y]) _ (isGreatest_step (x := y) h)
    rwa [List.append_assoc] at this

theorem isLeast_inf (xs : List Dbl) : IsLeast xs (loOf Dbl.inf xs) :=
  isLeast_lo xs [] _ (.inr ⟨by simp, rfl⟩)
theorem isGreatest_negInf (xs : List Dbl) : IsGreatest xs (hiOf Dbl.negInf xs) :=
  isGreatest_hi xs [] _ (.inr ⟨by simp, rfl⟩)

/-! ## Coordinates -/

def xsOf (cs : List (Dims × Coord)) : List Dbl := cs.map fun c => ordNamed c.1 c.2 .x
def ysOf (cs : List (Dims × Coord)) : List Dbl := cs.map fun c => ordNamed c.1 c.2 .y

/-- The state after coordinates. -/
def BoxS.ext (s : BoxS) (cs : List (Dims × Coord)) : BoxS :=
  { s with minX := loOf s.minX (xsOf cs), maxX := hiOf s.maxX (xsOf cs), minY := loOf s.minY (ysOf cs), maxY := hiOf s.maxY (ysOf cs) }

theorem BoxS.ext_nil (s : BoxS) : s.ext [] = s := rfl
theorem BoxS.ext_append (s : BoxS) (cs cs' : List (Dims × Coord)) : s.ext (cs ++ cs') = (s.ext cs).ext cs' := by
  unfold BoxS.ext xsOf ysOf loOf hiOf
  simp only [List.map_append, List.foldl_append]

theorem ord_x {d : Dims} {c : Coord} (h : c.length = d.n) : c[0]? = some (ordNamed d c .x) := by
  cases d <;>
  · match c, h with
    | x :: y :: _, _ => rfl

theorem ord_y {d : Dims} {c : Coord} (h : c.length = d.n) : c[1]? = some (ordNamed d c .y) := by
  cases d <;>
  · match c, h with
    | x :: y :: _, _ => rfl

theorem extend_eq {j : Nat} {f : List Dbl → Dbl} : ∀ (cs : List (List Dbl)) (lo hi : Dbl), (∀ c ∈ cs, c[j]? = some (f c)) →
    boxExtend j cs (lo, hi) = some (loOf lo (cs.map f), hiOf hi (cs.map f))
  | [], _, _, _ => rfl
  | c :: cs, lo, hi, h => by
    unfold boxExtend
    rw [h c (by simp)]
    exact extend_eq cs _ _ fun c' hc' => h c' (by simp [hc'])

theorem boxCoords_eq {d : Dims} {cs : List Coord} (h : ∀ c ∈ cs, c.length = d.n) (s : BoxS) :
    boxCoords cs s = .ok () (s.ext (cs.map (d, ·))) := by
  unfold boxCoords
  rw [M.bind_run, M.get_run]
  dsimp only
  rw [extend_eq (f := fun c => ordNamed d c .x) cs _ _ (fun c hc => ord_x (h c hc)),
    extend_eq (f := fun c => ordNamed d c .y) cs _ _ (fun c hc => ord_y (h c hc))]
  show Res.ok () _ = _
  unfold BoxS.ext xsOf ysOf
  simp only [List.map_map]
  rfl

/-- Visitors that look at coordinates only, within a geometry. -/
structure Bounding (h : Handler BoxS) : Prop where
  geomStart : ∀ gt dims, h (.geomStart gt dims) = pure ()
  ringStart : h .ringStart = pure ()
  ringEnd : h .ringEnd = pure ()
  geomEnd : h .geomEnd = pure ()
  coords : ∀ nv cs, h (.coords nv cs) = boxCoords cs

theorem bounding_box (junk : Nat → Byte) : Bounding (boxHandler junk) := ⟨fun _ _ => rfl, rfl, rfl, rfl, fun _ _ => rfl⟩
theorem bounding_agg : Bounding boxAggHandler := ⟨fun _ _ => rfl, rfl, rfl, rfl, fun _ _ => rfl⟩

section
variable {h : Handler BoxS}

theorem feed_void {e : Event} (he : h e = pure ()) (t : List Event) (s : BoxS) : feed h (e :: t) s = feed h t s := by
  have : h e s = .ok () s := by rw [he]; rfl
  simp [feed, this]

theorem feed_chunks (hb : Bounding h) (d : Dims) (nv : Nat) : ∀ (chunks : List (List Coord)) (s : BoxS), (∀ c ∈ chunks.flatten, c.length = d.n) →
    feed h (chunks.map (Event.coords nv)) s = .ok () (s.ext (chunks.flatten.map (d, ·)))
  | [], s, _ => rfl
  | c :: cs, s, hw => by
    have h1 : h (.coords nv c) s = .ok () (s.ext (c.map (d, ·))) := by
      rw [hb.coords]
      exact boxCoords_eq (fun x hx => hw x (by rw [List.flatten_cons]; exact List.mem_append_left _ hx)) s
    rw [List.map_cons, List.flatten_cons, List.map_append, BoxS.ext_append]
    have := feed_chunks hb d nv cs (s.ext (c.map (d, ·))) (fun x hx => hw x (by rw [List.flatten_cons]; exact List.mem_append_right _ hx))
    simp [feed, h1, this]

theorem feed_chunked (hb : Bounding h) {d : Dims} {nv : Nat} {cs : List Coord} {t : List Event} (hc : Chunked nv cs t)
    (hw : ∀ c ∈ cs, c.length = d.n) (s : BoxS) : feed h t s = .ok () (s.ext (cs.map (d, ·))) := by
  obtain ⟨chunks, rfl, rfl⟩ := hc
  exact feed_chunks hb d nv chunks s hw

theorem feed_rings (hb : Bounding h) {d : Dims} {nv : Nat} : ∀ (rs : List (List Coord)) (t : List Event) (s : BoxS), RingsTrace nv rs t →
    (∀ r ∈ rs, ∀ c ∈ r, c.length = d.n) → feed h t s = .ok () (s.ext (rs.flatten.map (d, ·)))
  | [], t, s, ht, _ => by cases ht; rfl
  | r :: rs, t, s, ht, hw => by
    obtain ⟨t1, t2, h1, h2, rfl⟩ := ht
    rw [List.cons_append, feed_void hb.ringStart, feed_append_ok (feed_chunked hb h1 (hw r (by simp)) s), feed_void hb.ringEnd,
      List.flatten_cons, List.map_append, BoxS.ext_append]
    exact feed_rings hb rs t2 _ h2 fun r' hr' => hw r' (by simp [hr'])

mutual
theorem feed_geom (hb : Bounding h) : ∀ (g : Geom) (t : List Event) (s : BoxS), g.Trace t → g.WF → feed h t s = .ok () (s.ext g.allCoords)
  | .point d cs, t, s, ht, hw => by
    obtain ⟨b, h1, rfl⟩ := ht
    rw [List.cons_append, feed_void (hb.geomStart _ _), feed_append_ok (feed_chunked hb h1 hw s), feed_void hb.geomEnd]
    rfl
  | .linestring d cs, t, s, ht, hw => by
    obtain ⟨b, h1, rfl⟩ := ht
    rw [List.cons_append, feed_void (hb.geomStart _ _), feed_append_ok (feed_chunked hb h1 hw s), feed_void hb.geomEnd]
    rfl
  | .polygon d rs, t, s, ht, hw => by
    obtain ⟨b, h1, rfl⟩ := ht
    rw [List.cons_append, feed_void (hb.geomStart _ _), feed_append_ok (feed_rings hb rs b s h1 hw), feed_void hb.geomEnd]
    rfl
  | .multi k d ps, t, s, ht, hw => by
    obtain ⟨b, h1, rfl⟩ := ht
    rw [List.cons_append, feed_void (hb.geomStart _ _), feed_append_ok (feed_geoms hb ps b s h1 hw), feed_void hb.geomEnd]
    rfl
theorem feed_geoms (hb : Bounding h) : ∀ (gs : List Geom) (t : List Event) (s : BoxS), Geom.TraceL gs t → Geom.WFL gs →
    feed h t s = .ok () (s.ext (Geom.allCoordsL gs))
  | [], t, s, ht, _ => by cases ht; rfl
  | g :: gs, t, s, ht, hw => by
    obtain ⟨t1, t2, h1, h2, rfl⟩ := ht
    rw [feed_append_ok (feed_geom hb g t1 s h1 hw.1), feed_geoms hb gs t2 _ h2 hw.2]
    show _ = Res.ok () (s.ext (g.allCoords ++ Geom.allCoordsL gs))
    rw [BoxS.ext_append]
end
end

/-! ## Rows -/

/-- A row that was written. -/
structure BoxRow where
  valid : Bool
  x0 : Dbl
  y0 : Dbl
  x1 : Dbl
  y1 : Dbl

/-- What the visitor of the box kernel holds. -/
structure Pending (rows : List BoxRow) (s : BoxS) : Prop where
  v0 : s.values0 = rows.map BoxRow.x0
  v1 : s.values1 = rows.map BoxRow.y0
  v2 : s.values2 = rows.map BoxRow.x1
  v3 : s.values3 = rows.map BoxRow.y1
  bits : VOk s.validity (rows.map BoxRow.valid)
  nulls : s.nullCount = ((rows.map BoxRow.valid).filter (!·)).length

theorem Pending.congr {rows : List BoxRow} {s s' : BoxS} (h : Pending rows s) (h0 : s'.values0 = s.values0) (h1 : s'.values1 = s.values1)
    (h2 : s'.values2 = s.values2) (h3 : s'.values3 = s.values3) (h4 : s'.validity = s.validity) (h5 : s'.nullCount = s.nullCount) :
    Pending rows s' := by
  obtain ⟨a, b, c, d, e, f⟩ := h
  exact ⟨h0 ▸ a, h1 ▸ b, h2 ▸ c, h3 ▸ d, h4 ▸ e, h5 ▸ f⟩

theorem Pending.ext {rows : List BoxRow} {s : BoxS} (h : Pending rows s) (cs : List (Dims × Coord)) : Pending rows (s.ext cs) :=
  h.congr rfl rfl rfl rfl rfl rfl

theorem Pending.zero : Pending [] boxZero := ⟨rfl, rfl, rfl, rfl, VOk.nil rfl rfl, rfl⟩

theorem boxMark_ok {junk : Nat → Byte} {bit : Bool} {n : Nat} {s : BoxS} {v : Bitmap} (h : s.validity.append junk bit n = some v) :
    boxMark junk bit n s = .ok () { s with validity := v } := by
  unfold boxMark
  rw [M.bind_run, M.get_run]
  dsimp only
  rw [h]
  rfl

theorem boxFeatEnd_run (junk : Nat → Byte) {rows : List BoxRow} {s : BoxS} (h : Pending rows s) :
    ∃ s', boxFeatEnd junk s = .ok () s' ∧ Pending (rows ++ [⟨!s.featNull, s.minX, s.minY, s.maxX, s.maxY⟩]) s' := by
  have flush : ∀ s1 : BoxS, s1.values0 = s.values0 → s1.values1 = s.values1 → s1.values2 = s.values2 → s1.values3 = s.values3 →
      s1.minX = s.minX → s1.minY = s.minY → s1.maxX = s.maxX → s1.maxY = s.maxY → VOk s1.validity (rows.map BoxRow.valid ++ [!s.featNull]) →
      s1.nullCount = ((rows.map BoxRow.valid ++ [!s.featNull]).filter (!·)).length →
      ∃ s', boxFlush s1 = .ok () s' ∧ Pending (rows ++ [⟨!s.featNull, s.minX, s.minY, s.maxX, s.maxY⟩]) s' := by
    intro s1 e0 e1 e2 e3 e4 e5 e6 e7 hv hn
    refine ⟨_, rfl, ?_, ?_, ?_, ?_, ?_, ?_⟩
    · show s1.values0 ++ [s1.minX] = _; rw [e0, e4, h.v0, List.map_append]; rfl
    · show s1.values1 ++ [s1.minY] = _; rw [e1, e5, h.v1, List.map_append]; rfl
    · show s1.values2 ++ [s1.maxX] = _; rw [e2, e6, h.v2, List.map_append]; rfl
    · show s1.values3 ++ [s1.maxY] = _; rw [e3, e7, h.v3, List.map_append]; rfl
    · rw [List.map_append]; exact hv
    · rw [List.map_append]; exact hn
  unfold boxFeatEnd
  rw [M.bind_run, M.get_run]
  dsimp only
  cases hf : s.featNull with
  | false =>
    rw [if_neg (by decide)]
    rw [hf] at flush
    by_cases hb : s.validity.buf = []
    · rw [if_neg (by simp [hb])]
      show ∃ s', boxFlush s = _ ∧ _
      refine flush s rfl rfl rfl rfl rfl rfl rfl rfl ?_ ?_
      · rcases h.bits with ⟨h1, h2, h3, h4⟩ | ⟨h1, -⟩
        · refine .inl ⟨h1, h2, h3, ?_⟩
          rw [List.length_append, List.length_singleton, List.replicate_succ', ← h4]
          rfl
        · exact absurd hb h1
      · rw [filter_not_append, h.nulls]; rfl
    · rw [if_pos hb]
      rcases h.bits with ⟨h1, -⟩ | ⟨-, h2⟩
      · exact absurd h1 hb
      · obtain ⟨v, e1, e2⟩ := Bitmap.append_spec junk h2 true 1
        rw [M.bind_ok (boxMark_ok e1)]
        refine flush _ rfl rfl rfl rfl rfl rfl rfl rfl (.inr ⟨Bitmap.holds_ne e2 (by simp), e2⟩) ?_
        show s.nullCount = _
        rw [filter_not_append, h.nulls]; rfl
  | true =>
    rw [if_pos rfl]
    rw [hf] at flush
    have key : ∃ v, (if s.validity.buf = [] then boxMark junk true s.values0.length else pure () : M BoxS Unit) s = .ok () { s with validity := v } ∧
        v.Holds (rows.map BoxRow.valid) := by
      by_cases hb : s.validity.buf = []
      · rcases h.bits with ⟨h1, h2, h3, h4⟩ | ⟨h1, -⟩
        · rw [if_pos hb]
          obtain ⟨v, e1, e2⟩ := Bitmap.append_spec junk (Bitmap.holds_init h2 h3) true s.values0.length
          refine ⟨v, boxMark_ok e1, ?_⟩
          rw [h.v0, List.length_map] at e2
          rw [List.length_map] at h4
          rw [h4]
          exact e2
        · exact absurd hb h1
      · rw [if_neg hb]
        rcases h.bits with ⟨h1, -⟩ | ⟨-, h2⟩
        · exact absurd h1 hb
        · exact ⟨s.validity, rfl, h2⟩
    obtain ⟨v0, e0, hv0⟩ := key
    obtain ⟨v, e1, e2⟩ := Bitmap.append_spec junk hv0 false 1
    have inner : (do
        (if s.validity.buf = [] then boxMark junk true s.values0.length else pure ())
        boxMark junk false 1
        M.modify fun s => { s with nullCount := s.nullCount + 1 } : M BoxS Unit) s = .ok () { s with validity := v, nullCount := s.nullCount + 1 } := by
      rw [M.bind_ok e0, M.bind_ok (boxMark_ok (s := { s with validity := v0 }) e1), M.modify_run]
    rw [M.bind_ok inner]
    refine flush _ rfl rfl rfl rfl rfl rfl rfl rfl (.inr ⟨Bitmap.holds_ne e2 (by simp), e2⟩) ?_
    show s.nullCount + 1 = _
    rw [filter_not_append, h.nulls]; rfl

/-- The row of a feature. -/
def rowOf (f : Option Geom) : BoxRow :=
  match f with
  | none => ⟨false, Dbl.inf, Dbl.inf, Dbl.negInf, Dbl.negInf⟩
  | some g => ⟨true, loOf Dbl.inf (xsOf g.allCoords), loOf Dbl.inf (ysOf g.allCoords), hiOf Dbl.negInf (xsOf g.allCoords), hiOf Dbl.negInf (ysOf g.allCoords)⟩

theorem box_feature (junk : Nat → Byte) {f : Option Geom} (hw : ∀ g, f = some g → g.WF) {t : List Event} (ht : OptFeatureTrace f t)
    {rows : List BoxRow} {s : BoxS} (h : Pending rows s) :
    ∃ s', feed (boxHandler junk) t s = .ok () s' ∧ Pending (rows ++ [rowOf f]) s' := by
  cases f with
  | none =>
    cases ht
    obtain ⟨s', h1, h2⟩ := boxFeatEnd_run junk (s := { s with maxX := Dbl.negInf, maxY := Dbl.negInf, minX := Dbl.inf, minY := Dbl.inf, featNull := true })
      (h.congr rfl rfl rfl rfl rfl rfl)
    refine ⟨s', ?_, h2⟩
    show feed (boxHandler junk) ([.featStart, .nullFeat] ++ [.featEnd]) s = _
    rw [feed_append_ok (s' := { s with maxX := Dbl.negInf, maxY := Dbl.negInf, minX := Dbl.inf, minY := Dbl.inf, featNull := true }) rfl]
    have : boxHandler junk .featEnd { s with maxX := Dbl.negInf, maxY := Dbl.negInf, minX := Dbl.inf, minY := Dbl.inf, featNull := true } = .ok () s' := h1
    simp [feed, this]
  | some g =>
    obtain ⟨b, h1, rfl⟩ := ht
    have hs : boxHandler junk .featStart s = .ok () { s with maxX := Dbl.negInf, maxY := Dbl.negInf, minX := Dbl.inf, minY := Dbl.inf, featNull := false } := rfl
    have hg := feed_geom (bounding_box junk) g b { s with maxX := Dbl.negInf, maxY := Dbl.negInf, minX := Dbl.inf, minY := Dbl.inf, featNull := false } h1 (hw g rfl)
    obtain ⟨s', h3, h4⟩ := boxFeatEnd_run junk
      (s := BoxS.ext { s with maxX := Dbl.negInf, maxY := Dbl.negInf, minX := Dbl.inf, minY := Dbl.inf, featNull := false } g.allCoords)
      (Pending.ext (s := { s with maxX := Dbl.negInf, maxY := Dbl.negInf, minX := Dbl.inf, minY := Dbl.inf, featNull := false }) (h.congr rfl rfl rfl rfl rfl rfl) _)
    refine ⟨s', ?_, h4⟩
    rw [List.cons_append, feed_cons_ok' hs, feed_append_ok hg]
    have : boxHandler junk .featEnd (BoxS.ext { s with maxX := Dbl.negInf, maxY := Dbl.negInf, minX := Dbl.inf, minY := Dbl.inf, featNull := false } g.allCoords) = .ok () s' := h3
    simp [feed, this]

theorem box_features (junk : Nat → Byte) : ∀ (fs : List (Option Geom)) (t : List Event), (∀ g, some g ∈ fs → g.WF) → FeaturesTrace fs t →
    ∀ {rows : List BoxRow} {s : BoxS}, Pending rows s → ∃ s', feed (boxHandler junk) t s = .ok () s' ∧ Pending (rows ++ fs.map rowOf) s'
  | [], t, _, ht, rows, s, h => by
    cases ht
    exact ⟨s, rfl, by simpa using h⟩
  | f :: fs, t, hw, ht, rows, s, h => by
    obtain ⟨t1, t2, h1, h2, rfl⟩ := ht
    obtain ⟨s1, e1, e2⟩ := box_feature junk (fun g hg => hw g (by simp [hg])) h1 h
    obtain ⟨s2, e3, e4⟩ := box_features junk fs t2 (fun g hg => hw g (by simp [hg])) h2 e2
    refine ⟨s2, ?_, ?_⟩
    · rw [feed_append_ok e1, e3]
    · rw [List.map_cons]
      rwa [List.append_assoc] at e4

end Verif
