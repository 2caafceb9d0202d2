import Verif.Model.WkbWriter
import Verif.Spec.Wkb
import Verif.Spec.Program
import Verif.Proof.Bytes
import Verif.Proof.Program
import Verif.Proof.Geometry
import Verif.Proof.Sequence
/-!
# The WKB writer visitor on the callbacks of a geometry
-/
namespace Verif
open Spec

theorem u32_add_u32 (a b : Nat) : u32 (u32 a + b) = u32 (a + b) := by simp [u32]

theorem leBytes_u32 (n : Nat) : leBytes 4 (u32 n) = leBytes 4 n := by
  have h1 : leVal (leBytes 4 n) = u32 n := leVal_leBytes 4 n
  have h2 := leBytes_leVal (leBytes 4 n)
  rw [h1] at h2
  exact h2

theorem upd_same {α} (f : Nat → α) (i v) : upd f i v i = v := by simp [upd]
theorem upd_ne {α} (f : Nat → α) {i j} (v) (h : j ≠ i) : upd f i v j = f j := by simp [upd, h]

/-- What happens inside nesting level `l` leaves everything of the enclosing levels alone. -/
structure Frame (l : Nat) (s s' : WkbW) : Prop where
  validity : s'.validity = s.validity
  offsets : s'.offsets = s.offsets
  length : s'.length = s.length
  nullCount : s'.nullCount = s.nullCount
  featIsNull : s'.featIsNull = s.featIsNull
  level : s'.level = s.level
  gt : ∀ i, i ≤ l → s'.geometryType i = s.geometryType i
  dims : ∀ i, i ≤ l → s'.dimensions i = s.dimensions i
  sizePos : ∀ i, i ≤ l → s'.sizePos i = s.sizePos i
  size : ∀ i, i < l → s'.size i = s.size i

theorem Frame.refl (l s) : Frame l s s := ⟨rfl, rfl, rfl, rfl, rfl, rfl, fun _ _ => rfl, fun _ _ => rfl, fun _ _ => rfl, fun _ _ => rfl⟩

theorem Frame.trans {l s s' s''} (a : Frame l s s') (b : Frame l s' s'') : Frame l s s'' :=
  ⟨b.validity.trans a.validity, b.offsets.trans a.offsets, b.length.trans a.length, b.nullCount.trans a.nullCount,
   b.featIsNull.trans a.featIsNull, b.level.trans a.level, fun i h => (b.gt i h).trans (a.gt i h),
   fun i h => (b.dims i h).trans (a.dims i h), fun i h => (b.sizePos i h).trans (a.sizePos i h),
   fun i h => (b.size i h).trans (a.size i h)⟩

theorem checkLevel_run {s : WkbW} {l : Nat} (h : s.level = (l : Int)) (hl : l ≤ 30) : wkbCheckLevel s = .ok l s := by
  unfold wkbCheckLevel
  rw [if_pos (by omega), h]; rfl

theorem levelEntry_run {σ : Type} {i : Nat} (h : i < 32) (s : σ) : levelEntry i s = .ok () s := if_pos h

theorem feed_cons_ok {σ} {h : Handler σ} {e : Event} {t : List Event} {s s' : σ} (he : h e s = .ok () s') :
    feed h (e :: t) s = feed h t s' := by simp [feed, he]

theorem feed_append_ok {σ} {h : Handler σ} {t1 t2 : List Event} {s s' : σ} (he : feed h t1 s = .ok () s') :
    feed h (t1 ++ t2) s = feed h t2 s' := by rw [feed_append, he]

theorem wkbCoords_append (big : Bool) (a b : List Coord) : wkbCoords big (a ++ b) = wkbCoords big a ++ wkbCoords big b := by
  simp [wkbCoords]

theorem wkbCoords_native (cs : List Coord) : wkbCoords false cs = cs.flatMap fun c => c.flatMap Dbl.bytes := rfl

theorem wkbw_chunks {nv : Nat} {l : Nat} (hl : l ≤ 30) (chunks : List (List Coord)) : ∀ (s : WkbW), s.level = (l : Int) →
    s.size l < 2 ^ 32 → ∃ s', feed wkbHandler (chunks.map (Event.coords nv)) s = .ok () s' ∧
      s'.values = s.values ++ wkbCoords false chunks.flatten ∧ s'.size l = u32 (s.size l + chunks.flatten.length) ∧
      Frame l s s' := by
  induction chunks with
  | nil =>
    intro s _ hs
    exact ⟨s, rfl, by simp [wkbCoords], by simp [u32_of_lt hs], Frame.refl _ _⟩
  | cons c cs ih =>
    intro s h hs
    let s1 : WkbW :=
      { s with size := upd s.size l (u32 (s.size l + c.length)), values := s.values ++ wkbCoords false c }
    have h1 : wkbHandler (.coords nv c) s = .ok () s1 := by
      simp only [wkbHandler, wkbCoordsCb]
      rw [M.bind_ok (checkLevel_run h hl), M.bind_ok (levelEntry_run (by omega) _)]
      rfl
    have hf : Frame l s s1 :=
      ⟨rfl, rfl, rfl, rfl, rfl, rfl, fun _ _ => rfl, fun _ _ => rfl, fun _ _ => rfl, fun i hi => upd_ne _ _ (by omega)⟩
    have hsz : s1.size l = u32 (s.size l + c.length) := upd_same _ _ _
    obtain ⟨s2, h2, h3, h4, h5⟩ := ih s1 h (by rw [hsz]; exact u32_lt _)
    refine ⟨s2, ?_, ?_, ?_, hf.trans h5⟩
    · rw [List.map_cons, feed_cons_ok h1, h2]
    · rw [h3, List.flatten_cons, wkbCoords_append]
      simp [s1]
    · rw [h4, hsz, u32_add_u32, List.flatten_cons, List.length_append, Nat.add_assoc]

theorem patch_run {s : WkbW} {l : Nat} {pre body : List Byte} (hv : s.values = pre ++ (leBytes 4 0 ++ body))
    (hp : s.sizePos l = pre.length) :
    wkbPatch l s = .ok () { s with values := pre ++ (leBytes 4 (s.size l) ++ body) } := by
  have hb : ∀ n, (leBytes 4 n).length = 4 := fun _ => rfl
  unfold wkbPatch
  rw [hp, if_neg (by omega), hv]
  have : bufWrite (pre ++ (leBytes 4 0 ++ body)) (pre.length : Int).toNat (leBytes 4 (s.size l)) =
      some (pre ++ (leBytes 4 (s.size l) ++ body)) := by
    unfold bufWrite
    rw [Int.toNat_natCast, if_pos (by simp [hb])]
    have h2 : List.drop (pre.length + (leBytes 4 (s.size l)).length) (pre ++ (leBytes 4 0 ++ body)) = body := by
      rw [hb, ← List.drop_drop, List.drop_left]; rfl
    rw [h2, List.take_left, List.append_assoc]
  rw [this]

theorem typeCode_eq (k : Nat) (hk : k ≤ 7) (d : Dims) : wkbTypeCode k d.code = k + isoOffset d := by
  have h : k + d.code * 1000 + 2 ^ 32 - 1000 = (k + isoOffset d) + 2 ^ 32 := by
    cases d <;> simp only [Dims.code, isoOffset] <;> omega
  have h2 : k + isoOffset d < 2 ^ 32 := by cases d <;> simp only [isoOffset] <;> omega
  rw [wkbTypeCode, h, u32, Nat.add_mod_right, Nat.mod_eq_of_lt h2]

theorem empty_eq (d : Dims) : emptyPointCoords.take (8 * d.n) = wkbCoords false [List.replicate d.n Dbl.nan] := by
  cases d <;> decide +kernel

/-- Opening a geometry. -/
theorem geomStart_run {s : WkbW} {l : Nat} (hlv : s.level = (l : Int)) (hl : l ≤ 30) {k : Nat} (hk : k ≤ 7) (d : Dims) :
    ∃ s', wkbHandler (.geomStart k d.code) s = .ok () s' ∧
      s'.values = s.values ++ isoHeader k d ++ (if k = 1 then [] else leBytes 4 0) ∧
      s'.level = ((l + 1 : Nat) : Int) ∧ s'.size (l + 1) = 0 ∧ s'.geometryType (l + 1) = k ∧
      s'.dimensions (l + 1) = d.code ∧ (k ≠ 1 → s'.sizePos (l + 1) = (s.values ++ isoHeader k d).length) ∧
      s'.size l = u32 (s.size l + 1) ∧ Frame l s { s' with level := s.level } := by
  have hh : s.values ++ [1] ++ leBytes 4 (wkbTypeCode k d.code) = s.values ++ isoHeader k d := by
    rw [typeCode_eq k hk]
    simp [isoHeader, orderMark, wkbU32, inOrder]
  simp only [wkbHandler, wkbGeomStart]
  rw [M.bind_ok (checkLevel_run hlv hl), M.bind_ok (levelEntry_run (by omega) _), M.bind_ok (M.modify_run _ _)]
  by_cases h1 : k = 1
  · subst h1
    refine ⟨_, rfl, ?_, by simp only []; omega, upd_same _ _ _, upd_same _ _ _, upd_same _ _ _, fun h => absurd rfl h, ?_, ?_⟩
    · simpa using hh
    · simp only []; rw [upd_ne _ _ (by omega), upd_same]
    · exact ⟨rfl, rfl, rfl, rfl, rfl, rfl, fun i hi => upd_ne _ _ (by omega), fun i hi => upd_ne _ _ (by omega), fun _ _ => rfl,
        fun i hi => by simp only []; rw [upd_ne _ _ (by omega), upd_ne _ _ (by omega)]⟩
  · simp only [ne_eq, h1, not_false_eq_true, if_true]
    refine ⟨_, rfl, ?_, by simp only []; omega, upd_same _ _ _, upd_same _ _ _, upd_same _ _ _, ?_, ?_, ?_⟩
    · simp [← hh]
    · intro _
      rw [← hh]
      exact upd_same _ _ _
    · simp only []; rw [upd_ne _ _ (by omega), upd_same]
    · exact ⟨rfl, rfl, rfl, rfl, rfl, rfl, fun i hi => upd_ne _ _ (by omega), fun i hi => upd_ne _ _ (by omega),
        fun i hi => upd_ne _ _ (by omega),
        fun i hi => by simp only []; rw [upd_ne _ _ (by omega), upd_ne _ _ (by omega)]⟩

theorem ringStart_run {s : WkbW} {l : Nat} (hlv : s.level = (l : Int)) (hl : l ≤ 30) :
    ∃ s', wkbHandler .ringStart s = .ok () s' ∧ s'.values = s.values ++ leBytes 4 0 ∧
      s'.level = ((l + 1 : Nat) : Int) ∧ s'.size (l + 1) = 0 ∧ s'.sizePos (l + 1) = s.values.length ∧
      s'.size l = u32 (s.size l + 1) ∧ Frame l s { s' with level := s.level } := by
  simp only [wkbHandler, wkbRingStart]
  rw [M.bind_ok (checkLevel_run hlv hl), M.bind_ok (levelEntry_run (by omega) _), M.bind_ok (M.modify_run _ _)]
  refine ⟨_, rfl, rfl, by simp only []; omega, upd_same _ _ _, upd_same _ _ _, ?_, ?_⟩
  · simp only []; rw [upd_ne _ _ (by omega), upd_same]
  · exact ⟨rfl, rfl, rfl, rfl, rfl, rfl, fun i hi => upd_ne _ _ (by omega), fun _ _ => rfl,
      fun i hi => upd_ne _ _ (by omega),
      fun i hi => by simp only []; rw [upd_ne _ _ (by omega), upd_ne _ _ (by omega)]⟩

theorem leBytes4_ne_nil (n : Nat) : leBytes 4 n ≠ [] := by simp [leBytes]

theorem ringEnd_run {s : WkbW} {l : Nat} (hlv : s.level = ((l + 1 : Nat) : Int)) (hl : l + 1 ≤ 30) {pre body : List Byte}
    (hv : s.values = pre ++ (leBytes 4 0 ++ body)) (hp : s.sizePos (l + 1) = pre.length) :
    wkbHandler .ringEnd s =
      .ok () { s with values := pre ++ (leBytes 4 (s.size (l + 1)) ++ body), level := (l : Int) } := by
  simp only [wkbHandler, wkbRingEnd]
  rw [M.bind_ok (checkLevel_run hlv hl), M.bind_ok (levelEntry_run (by omega) _), M.bind_ok (M.get_run _), if_neg (by rw [hv]; simp [leBytes4_ne_nil])]
  rw [M.bind_ok (patch_run hv hp), M.modify_run]
  simp only [hlv]
  congr 2
  omega

theorem geomEnd_run {s : WkbW} {l : Nat} (hlv : s.level = ((l + 1 : Nat) : Int)) (hl : l + 1 ≤ 30) {pre body : List Byte}
    (hg : s.geometryType (l + 1) ≠ 1)
    (hv : s.values = pre ++ (leBytes 4 0 ++ body)) (hp : s.sizePos (l + 1) = pre.length) :
    wkbHandler .geomEnd s =
      .ok () { s with values := pre ++ (leBytes 4 (s.size (l + 1)) ++ body), level := (l : Int) } := by
  simp only [wkbHandler, wkbGeomEnd]
  rw [M.bind_ok (checkLevel_run hlv hl), M.bind_ok (levelEntry_run (by omega) _), M.bind_ok (M.get_run _), if_neg (by rw [hv]; simp [leBytes4_ne_nil]), if_pos hg]
  rw [M.bind_ok (patch_run hv hp), M.modify_run]
  simp only [hlv]
  congr 2
  omega

theorem pointEnd_run {s : WkbW} {l : Nat} (hlv : s.level = ((l + 1 : Nat) : Int)) (hl : l + 1 ≤ 30) {d : Dims}
    (hg : s.geometryType (l + 1) = 1) (hd : s.dimensions (l + 1) = d.code) (hv : s.values ≠ []) :
    wkbHandler .geomEnd s =
      .ok () { s with values := s.values ++ (if s.size (l + 1) = 0 then wkbCoords false [List.replicate d.n Dbl.nan] else []),
                      level := (l : Int) } := by
  have e : ((l + 1 : Nat) : Int) - 1 = l := by omega
  simp only [wkbHandler, wkbGeomEnd]
  rw [M.bind_ok (checkLevel_run hlv hl), M.bind_ok (levelEntry_run (by omega) _), M.bind_ok (M.get_run _), if_neg hv, if_neg (by simp [hg])]
  by_cases h0 : s.size (l + 1) = 0
  · rw [if_pos h0, hd, nvals_code]
    simp only [h0, if_true, ← empty_eq]
    simp only [wkbAppend]
    rw [M.bind_ok (M.modify_run _ _), M.modify_run]
    simp only [hlv, e]
  · rw [if_neg h0, M.modify_run]
    simp only [h0, if_false, List.append_nil, hlv, e]

theorem frame_down {l : Nat} {s0 s1 s2 : WkbW} (a : Frame l s0 { s1 with level := s0.level }) (b : Frame (l + 1) s1 s2) :
    Frame l s0 { s2 with level := s0.level } :=
  ⟨b.validity.trans a.validity, b.offsets.trans a.offsets, b.length.trans a.length, b.nullCount.trans a.nullCount,
   b.featIsNull.trans a.featIsNull, rfl, fun i h => (b.gt i (by omega)).trans (a.gt i h),
   fun i h => (b.dims i (by omega)).trans (a.dims i h), fun i h => (b.sizePos i (by omega)).trans (a.sizePos i h),
   fun i h => (b.size i (by omega)).trans (a.size i h)⟩

theorem Frame.ofLevel {l : Nat} {s s' : WkbW} (v : List Byte) (a : Frame l s { s' with level := s.level }) :
    Frame l s { s' with values := v, level := s.level } :=
  ⟨a.validity, a.offsets, a.length, a.nullCount, a.featIsNull, rfl, a.gt, a.dims, a.sizePos, a.size⟩

theorem wkbw_rings {nv l : Nat} (hl : l + 1 ≤ 30) (rs : List (List Coord)) : ∀ (t : List Event) (s : WkbW),
    RingsTrace nv rs t → s.level = (l : Int) → s.size l < 2 ^ 32 →
    ∃ s', feed wkbHandler t s = .ok () s' ∧ s'.values = s.values ++ wkbRings false rs ∧
      s'.size l = u32 (s.size l + rs.length) ∧ Frame l s s' := by
  induction rs with
  | nil =>
    intro t s ht _ hs
    simp only [RingsTrace] at ht
    subst ht
    exact ⟨s, rfl, by simp [wkbRings], by simp [u32_of_lt hs], Frame.refl _ _⟩
  | cons r rs ih =>
    intro t s ht hlv hs
    obtain ⟨t1, t2, ⟨chunks, hc1, hc2⟩, h2, rfl⟩ := ht
    obtain ⟨s1, a1, a2, a3, a4, a5, a6, a7⟩ := ringStart_run hlv (show l ≤ 30 by omega)
    obtain ⟨s2, b1, b2, b3, b4⟩ := wkbw_chunks (nv := nv) hl chunks s1 a3 (by rw [a4]; decide)
    rw [hc1, a4, Nat.zero_add] at b3
    rw [a2, hc1] at b2
    have c1 := ringEnd_run (s := s2) (l := l) (by rw [b4.level, a3]) hl
      (pre := s.values) (body := wkbCoords false r) (by rw [b2, List.append_assoc]) (by rw [b4.sizePos _ (Nat.le_refl _), a5])
    have hf := (frame_down a7 b4).ofLevel (s.values ++ (leBytes 4 (s2.size (l + 1)) ++ wkbCoords false r))
    rw [hlv] at hf
    obtain ⟨s4, d1, d2, d3, d4⟩ := ih t2 _ h2 (by rw [hf.level]; exact hlv)
      (by show s2.size l < _; rw [b4.size l (by omega), a6]; exact u32_lt _)
    refine ⟨s4, ?_, ?_, ?_, hf.trans d4⟩
    · rw [List.cons_append, feed_cons_ok a1, hc2, feed_append_ok b1, feed_cons_ok c1]
      exact d1
    · rw [d2, b3, leBytes_u32]
      simp [wkbRings, wkbU32, inOrder]
    · rw [d3]
      show u32 (s2.size l + rs.length) = _
      rw [b4.size l (by omega), a6, u32_add_u32]
      simp only [List.length_cons]
      congr 1; omega

/-- A sequence-carrying or composite geometry other than a point: open, content, close. -/
theorem wkbw_close {l k : Nat} (hl : l + 1 ≤ 30) (hk : k ≤ 7) (hk1 : k ≠ 1) {d : Dims} {s s1 s2 : WkbW} {n : Nat} {body : List Byte}
    (a2 : s1.values = s.values ++ isoHeader k d ++ (if k = 1 then [] else leBytes 4 0))
    (hlv : s.level = (l : Int))
    (a3 : s1.level = ((l + 1 : Nat) : Int)) (a4 : s1.size (l + 1) = 0) (a5 : s1.geometryType (l + 1) = k)
    (a7 : k ≠ 1 → s1.sizePos (l + 1) = (s.values ++ isoHeader k d).length)
    (a8 : s1.size l = u32 (s.size l + 1)) (a9 : Frame l s { s1 with level := s.level })
    (b2 : s2.values = s1.values ++ body) (b3 : s2.size (l + 1) = u32 (s1.size (l + 1) + n)) (b4 : Frame (l + 1) s1 s2) :
    ∃ s', wkbHandler .geomEnd s2 = .ok () s' ∧ s'.values = s.values ++ (isoHeader k d ++ wkbU32 false n ++ body) ∧
      s'.size l = u32 (s.size l + 1) ∧ Frame l s s' := by
  rw [if_neg hk1] at a2
  rw [a4, Nat.zero_add] at b3
  have c1 := geomEnd_run (s := s2) (l := l) (by rw [b4.level, a3]) hl (by rw [b4.gt _ (Nat.le_refl _), a5]; exact hk1)
    (pre := s.values ++ isoHeader k d) (body := body) (by rw [b2, a2, List.append_assoc])
    (by rw [b4.sizePos _ (Nat.le_refl _), a7 hk1])
  have hf := (frame_down a9 b4).ofLevel (s.values ++ isoHeader k d ++ (leBytes 4 (s2.size (l + 1)) ++ body))
  rw [hlv] at hf
  refine ⟨_, c1, ?_, ?_, hf⟩
  · simp only []
    rw [b3, leBytes_u32]
    simp [wkbU32, inOrder]
  · simp only []
    rw [b4.size l (by omega), a8]

mutual
theorem wkbw_geom {l : Nat} : ∀ (g : Geom) (t : List Event) (s : WkbW), g.Trace t → g.Countable → s.level = (l : Int) →
    l + 1 + g.height ≤ 30 → s.size l < 2 ^ 32 →
    ∃ s', feed wkbHandler t s = .ok () s' ∧ s'.values = s.values ++ isoWkb g ∧ s'.size l = u32 (s.size l + 1) ∧
      Frame l s s'
  | .point d cs, t, s, ht, hc, hlv, hh, hs => by
    obtain ⟨b, ⟨chunks, hc1, hc2⟩, rfl⟩ := ht
    simp only [Geom.height] at hh
    obtain ⟨s1, a1, a2, a3, a4, a5, a6, a7, a8, a9⟩ := geomStart_run hlv (show l ≤ 30 by omega) (show 1 ≤ 7 by omega) d
    obtain ⟨s2, b1, b2, b3, b4⟩ := wkbw_chunks (nv := d.n) (show l + 1 ≤ 30 by omega) chunks s1 a3 (by rw [a4]; decide)
    simp only [if_true, List.append_nil] at a2
    rw [hc1, a4, Nat.zero_add] at b3
    rw [hc1, a2] at b2
    have c1 := pointEnd_run (s := s2) (l := l) (d := d) (by rw [b4.level, a3]) (by omega)
      (by rw [b4.gt _ (Nat.le_refl _), a5]) (by rw [b4.dims _ (Nat.le_refl _), a6]) (by rw [b2]; simp [isoHeader])
    have hf := (frame_down a9 b4).ofLevel (s2.values ++ (if s2.size (l + 1) = 0 then wkbCoords false [List.replicate d.n Dbl.nan] else []))
    rw [hlv] at hf
    refine ⟨_, ?_, ?_, ?_, hf⟩
    · rw [List.cons_append, feed_cons_ok a1, hc2, feed_append_ok b1, feed_cons_ok c1]; rfl
    · simp only [isoWkb]
      simp only [Geom.Countable] at hc
      rw [b3, b2, u32_of_lt (by omega)]
      by_cases h0 : cs = []
      · subst h0; simp [wkbCoords]
      · rw [if_neg (by simpa using h0), if_neg h0]; simp
    · simp only []
      rw [b4.size l (by omega), a8]
  | .linestring d cs, t, s, ht, hc, hlv, hh, hs => by
    obtain ⟨b, ⟨chunks, hc1, hc2⟩, rfl⟩ := ht
    simp only [Geom.height] at hh
    obtain ⟨s1, a1, a2, a3, a4, a5, a6, a7, a8, a9⟩ := geomStart_run hlv (show l ≤ 30 by omega) (show 2 ≤ 7 by omega) d
    obtain ⟨s2, b1, b2, b3, b4⟩ := wkbw_chunks (nv := d.n) (show l + 1 ≤ 30 by omega) chunks s1 a3 (by rw [a4]; decide)
    obtain ⟨s3, c1, c2, c3, c4⟩ := wkbw_close (by omega) (by omega) (by omega) a2 hlv a3 a4 a5 a7 a8 a9 b2 b3 b4
    refine ⟨s3, ?_, ?_, c3, c4⟩
    · rw [List.cons_append, feed_cons_ok a1, hc2, feed_append_ok b1, feed_cons_ok c1]; rfl
    · rw [c2, hc1]; simp [isoWkb]
  | .polygon d rs, t, s, ht, hc, hlv, hh, hs => by
    obtain ⟨b, hb, rfl⟩ := ht
    simp only [Geom.height] at hh
    obtain ⟨s1, a1, a2, a3, a4, a5, a6, a7, a8, a9⟩ := geomStart_run hlv (show l ≤ 30 by omega) (show 3 ≤ 7 by omega) d
    obtain ⟨s2, b1, b2, b3, b4⟩ := wkbw_rings (nv := d.n) (l := l + 1) (by omega) rs b s1 hb a3 (by rw [a4]; decide)
    obtain ⟨s3, c1, c2, c3, c4⟩ := wkbw_close (by omega) (by omega) (by omega) a2 hlv a3 a4 a5 a7 a8 a9 b2 b3 b4
    refine ⟨s3, ?_, ?_, c3, c4⟩
    · rw [List.cons_append, feed_cons_ok a1, feed_append_ok b1, feed_cons_ok c1]; rfl
    · rw [c2]; simp [isoWkb]
  | .multi k d ps, t, s, ht, hc, hlv, hh, hs => by
    obtain ⟨b, hb, rfl⟩ := ht
    simp only [Geom.height] at hh
    have hk : 4 ≤ k.code ∧ k.code ≤ 7 := by cases k <;> simp [MultiKind.code]
    obtain ⟨s1, a1, a2, a3, a4, a5, a6, a7, a8, a9⟩ := geomStart_run hlv (show l ≤ 30 by omega) hk.2 d
    obtain ⟨s2, b1, b2, b3, b4⟩ := wkbw_geoms (l := l + 1) ps b s1 hb hc.2 a3 (by omega) (by rw [a4]; decide)
    obtain ⟨s3, c1, c2, c3, c4⟩ := wkbw_close (by omega) hk.2 (by omega) a2 hlv a3 a4 a5 a7 a8 a9 b2 b3 b4
    refine ⟨s3, ?_, ?_, c3, c4⟩
    · rw [List.cons_append, feed_cons_ok a1, feed_append_ok b1, feed_cons_ok c1]; rfl
    · rw [c2]; simp [isoWkb]
theorem wkbw_geoms {l : Nat} : ∀ (gs : List Geom) (t : List Event) (s : WkbW), Geom.TraceL gs t → Geom.CountableL gs →
    s.level = (l : Int) → l + 1 + Geom.heightL gs ≤ 30 → s.size l < 2 ^ 32 →
    ∃ s', feed wkbHandler t s = .ok () s' ∧ s'.values = s.values ++ isoWkbL gs ∧
      s'.size l = u32 (s.size l + gs.length) ∧ Frame l s s'
  | [], t, s, ht, hc, hlv, hh, hs => by
    simp only [Geom.TraceL] at ht
    subst ht
    exact ⟨s, rfl, by simp [isoWkbL], by simp [u32_of_lt hs], Frame.refl _ _⟩
  | g :: gs, t, s, ht, hc, hlv, hh, hs => by
    obtain ⟨t1, t2, h1, h2, rfl⟩ := ht
    simp only [Geom.heightL] at hh
    obtain ⟨s1, a1, a2, a3, a4⟩ := wkbw_geom g t1 s h1 hc.1 hlv (by omega) hs
    obtain ⟨s2, b1, b2, b3, b4⟩ := wkbw_geoms gs t2 s1 h2 hc.2 (by rw [a4.level, hlv]) (by omega) (by rw [a3]; exact u32_lt _)
    refine ⟨s2, by rw [feed_append_ok a1, b1], ?_, ?_, a4.trans b4⟩
    · rw [b2, a2]; simp [isoWkbL]
    · rw [b3, a3, u32_add_u32]
      simp only [List.length_cons]; congr 1; omega
end

end Verif
