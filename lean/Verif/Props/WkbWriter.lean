import Verif.Proof.WkbHistory
import Verif.Proof.IsoWkb
import Verif.Proof.WkbNesting
import Verif.Props.WkbReader
/-!
# C17 – C22 for the WKB writer
-/
namespace Verif
open Spec

/-! ## C17 -/

/-- Feeding the callbacks of a feature (with any division of its coordinates over callbacks) to the writer, in any state
in which the data still fits 32-bit offsets, succeeds and appends exactly the little-endian ISO encoding of the geometry
as one new valid element; everything written before stays as it was. -/
theorem C17_visitor_writes_iso {g : Geom} {t : List Event} (ht : FeatureTrace g t) (hc : g.Countable) (hh : g.height ≤ 29)
    (s : WkbW) (hv : s.values.length ≤ 2147483647) :
    ∃ s', feed wkbHandler t s = .ok () s' ∧ s'.values = s.values ++ isoWkb g ∧
      s'.offsets = s.offsets ++ [(s.values.length : Int)] ∧ s'.length = s.length + 1 ∧ s'.nullCount = s.nullCount ∧
      s'.validity = bitsAppendValid s.validity :=
  visit_run ht hc hh s hv

/-- The bytes `isoWkb g` are a valid encoding of `g` with empty points replaced by all-NaN points, according to the
specification the readers are measured against. -/
theorem C17_iso_is_wkb {g : Geom} (hw : g.WF) (hc : g.Countable) : WkbEnc g.nanEmpty (isoWkb g) := iso_enc g hw hc

theorem exGeom_countable : exGeom.Countable := by simp [exGeom, Geom.Countable, Geom.CountableL, exCoords]
theorem exGeom_wf : exGeom.WF := denoted_wf _ _ exView_denotes

example (s : WkbW) (hv : s.values = [7]) : ∃ t s', FeatureTrace exGeom t ∧ feed wkbHandler t s = .ok () s' ∧
    s'.values = 7 :: isoWkb exGeom := by
  obtain ⟨t, ht, -⟩ := C09_view_visit exView_denotes
  obtain ⟨s', h1, h2, -⟩ := C17_visitor_writes_iso ht exGeom_countable (by decide) s (by rw [hv]; decide)
  exact ⟨t, s', ht, h1, by rw [h2, hv]; rfl⟩

/-- POINT EMPTY in XYM: type code 2001 and three NaNs. -/
example : isoWkb (.point .xym []) = [1, 0xd1, 7, 0, 0] ++ Dbl.nan.bytes ++ Dbl.nan.bytes ++ Dbl.nan.bytes := by
  decide +kernel

/-! ## C18 -/

/-- Appending a geometry view (any strides and byte order, any spare capacity of the writer's buffer) leaves the writer's
output exactly as feeding any admissible callback sequence of the same geometry through the visitor does, empty points
included. -/
theorem C18_append_equals_visit {m : Mem} {v : View} {g : Geom} {t : List Event} (hd : ViewDenotes m v g) (ht : FeatureTrace g t)
    (hp : g.SinglePoints) (hh : g.height ≤ 29) (room : Nat → Nat) (s : WkbW)
    (hv : (s.values ++ isoWkb g).length ≤ 2147483647) :
    ∃ s1 s2, wkbAppendView m room v s = .ok () s1 ∧ feed wkbHandler t s = .ok () s2 ∧
      s1.values = s2.values ∧ s1.offsets = s2.offsets ∧ s1.length = s2.length ∧ s1.nullCount = s2.nullCount ∧
      s1.validity = s2.validity ∧ s1.values = s.values ++ isoWkb g := by
  rw [List.length_append] at hv
  have hsm := small_of_bytes g (denoted_wf _ _ hd) (by omega)
  obtain ⟨s2, h1, h2, h3, h4, h5, h6⟩ := visit_run ht (hsm.2 hp) hh s (by omega)
  refine ⟨_, s2, appendView_run hd hsm.1 s, h1, h2.symm, ?_, h4.symm, h5.symm, h6.symm, rfl⟩
  rw [h3, toI32_of_le (by omega)]

example (s : WkbW) (hs : s.values = []) : ∃ t s1 s2, FeatureTrace exGeom t ∧
    wkbAppendView exMem (fun _ => 0) exView s = .ok () s1 ∧ feed wkbHandler t s = .ok () s2 ∧ s1.values = s2.values := by
  obtain ⟨t, ht, -⟩ := C09_view_visit exView_denotes
  obtain ⟨s1, s2, h1, h2, h3, -⟩ := C18_append_equals_visit exView_denotes ht
    (by simp [exGeom, Geom.SinglePoints, Geom.SinglePointsL]) (by decide) (fun _ => 0) s (by rw [hs]; decide +kernel)
  exact ⟨t, s1, s2, ht, h1, h2, h3⟩

/-! ## Histories -/

/-- A way of adding one element to the writer. -/
inductive WkbOp where
  /-- feed callbacks to the visitor -/
  | visit (t : List Event)
  /-- `GeoArrowWKBWriterAppend`, with the spare buffer capacities found on the way -/
  | append (m : Mem) (room : Nat → Nat) (v : View)
  /-- `GeoArrowWKBWriterAppendNull` -/
  | null

def WkbOp.run : WkbOp → M WkbW Unit
  | .visit t => feed wkbHandler t
  | .append m room v => wkbAppendView m room v
  | .null => wkbAppendNull

def runWkbOps : List WkbOp → M WkbW Unit
  | [] => pure ()
  | op :: ops => do
    op.run
    runWkbOps ops

/-- The operation is meant to add this geometry, or a null (`none`). -/
inductive WkbOp.Adds : WkbOp → Option Geom → Prop where
  | visit {g t} : FeatureTrace g t → g.WF → g.SinglePoints → g.height ≤ 29 → Adds (.visit t) (some g)
  | visitNull : Adds (.visit [.featStart, .nullFeat, .featEnd]) none
  | append {g m room v} : ViewDenotes m v g → g.SinglePoints → g.height ≤ 255 → Adds (.append m room v) (some g)
  | null : Adds .null none

def encodings (gs : List (Option Geom)) : List (Option (List Byte)) := gs.map fun o => o.map isoWkb

theorem op_run {op : WkbOp} {o : Option Geom} (h : op.Adds o) {s : WkbW} {els : List (Option (List Byte))}
    (hs : s.Has els) (hv : (elemBytes (els ++ [o.map isoWkb])).length ≤ 2147483647) :
    ∃ s', op.run s = .ok () s' ∧ s'.Has (els ++ [o.map isoWkb]) := by
  rw [elemBytes_append, List.length_append, ← hs.values] at hv
  cases h with
  | @visit g t ht hw hp hh =>
    simp only [elemBytes, Option.map_some, List.flatMap_cons, List.flatMap_nil, Option.getD_some, List.append_nil] at hv
    obtain ⟨s', h1, h2, h3, h4, h5, h6⟩ := visit_run ht ((small_of_bytes g hw (by omega)).2 hp) hh s (by omega)
    exact ⟨s', h1, has_some hs h6 h3 h2 h4 h5⟩
  | visitNull =>
    obtain ⟨s', l, h1, h2, h3, h4, h5, h6, h7⟩ := visitNull_run s (by omega)
    refine ⟨s', h1, has_null hs ?_ h5 h4 h6 h7⟩
    rw [← hs.length, h2, h3]; rfl
  | @append g m room v hd hp hh =>
    simp only [elemBytes, Option.map_some, List.flatMap_cons, List.flatMap_nil, Option.getD_some, List.append_nil] at hv
    refine ⟨_, appendView_run hd (small_of_bytes g (denoted_wf _ _ hd) (by omega)).1 s,
      has_some hs rfl ?_ rfl rfl rfl⟩
    simp only [toI32_of_le (show s.values.length ≤ 2147483647 by omega)]
  | null =>
    obtain ⟨s', l, h1, h2, h3, h4, h5, h6, h7⟩ := appendNull_run s
    refine ⟨s', h1, has_null hs ?_ ?_ h4 h6 h7⟩
    · rw [← hs.length, h2, h3]; rfl
    · rw [h5, toI32_of_le (by omega)]

/-- The operations add these geometries, one each. -/
def AddsAll : List WkbOp → List (Option Geom) → Prop
  | [], gs => gs = []
  | op :: ops, gs => ∃ g gs', gs = g :: gs' ∧ op.Adds g ∧ AddsAll ops gs'

theorem ops_run : ∀ (ops : List WkbOp) (gs : List (Option Geom)), AddsAll ops gs → ∀ (s : WkbW) (els : List (Option (List Byte))),
    s.Has els → (elemBytes (els ++ encodings gs)).length ≤ 2147483647 →
    ∃ s', runWkbOps ops s = .ok () s' ∧ s'.Has (els ++ encodings gs)
  | [], gs, h, s, els, hs, _ => by
    simp only [AddsAll] at h; subst h
    exact ⟨s, rfl, by simpa [encodings] using hs⟩
  | op :: ops, gs, ⟨g, gs', h1, h2, h3⟩, s, els, hs, hv => by
    subst h1
    have he : els ++ encodings (g :: gs') = els ++ [g.map isoWkb] ++ encodings gs' := by simp [encodings]
    rw [he] at hv ⊢
    obtain ⟨s1, a1, a2⟩ := op_run h2 hs (by rw [elemBytes_append, List.length_append] at hv; omega)
    obtain ⟨s2, b1, b2⟩ := ops_run ops gs' h3 s1 _ a2 hv
    exact ⟨s2, (M.bind_ok a1).trans b1, b2⟩

theorem init_fresh (raw : WkbW) : (wkbInit raw).Fresh := ⟨rfl, rfl, rfl, rfl, rfl⟩

/-! ## C20 -/

/-- Any history of features and nulls, added through the visitor or through Append in any mixture, followed by Finish,
gives an array that represents exactly the encodings of the added geometries in order (with the offsets, null count and
validity this requires), as long as the data fits 32-bit offsets. -/
theorem C20_history_array {ops : List WkbOp} {gs : List (Option Geom)} (h : AddsAll ops gs)
    (hv : (elemBytes (encodings gs)).length ≤ 2147483647) (raw : WkbW) :
    ∃ s1 a s2, runWkbOps ops (wkbInit raw) = .ok () s1 ∧ wkbFinish s1 = .ok a s2 ∧ Represents a (encodings gs) := by
  obtain ⟨s1, a1, a2⟩ := ops_run ops gs h (wkbInit raw) [] (has_fresh.mpr (init_fresh raw)) (by simpa using hv)
  rw [List.nil_append] at a2
  obtain ⟨s2, b1, _⟩ := finish_run a2 (by rw [a2.values]; exact hv)
  exact ⟨s1, _, s2, a1, b1, canon_represents _⟩

theorem op_values {op : WkbOp} {o : Option Geom} (h : op.Adds o) (hs : ∀ g, o = some g → g.SmallSeqs ∧ g.Countable)
    {s s' : WkbW} (hr : op.run s = .ok () s') : s'.values = s.values ++ (o.map isoWkb).getD [] := by
  cases h with
  | @visit g t ht hw hp hh =>
    by_cases hv : s.values.length ≤ 2147483647
    · obtain ⟨s1, h1, h2, -⟩ := visit_run ht (hs g rfl).2 hh s hv
      rw [WkbOp.run, h1] at hr; cases hr; exact h2
    · obtain ⟨b, -, rfl⟩ := ht
      simp only [WkbOp.run, List.cons_append, feed, wkbHandler, wkbFeatStart, if_pos (show s.values.length > 2147483647 by omega)] at hr
      simp at hr
  | visitNull =>
    by_cases hv : s.values.length ≤ 2147483647
    · obtain ⟨s1, l, h1, h2, h3, h4, -⟩ := visitNull_run s hv
      rw [WkbOp.run, h1] at hr; cases hr; simp [h4]
    · simp only [WkbOp.run, feed, wkbHandler, wkbFeatStart, if_pos (show s.values.length > 2147483647 by omega)] at hr
      simp at hr
  | @append g m room v hd hp hh =>
    rw [WkbOp.run, appendView_run hd (hs g rfl).1 s] at hr
    cases hr; rfl
  | null =>
    obtain ⟨s1, l, h1, h2, h3, h4, -⟩ := appendNull_run s
    rw [WkbOp.run, h1] at hr; cases hr; simp [h4]

theorem ops_values : ∀ (ops : List WkbOp) (gs : List (Option Geom)), AddsAll ops gs →
    (∀ g, some g ∈ gs → g.SmallSeqs ∧ g.Countable) → ∀ (s s' : WkbW), runWkbOps ops s = .ok () s' →
    s'.values = s.values ++ elemBytes (encodings gs)
  | [], gs, h, _, s, s', hr => by
    simp only [AddsAll] at h; subst h
    simp only [runWkbOps, M.pure_run, Res.ok.injEq, true_and] at hr
    subst hr; simp [encodings, elemBytes]
  | op :: ops, gs, ⟨g, gs', h1, h2, h3⟩, hs, s, s', hr => by
    subst h1
    obtain ⟨⟨⟩, s1, r1, r2⟩ := M.bind_eq_ok.mp hr
    have e1 := op_values h2 (fun g' hg => hs g' (by simp [hg])) r1
    have e2 := ops_values ops gs' h3 (fun g' hg => hs g' (by simp [hg])) s1 s' r2
    rw [e2, e1]; simp [encodings, elemBytes]

/-- If the added geometries need more than 2^31-1 bytes of data, no array with wrapped offsets is ever handed out: one of
the operations or Finish reports an error. (Each single geometry is assumed to have counts that fit 32 bits.) -/
theorem C20_overlong_reported {ops : List WkbOp} {gs : List (Option Geom)} (h : AddsAll ops gs)
    (hg : ∀ g, some g ∈ gs → g.SmallSeqs ∧ g.Countable)
    (hv : 2147483647 < (elemBytes (encodings gs)).length) (raw : WkbW) (s1 : WkbW)
    (hr : runWkbOps ops (wkbInit raw) = .ok () s1) : wkbFinish s1 = .err EOVERFLOW s1 := by
  have := ops_values ops gs h hg _ _ hr
  have h0 : (wkbInit raw).values = [] := rfl
  rw [h0, List.nil_append] at this
  unfold wkbFinish
  rw [this, if_pos (by omega)]

/-- A history with a visited null, an appended view, a visited feature and an appended null. -/
def exOps (t : List Event) : List WkbOp :=
  [.visit [.featStart, .nullFeat, .featEnd], .append exMem (fun _ => 3) exView, .visit t, .null]
def exHistory : List (Option Geom) := [none, some exGeom, some exGeom, none]

theorem exGeom_single : exGeom.SinglePoints := by simp [exGeom, Geom.SinglePoints, Geom.SinglePointsL]

theorem exOps_adds {t : List Event} (ht : FeatureTrace exGeom t) : AddsAll (exOps t) exHistory :=
  ⟨none, _, rfl, .visitNull, some exGeom, _, rfl, .append exView_denotes exGeom_single (by decide),
    some exGeom, _, rfl, .visit ht exGeom_wf exGeom_single (by decide), none, _, rfl, .null, rfl⟩

example (raw : WkbW) : ∃ t s1 a s2, runWkbOps (exOps t) (wkbInit raw) = .ok () s1 ∧ wkbFinish s1 = .ok a s2 ∧
    a.length = 4 ∧ a.nullCount = 2 := by
  obtain ⟨t, ht, -⟩ := C09_view_visit exView_denotes
  obtain ⟨s1, a, s2, h1, h2, h3⟩ := C20_history_array (exOps_adds ht) (by decide +kernel) raw
  exact ⟨t, s1, a, s2, h1, h2, h3.length, h3.nulls⟩

/-! ## C21 -/

/-- After a first history and Finish, a second history and Finish give the very array (all buffers, counts) that a newly
initialised writer gives for the second history alone. -/
theorem C21_reuse_after_finish {ops ops' : List WkbOp} {gs gs' : List (Option Geom)} (h : AddsAll ops gs) (h' : AddsAll ops' gs')
    (hv : (elemBytes (encodings gs)).length ≤ 2147483647) (hv' : (elemBytes (encodings gs')).length ≤ 2147483647)
    (raw raw' : WkbW) :
    ∃ s1 a s2 s3 a' s4 n1 n2, runWkbOps ops (wkbInit raw) = .ok () s1 ∧ wkbFinish s1 = .ok a s2 ∧
      runWkbOps ops' s2 = .ok () s3 ∧ wkbFinish s3 = .ok a' s4 ∧
      runWkbOps ops' (wkbInit raw') = .ok () n1 ∧ wkbFinish n1 = .ok a' n2 := by
  obtain ⟨s1, a1, a2⟩ := ops_run ops gs h (wkbInit raw) [] (has_fresh.mpr (init_fresh raw)) (by simpa using hv)
  rw [List.nil_append] at a2
  obtain ⟨s2, b1, b2⟩ := finish_run a2 (by rw [a2.values]; exact hv)
  obtain ⟨s3, c1, c2⟩ := ops_run ops' gs' h' s2 [] (has_fresh.mpr b2) (by simpa using hv')
  rw [List.nil_append] at c2
  obtain ⟨s4, d1, _⟩ := finish_run c2 (by rw [c2.values]; exact hv')
  obtain ⟨n1, e1, e2⟩ := ops_run ops' gs' h' (wkbInit raw') [] (has_fresh.mpr (init_fresh raw')) (by simpa using hv')
  rw [List.nil_append] at e2
  obtain ⟨n2, f1, _⟩ := finish_run e2 (by rw [e2.values]; exact hv')
  exact ⟨s1, _, s2, s3, _, s4, n1, n2, a1, b1, c1, d1, e1, f1⟩

example (raw raw' : WkbW) : ∃ t s1 a s2 s3 a' s4 n1 n2, runWkbOps (exOps t) (wkbInit raw) = .ok () s1 ∧ wkbFinish s1 = .ok a s2 ∧
      runWkbOps [.null] s2 = .ok () s3 ∧ wkbFinish s3 = .ok a' s4 ∧
      runWkbOps [.null] (wkbInit raw') = .ok () n1 ∧ wkbFinish n1 = .ok a' n2 := by
  obtain ⟨t, ht, -⟩ := C09_view_visit exView_denotes
  exact ⟨t, C21_reuse_after_finish (ops' := [.null]) (gs' := [none]) (exOps_adds ht) ⟨_, _, rfl, .null, rfl⟩ (by decide +kernel)
    (by decide) raw raw'⟩

/-! ## C19 -/

/-- Element `i` of the array finished after any history, read back by the WKB reader (in whatever state earlier reads left
it) and visited, delivers to every visitor exactly the callbacks of the geometry written, with empty points as all-NaN
points; ordinates are bit patterns. -/
theorem C19_write_read {ops : List WkbOp} {gs : List (Option Geom)} (h : AddsAll ops gs)
    (hv : (elemBytes (encodings gs)).length ≤ 2147483647) (raw : WkbW) :
    ∃ s1 a s2, runWkbOps ops (wkbInit raw) = .ok () s1 ∧ wkbFinish s1 = .ok a s2 ∧
      ∀ i g, gs[i]? = some (some g) → ∃ lo hi : Nat, a.offsets[i]? = some (lo : Int) ∧ a.offsets[i + 1]? = some (hi : Int) ∧
        lo ≤ hi ∧ hi ≤ a.data.length ∧
        ∀ r, ∃ t, FeatureTrace g.nanEmpty t ∧
          Behaves (fun _ hdl => wkbVisit r ((a.data.drop lo).take (hi - lo)) hdl) t (.done ()) := by
  obtain ⟨s1, a, s2, h1, h2, h3⟩ := C20_history_array h hv raw
  refine ⟨s1, a, s2, h1, h2, ?_⟩
  intro i g hi
  obtain ⟨lo, hi', o1, o2, o3, o4, o5⟩ := h3.element i (some (isoWkb g)) (by simp [encodings, hi])
  refine ⟨lo, hi', o1, o2, o3, o4, ?_⟩
  intro r
  rw [o5, Option.getD_some]
  have hlen : (isoWkb g).length ≤ (elemBytes (encodings gs)).length := by
    have := congrArg List.length o5
    rw [Option.getD_some, List.length_take, List.length_drop] at this
    have hd : a.data.length ≤ (elemBytes (encodings gs)).length := by
      obtain ⟨t1, a1, a2⟩ := ops_run ops gs h (wkbInit raw) [] (has_fresh.mpr (init_fresh raw)) (by simpa using hv)
      rw [List.nil_append] at a2
      obtain ⟨t2, b1, _⟩ := finish_run a2 (by rw [a2.values]; exact hv)
      rw [h1] at a1; cases a1
      rw [h2] at b1; cases b1
      exact Nat.le_refl _
    omega
  have key : ∀ (ops : List WkbOp) (gs : List (Option Geom)), AddsAll ops gs → ∀ i : Nat, gs[i]? = some (some g) →
      g.WF ∧ g.SinglePoints ∧ g.height ≤ 255 := by
    intro ops
    induction ops with
    | nil => intro gs h i hi; simp only [AddsAll] at h; subst h; simp at hi
    | cons op ops ih =>
      intro gs ⟨g0, gs', e, ha, hrest⟩ i hi
      subst e
      cases i with
      | succ i => exact ih gs' hrest i (by simpa using hi)
      | zero =>
        simp only [List.getElem?_cons_zero, Option.some.injEq] at hi
        subst hi
        cases ha with
        | visit ht hw hp hh => exact ⟨hw, hp, by omega⟩
        | append hd hp hh => exact ⟨denoted_wf _ _ hd, hp, hh⟩
  obtain ⟨hw, hp, hht⟩ := key ops gs h i hi
  have hsm := small_of_bytes g hw (by omega)
  have := (C12_read_valid_partial (rest := []) (iso_enc g hw (hsm.2 hp)) (by rw [nanEmpty_height]; exact hht)
    (by rw [List.append_nil]; omega) r).2
  rw [List.append_nil] at this
  exact this

mutual
theorem nanEmpty_id : ∀ (g : Geom), g.NoEmptyPoints → g.nanEmpty = g
  | .point _ _, h => by simp only [Geom.nanEmpty]; rw [if_neg h]
  | .linestring _ _, _ => rfl
  | .polygon _ _, _ => rfl
  | .multi _ _ ps, h => by simp only [Geom.nanEmpty]; rw [nanEmptyL_id ps h]
theorem nanEmptyL_id : ∀ (gs : List Geom), Geom.NoEmptyPointsL gs → Geom.nanEmptyL gs = gs
  | [], _ => rfl
  | g :: gs, h => by simp only [Geom.nanEmptyL]; rw [nanEmpty_id g h.1, nanEmptyL_id gs h.2]
end

/-- Geometries without empty points come back unchanged (in `C19_write_read` the geometry delivered is the one written). -/
theorem C19_without_empty_points {g : Geom} (h : g.NoEmptyPoints) : g.nanEmpty = g := nanEmpty_id g h

example : exGeom.nanEmpty = exGeom := C19_without_empty_points (by simp [exGeom, Geom.NoEmptyPoints, Geom.NoEmptyPointsL])

example (raw : WkbW) : ∃ t s1 a s2, runWkbOps (exOps t) (wkbInit raw) = .ok () s1 ∧ wkbFinish s1 = .ok a s2 ∧
    ∃ lo hi : Nat, a.offsets[2]? = some (lo : Int) ∧ a.offsets[3]? = some (hi : Int) ∧
      ∀ r, ∃ t, FeatureTrace exGeom t ∧
        Behaves (fun _ hdl => wkbVisit r ((a.data.drop lo).take (hi - lo)) hdl) t (.done ()) := by
  obtain ⟨t, ht, -⟩ := C09_view_visit exView_denotes
  obtain ⟨s1, a, s2, h1, h2, h3⟩ := C19_write_read (exOps_adds ht) (by decide +kernel) raw
  obtain ⟨lo, hi, o1, o2, -, -, o5⟩ := h3 2 exGeom rfl
  exact ⟨t, s1, a, s2, h1, h2, lo, hi, o1, o2, o5⟩

/-! ## C22 (WKB writer) -/

/-- Feed several features one after the other; a feature stops at its first error, the next one is then started. Returns
`false` as soon as undefined behaviour occurs. -/
def featuresSafe (s : WkbW) : List (List Event) → Bool
  | [] => true
  | t :: ts => match feed wkbHandler t s with
    | .ok _ s' => featuresSafe s' ts
    | .err _ s' => featuresSafe s' ts
    | .ub => false

/-- From any state of the writer (new, used, after Finish, after errors), any number of features whose callbacks close
only levels they opened (`closesMatch`), with arbitrary types, dimensions and nesting depth otherwise, never make the
writer access memory outside its tables or the bytes written.

Partial: the property asks for every callback sequence. `C22_wkb_unopened_geometry_end`, `C22_wkb_point_ring_end` and
`C22_wkb_null_before_start` show that each hypothesis is needed. -/
theorem C22_wkb_matched_closes_safe_partial (ts : List (List Event)) (h : ∀ t ∈ ts, ∃ t', t = .featStart :: t' ∧ closesMatch [] t')
    (s : WkbW) : featuresSafe s ts = true := by
  induction ts generalizing s with
  | nil => rfl
  | cons t ts ih =>
    obtain ⟨t', rfl, hc⟩ := h t (by simp)
    have hs := nfeature t' s hc
    unfold featuresSafe
    cases hf : feed wkbHandler (.featStart :: t') s with
    | ok a s' => exact ih (fun t ht => h t (by simp [ht])) s'
    | err rc s' => exact ih (fun t ht => h t (by simp [ht])) s'
    | ub => rw [hf] at hs; exact hs.elim

/-- A linestring left open, then a feature with a ring directly inside a multipoint of unknown dimensions. -/
example (s : WkbW) : featuresSafe s [[.featStart, .geomStart 2 1, .coords 2 [[dbl1, dbl2]], .featEnd],
    [.featStart, .geomStart 4 9, .ringStart, .coords 3 [[dbl1, dbl2, dbl3]], .geomEnd, .ringEnd, .featEnd]] = true :=
  C22_wkb_matched_closes_safe_partial _ (by
    intro t ht
    simp only [List.mem_cons, List.not_mem_nil, or_false] at ht
    rcases ht with rfl | rfl
    · exact ⟨_, rfl, trivial⟩
    · exact ⟨_, rfl, trivial⟩) s

/-- Defect: a geometry end (or ring end) with nothing open is accepted at level 0 and patches the byte position held in an
entry of the size table that was never written. If that entry happens to be outside the data, this is an out-of-bounds
write. -/
theorem C22_wkb_unopened_geometry_end (raw : WkbW) (h1 : raw.sizePos 0 = 1000) (h2 : raw.geometryType 0 = 0) :
    feed wkbHandler [.featStart, .geomStart 2 1, .geomEnd, .geomEnd] (wkbInit raw) = .ub ∧
    feed wkbHandler [.featStart, .geomStart 2 1, .geomEnd, .ringEnd] (wkbInit raw) = .ub := by
  refine ⟨?_, ?_⟩ <;>
  simp [feed, wkbHandler, wkbFeatStart, wkbGeomStart, wkbGeomEnd, wkbRingEnd, wkbCheckLevel, levelEntry, wkbAppend, wkbPatch, wkbInit, M.bind_run, upd, h1, h2,
    bufWrite, leBytes]

/-- Defect: closing a ring directly inside a point patches the size position of a level at which none was recorded. -/
theorem C22_wkb_point_ring_end (raw : WkbW) (h1 : raw.sizePos 1 = 1000) :
    feed wkbHandler [.featStart, .geomStart 1 1, .ringEnd] (wkbInit raw) = .ub := by
  simp [feed, wkbHandler, wkbFeatStart, wkbGeomStart, wkbRingEnd, wkbCheckLevel, levelEntry, wkbAppend, wkbPatch, wkbInit, M.bind_run, upd, h1,
    bufWrite, leBytes]

/-- Defect: ending a null feature that was never started appends a run of -1 valid bits to an unallocated bitmap. -/
theorem C22_wkb_null_before_start (raw : WkbW) : feed wkbHandler [.nullFeat, .featEnd] (wkbInit raw) = .ub := by
  simp [feed, wkbHandler, wkbNullFeat, wkbFeatEnd, wkbInit, bitsAppendNull]

example : ∃ raw : WkbW, raw.sizePos 0 = 1000 ∧ raw.geometryType 0 = 0 ∧ raw.sizePos 1 = 1000 :=
  ⟨⟨none, [], [], fun _ => 0, fun _ => 0, fun _ => 1000, fun _ => 0, 0, 0, 0, false⟩, rfl, rfl, rfl⟩

end Verif
