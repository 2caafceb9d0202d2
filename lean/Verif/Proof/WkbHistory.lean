import Verif.Proof.WkbAppend
import Verif.Proof.BinArray
/-!
# Histories of appends to the WKB writer
-/
namespace Verif
open Spec

/-- Nothing appended since initialisation or the last Finish. -/
def WkbW.Fresh (s : WkbW) : Prop :=
  s.validity = none ∧ s.offsets = [] ∧ s.values = [] ∧ s.length = 0 ∧ s.nullCount = 0

/-- The writer holds exactly these elements. -/
structure WkbW.Has (s : WkbW) (els : List (Option (List Byte))) : Prop where
  validity : s.validity = if els.all Option.isSome then none else some (els.map Option.isSome)
  offsets : s.offsets = starts 0 els
  values : s.values = elemBytes els
  length : s.length = els.length
  nulls : s.nullCount = (els.filter Option.isNone).length

theorem has_fresh {s : WkbW} : s.Has [] ↔ s.Fresh :=
  ⟨fun h => ⟨h.1, h.2, h.3, h.4, h.5⟩, fun h => ⟨h.1, h.2.1, h.2.2.1, h.2.2.2.1, h.2.2.2.2⟩⟩

theorem map_isSome_replicate {els : List (Option (List Byte))} (h : els.all Option.isSome) :
    els.map Option.isSome = List.replicate els.length true := by
  induction els with
  | nil => rfl
  | cons e es ih =>
    simp only [List.all_cons, Bool.and_eq_true] at h
    simp only [List.map_cons, h.1, List.length_cons, List.replicate_succ, ih h.2]

theorem has_null {s s' : WkbW} {els : List (Option (List Byte))} (h : s.Has els)
    (h1 : some (s'.validity) = (bitsAppendNull s.validity (els.length + 1)).map some)
    (h2 : s'.offsets = s.offsets ++ [(s.values.length : Int)]) (h3 : s'.values = s.values)
    (h4 : s'.length = s.length + 1) (h5 : s'.nullCount = s.nullCount + 1) : s'.Has (els ++ [none]) := by
  refine ⟨?_, ?_, ?_, ?_, ?_⟩
  · have hall : ¬ (els ++ [none]).all Option.isSome := by simp
    rw [if_neg hall]
    rw [h.validity] at h1
    by_cases ha : els.all Option.isSome
    · rw [if_pos ha] at h1
      simp only [bitsAppendNull, Nat.add_one_ne_zero, if_false, Nat.add_sub_cancel, Option.map_some, Option.some.injEq] at h1
      rw [h1, List.map_append, map_isSome_replicate ha]; rfl
    · rw [if_neg ha] at h1
      simp only [bitsAppendNull, Option.map_some, Option.some.injEq] at h1
      rw [h1, List.map_append]; rfl
  · rw [h2, h.offsets, starts_append, h.values]; simp [starts]
  · rw [h3, h.values, elemBytes_append]; simp [elemBytes]
  · rw [h4, h.length]; simp
  · rw [h5, h.nulls]; simp

theorem has_some {s s' : WkbW} {els : List (Option (List Byte))} {b : List Byte} (h : s.Has els)
    (h1 : s'.validity = bitsAppendValid s.validity)
    (h2 : s'.offsets = s.offsets ++ [(s.values.length : Int)]) (h3 : s'.values = s.values ++ b)
    (h4 : s'.length = s.length + 1) (h5 : s'.nullCount = s.nullCount) : s'.Has (els ++ [some b]) := by
  refine ⟨?_, ?_, ?_, ?_, ?_⟩
  · rw [h1, h.validity]
    by_cases ha : els.all Option.isSome
    · have : (els ++ [some b]).all Option.isSome := by simp only [List.all_append, ha]; rfl
      rw [if_pos ha, if_pos this]; rfl
    · have : ¬ (els ++ [some b]).all Option.isSome := by simp only [List.all_append]; simpa using ha
      rw [if_neg ha, if_neg this]; simp [bitsAppendValid]
  · rw [h2, h.offsets, starts_append, h.values]; simp [starts]
  · rw [h3, h.values, elemBytes_append]; simp [elemBytes]
  · rw [h4, h.length]; simp
  · rw [h5, h.nulls]; simp

/-- A feature fed through the visitor. -/
theorem visit_run {g : Geom} {t : List Event} (ht : FeatureTrace g t) (hc : g.Countable) (hh : g.height ≤ 29) (s : WkbW)
    (hv : s.values.length ≤ 2147483647) :
    ∃ s', feed wkbHandler t s = .ok () s' ∧ s'.values = s.values ++ isoWkb g ∧
      s'.offsets = s.offsets ++ [(s.values.length : Int)] ∧ s'.length = s.length + 1 ∧ s'.nullCount = s.nullCount ∧
      s'.validity = bitsAppendValid s.validity := by
  obtain ⟨b, hb, rfl⟩ := ht
  let s1 : WkbW := { s with
    level := 0, size := upd s.size 0 0, length := s.length + 1, featIsNull := false
    offsets := s.offsets ++ [(s.values.length : Int)] }
  have h1 : wkbHandler .featStart s = .ok () s1 := by
    simp only [wkbHandler, wkbFeatStart]
    rw [if_neg (by omega)]
  obtain ⟨s2, a1, a2, a3, a4⟩ := wkbw_geom (l := 0) g b s1 hb hc rfl (by omega) (by show upd s.size 0 0 0 < _; rw [upd_same]; decide)
  refine ⟨{ s2 with validity := bitsAppendValid s2.validity }, ?_, a2, a4.offsets, a4.length, a4.nullCount, ?_⟩
  · rw [List.cons_append, feed_cons_ok h1, feed_append_ok a1]
    have : wkbHandler .featEnd s2 = .ok () { s2 with validity := bitsAppendValid s2.validity } := by
      simp only [wkbHandler, wkbFeatEnd]
      rw [a4.featIsNull]
      rfl
    rw [feed_cons_ok this]; rfl
  · simp only [a4.validity]; rfl

theorem visitNull_run (s : WkbW) (hv : s.values.length ≤ 2147483647) :
    ∃ s' l, feed wkbHandler [.featStart, .nullFeat, .featEnd] s = .ok () s' ∧
      bitsAppendNull s.validity (s.length + 1) = some l ∧ s'.validity = some l ∧
      s'.values = s.values ∧ s'.offsets = s.offsets ++ [(s.values.length : Int)] ∧ s'.length = s.length + 1 ∧
      s'.nullCount = s.nullCount + 1 := by
  obtain ⟨l, hl⟩ : ∃ l, bitsAppendNull s.validity (s.length + 1) = some l := by
    cases s.validity with
    | none => exact ⟨_, by simp [bitsAppendNull]; rfl⟩
    | some l => exact ⟨_, rfl⟩
  let s1 : WkbW := { s with
    level := 0, size := upd s.size 0 0, length := s.length + 1, featIsNull := false
    offsets := s.offsets ++ [(s.values.length : Int)] }
  have h1 : wkbHandler .featStart s = .ok () s1 := by
    simp only [wkbHandler, wkbFeatStart]
    rw [if_neg (by omega)]
  have h3 : wkbHandler .featEnd { s1 with featIsNull := true } =
      .ok () { s1 with featIsNull := true, validity := some l, nullCount := s.nullCount + 1 } := by
    simp only [wkbHandler, wkbFeatEnd, if_true]
    show (match bitsAppendNull s.validity (s.length + 1) with | none => _ | some l => _) = _
    rw [hl]
  refine ⟨{ s1 with featIsNull := true, validity := some l, nullCount := s.nullCount + 1 }, l, ?_, hl, rfl, rfl, rfl, rfl, rfl⟩
  rw [feed_cons_ok h1, feed_cons_ok (s' := { s1 with featIsNull := true }) rfl, feed_cons_ok h3]; rfl

theorem toI32_of_le {n : Nat} (h : n ≤ 2147483647) : toI32 n = (n : Int) := by
  unfold toI32
  rw [Nat.mod_eq_of_lt (by omega), if_pos (by omega)]

theorem appendNull_run (s : WkbW) :
    ∃ s' l, wkbAppendNull s = .ok () s' ∧
      bitsAppendNull s.validity (s.length + 1) = some l ∧ s'.validity = some l ∧
      s'.values = s.values ∧ s'.offsets = s.offsets ++ [toI32 s.values.length] ∧ s'.length = s.length + 1 ∧
      s'.nullCount = s.nullCount + 1 := by
  obtain ⟨l, hl⟩ : ∃ l, bitsAppendNull s.validity (s.length + 1) = some l := by
    cases s.validity with
    | none => exact ⟨_, by simp [bitsAppendNull]; rfl⟩
    | some l => exact ⟨_, rfl⟩
  refine ⟨{ s with offsets := s.offsets ++ [toI32 s.values.length], length := s.length + 1, validity := some l, nullCount := s.nullCount + 1 },
    l, ?_, hl, rfl, rfl, rfl, rfl, rfl⟩
  simp only [wkbAppendNull]
  rw [M.bind_ok (M.modify_run _ _)]
  simp only [wkbAppendValidity, Bool.false_eq_true, if_false]
  rw [hl]

theorem finish_run {s : WkbW} {els : List (Option (List Byte))} (h : s.Has els) (hv : s.values.length ≤ 2147483647) :
    ∃ s', wkbFinish s = .ok (canonArray els) s' ∧ s'.Fresh := by
  have ha : (⟨s.length, s.nullCount, s.validity, s.offsets ++ [(s.values.length : Int)], s.values⟩ : BinArray) = canonArray els := by
    rw [h.validity, h.offsets, h.values, h.length, h.nulls]; rfl
  unfold wkbFinish
  rw [if_neg (by omega)]
  simp only []
  rw [ha, canon_finish]
  exact ⟨_, rfl, rfl, rfl, rfl, rfl, rfl⟩

end Verif
