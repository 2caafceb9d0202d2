import Verif.Proof.WktGeom
import Verif.Proof.WkbHistory
/-!
# Features and histories of the WKT writer
-/
namespace Verif
open Spec

/-- Options of the writer are what matters for the text. -/
structure SameOptions (s s' : WktW) : Prop where
  precision : s'.precision = s.precision
  flat : s'.flat = s.flat
  maxSize : s'.maxSize = s.maxSize

theorem SameOptions.trans {a b c : WktW} (h : SameOptions a b) (h' : SameOptions b c) : SameOptions a c :=
  ⟨h'.1.trans h.1, h'.2.trans h.2, h'.3.trans h.3⟩

section
variable {print : Nat → Dbl → List Byte} (hp : ∀ n x, (print n x).length ≤ 40)
include hp

/-- The geometry part of a feature, after feature start. -/
theorem feature_body {g : Geom} {b : List Event} (hb : g.Trace b) (hw : g.WF) (hty : g.Typed) (hh : g.height ≤ 31) (s : WktW)
    (hlv : s.level = -1) : Grow s (wktText (print s.precision) s.flat g) (fun _ => True) (feed (wktHandler print) b s) := by
  have h := wktw_geom hp g b s 0 hb hw hty (by rw [hlv]; rfl) (by omega) (by intro _ h; simp [outerType] at h)
  have h2 : before 0 s ++ ctxText (print s.precision) s.flat (outerType 0 s) g = wktText (print s.precision) s.flat g := by
    simp [before, outerType, ctxText]
  rw [h2] at h
  exact h.imp (fun _ _ _ _ => trivial)

/-- The state after feature start. -/
def WktW.started (s : WktW) : WktW :=
  { s with level := -1, length := s.length + 1, featIsNull := false, featStart := s.values.length,
           offsets := s.offsets ++ [(s.values.length : Int)] }

omit hp in
theorem featStart_run (s : WktW) (hv : s.values.length ≤ 2147483647) :
    wktHandler print .featStart s = .ok () s.started := by
  simp only [wktHandler, wktFeatStart]
  rw [if_neg (by omega)]; rfl

/-- What a feature leaves behind: `e` is what was appended for it. -/
structure FeatureDone (s s' : WktW) (txt e : List Byte) : Prop where
  values : s'.values = s.values ++ e
  pre : e <+: txt
  stop : e = txt ∨ (0 ≤ s.maxSize ∧ s.maxSize ≤ e.length)
  cut : s.validity = none → 0 ≤ s.maxSize → e = txt.take s.maxSize.toNat
  offsets : s'.offsets = s.offsets ++ [(s.values.length : Int)]
  length : s'.length = s.length + 1
  nulls : s'.nullCount = s.nullCount
  validity : s'.validity = bitsAppendValid s.validity
  options : SameOptions s s'

omit hp in
theorem feature_end {s s2 : WktW} {txt p : List Byte} (hk : WKeep s.started s2) (hv : s2.values = s.values ++ p) (hp1 : p <+: txt)
    (hp2 : p = txt ∨ (0 ≤ s.maxSize ∧ s.maxSize ≤ p.length)) :
    ∃ s', wktHandler print .featEnd s2 = .ok () s' ∧ ∃ e, FeatureDone s s' txt e := by
  have hopt : SameOptions s s2 := ⟨hk.precision, hk.flat, hk.maxSize⟩
  have hnull : s2.featIsNull = false := hk.featIsNull
  have hval : s2.validity = s.validity := hk.validity
  have hfs : s2.featStart = (s.values.length : Int) := hk.featStart
  have hmx : s2.maxSize = s.maxSize := hk.maxSize
  simp only [wktHandler, wktFeatEnd]
  rw [hnull]
  simp only [Bool.false_eq_true, if_false]
  cases hvs : s2.validity with
  | some l =>
    refine ⟨_, rfl, p, hv, hp1, hp2, ?_, hk.offsets, hk.length, hk.nullCount, ?_, ⟨hopt.1, hopt.2, hopt.3⟩⟩
    · intro h; rw [← hval, hvs] at h; cases h
    · rw [← hval, hvs]; rfl
  | none =>
    simp only []
    have hlen : (s2.values.length : Int) - s2.featStart = (p.length : Int) := by
      rw [hv, hfs, List.length_append]; omega
    have hbit : s2.validity = bitsAppendValid s.validity := by rw [hvs, ← hval, hvs]; rfl
    rw [hlen, hmx]
    by_cases hc : 0 ≤ s.maxSize ∧ s.maxSize < (p.length : Int)
    · rw [if_pos hc, hfs, if_neg (by omega)]
      have htake : List.take (s.values.length + s.maxSize).toNat s2.values = s.values ++ p.take s.maxSize.toNat := by
        rw [hv, show ((s.values.length : Int) + s.maxSize).toNat = s.values.length + s.maxSize.toNat by omega, List.take_length_add_append]
      have hpt : p.take s.maxSize.toNat = txt.take s.maxSize.toNat := by
        obtain ⟨q, rfl⟩ := hp1
        rw [List.take_append_of_le_length (by omega)]
      refine ⟨_, rfl, p.take s.maxSize.toNat, htake, ?_, Or.inr ⟨hc.1, ?_⟩, fun _ _ => hpt, hk.offsets, hk.length, hk.nullCount, ?_,
        ⟨hopt.1, hopt.2, rfl⟩⟩
      · exact (List.take_prefix _ _).trans hp1
      · rw [List.length_take]; omega
      · rw [← hbit, hvs]
    · rw [if_neg hc]
      refine ⟨s2, rfl, p, hv, hp1, hp2, ?_, hk.offsets, hk.length, hk.nullCount, hbit, hopt⟩
      intro _ h0
      have hle : (p.length : Int) ≤ s.maxSize := by omega
      rcases hp2 with h | ⟨_, h⟩
      · rw [h, List.take_of_length_le]; rw [← h]; omega
      · obtain ⟨q, rfl⟩ := hp1
        have : s.maxSize.toNat = p.length := by omega
        rw [this, List.take_left]

/-- A feature visited as the kernel does. -/
theorem feature_run {g : Geom} {t : List Event} (ht : FeatureTrace g t) (hw : g.WF) (hty : g.Typed) (hh : g.height ≤ 31) (s : WktW)
    (hv : s.values.length ≤ 2147483647) :
    ∃ s' e, visitByFeature (wktHandler print) (feed (wktHandler print) t) s = .ok () s' ∧
      FeatureDone s s' (wktText (print s.precision) s.flat g) e := by
  obtain ⟨b, hb, rfl⟩ := ht
  have hg := feature_body hp hb hw hty hh s.started rfl
  have he : feed (wktHandler print) (.featStart :: b ++ [.featEnd]) s =
      (feed (wktHandler print) b s.started).andThen (feed (wktHandler print) [.featEnd]) := by
    rw [List.cons_append, feed_cons_ok (featStart_run s hv), feed_append']
  unfold visitByFeature
  rw [he]
  cases hr : feed (wktHandler print) b s.started with
  | ok a s2 =>
    rw [hr] at hg
    obtain ⟨h1, h2, -⟩ := hg
    obtain ⟨s', h3, e, h4⟩ := feature_end (print := print) (p := wktText (print s.precision) s.flat g) h2 h1 (List.prefix_refl _) (Or.inl rfl)
    refine ⟨s', e, ?_, h4⟩
    simp only [Res.andThen, feed, h3, M.pure_run]
  | err rc s2 =>
    rw [hr] at hg
    obtain ⟨h1, h2, ⟨p, h3, h4⟩, h5⟩ := hg
    have hmx : s2.maxSize = s.maxSize := h5.maxSize
    have hfs : s2.featStart = (s.values.length : Int) := h5.featStart
    have h4' : s2.values = s.values ++ p := h4
    simp only [WktW.limitReached, decide_eq_true_eq, hmx, hfs, h4', List.length_append] at h2
    obtain ⟨s', h6, e, h7⟩ := feature_end (print := print) (p := p) h5 h4' h3 (Or.inr ⟨h2.1, by omega⟩)
    refine ⟨s', e, ?_, h7⟩
    simp only [Res.andThen, h1, if_true]
    exact h6
  | ub => rw [hr] at hg; exact hg.elim

/-- Without a limit the plain visit succeeds. -/
theorem feature_plain {g : Geom} {t : List Event} (ht : FeatureTrace g t) (hw : g.WF) (hty : g.Typed) (hh : g.height ≤ 31) (s : WktW)
    (hv : s.values.length ≤ 2147483647) (hm : s.maxSize < 0) :
    ∃ s', feed (wktHandler print) t s = .ok () s' ∧
      FeatureDone s s' (wktText (print s.precision) s.flat g) (wktText (print s.precision) s.flat g) := by
  obtain ⟨b, hb, rfl⟩ := ht
  have hg := feature_body hp hb hw hty hh s.started rfl
  rw [List.cons_append, feed_cons_ok (featStart_run s hv), feed_append']
  cases hr : feed (wktHandler print) b s.started with
  | ok a s2 =>
    rw [hr] at hg
    obtain ⟨h1, h2, -⟩ := hg
    obtain ⟨s', h3, e, h4⟩ := feature_end (print := print) (p := wktText (print s.precision) s.flat g) h2 h1 (List.prefix_refl _) (Or.inl rfl)
    have : e = wktText (print s.precision) s.flat g := h4.stop.resolve_right (by omega)
    subst this
    refine ⟨s', ?_, h4⟩
    simp only [Res.andThen, feed, h3, M.pure_run]
  | err rc s2 =>
    rw [hr] at hg
    obtain ⟨h1, h2, -, h5⟩ := hg
    have hmx : s2.maxSize = s.maxSize := h5.maxSize
    simp only [WktW.limitReached, decide_eq_true_eq, hmx] at h2
    omega
  | ub => rw [hr] at hg; exact hg.elim
end

/-- The five members that make up the array, as for the WKB writer. -/
def WktW.core (s : WktW) : WkbW :=
  ⟨s.validity, s.offsets, s.values, fun _ => 0, fun _ => 0, fun _ => 0, fun _ => 0, 0, s.length, s.nullCount, false⟩

theorem wktNull_run (print : Nat → Dbl → List Byte) (s : WktW) (hv : s.values.length ≤ 2147483647) :
    ∃ s' l, feed (wktHandler print) [.featStart, .nullFeat, .featEnd] s = .ok () s' ∧
      bitsAppendNull s.validity (s.length + 1) = some l ∧ s'.validity = some l ∧
      s'.values = s.values ∧ s'.offsets = s.offsets ++ [(s.values.length : Int)] ∧ s'.length = s.length + 1 ∧
      s'.nullCount = s.nullCount + 1 ∧ SameOptions s s' := by
  obtain ⟨l, hl⟩ : ∃ l, bitsAppendNull s.validity (s.length + 1) = some l := by
    cases s.validity with
    | none => exact ⟨_, by simp [bitsAppendNull]; rfl⟩
    | some l => exact ⟨_, rfl⟩
  have h3 : wktHandler print .featEnd { s.started with featIsNull := true } =
      .ok () { s.started with featIsNull := true, validity := some l, nullCount := s.nullCount + 1 } := by
    simp only [wktHandler, wktFeatEnd, if_true]
    show (match bitsAppendNull s.validity (s.length + 1) with | none => _ | some l => _) = _
    rw [hl]; rfl
  refine ⟨{ s.started with featIsNull := true, validity := some l, nullCount := s.nullCount + 1 }, l, ?_, hl, rfl, rfl, rfl, rfl, rfl,
    ⟨rfl, rfl, rfl⟩⟩
  rw [feed_cons_ok (featStart_run s hv), feed_cons_ok (s' := { s.started with featIsNull := true }) rfl, feed_cons_ok h3]; rfl

theorem wktFinish_run {s : WktW} {els : List (Option (List Byte))} (h : s.core.Has els) (hv : s.values.length ≤ 2147483647) :
    ∃ s', wktFinish s = .ok (canonArray els) s' ∧ s'.core.Fresh ∧ SameOptions s s' := by
  have ha : (⟨s.length, s.nullCount, s.validity, s.offsets ++ [(s.values.length : Int)], s.values⟩ : BinArray) = canonArray els := by
    have h1 := h.validity
    have h2 := h.offsets
    have h3 := h.values
    have h4 := h.length
    have h5 := h.nulls
    simp only [WktW.core] at h1 h2 h3 h4 h5
    rw [h1, h2, h3, h4, h5]; rfl
  unfold wktFinish
  rw [if_neg (by omega)]
  simp only []
  rw [ha, canon_finish]
  exact ⟨_, rfl, ⟨rfl, rfl, rfl, rfl, rfl⟩, rfl, rfl, rfl⟩

end Verif
