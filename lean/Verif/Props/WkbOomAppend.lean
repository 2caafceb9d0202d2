import Verif.Proof.WkbOomAppend
import Verif.Props.WkbOom
import Verif.Props.Visit
/-!
# C77: the WKB writer when memory runs out and views are appended to it
-/
namespace Verif
open Spec WOom
open Verif.Oom (ENOMEM)

variable {mem : Nat → Bool} {junk : Nat → Nat → Bool}

namespace WOom

/-- Appending the view of the examples. -/
def exAppend : WkbCallV := .append exMem exView

/-- Appending a point. -/
def exAppendPoint : WkbCallV := .append exMem ⟨[exSeqNode 1 1]⟩

theorem exAppend_says : exAppend.Says (some exGeom) := .append exView_denotes (by simp [exGeom, Geom.SmallSeqs, Geom.SmallSeqsL, exCoords, Dims.n])
theorem exAppendPoint_says : exAppendPoint.Says (some (.point .xy [[dbl1, dbl2]])) :=
  .append ⟨_, rfl, rfl, exSeq1⟩ (by simp [Geom.SmallSeqs, Dims.n])

/-- What the calls return when the `m`-th request for memory is the only one that is refused. -/
def exWithoutV (m : Nat) (cs : List WkbCallV) : Option (List (Code × Option BinArray)) :=
  (wkbRunsV (fun k => k != m) (fun _ _ => false) cs (init exRaw 0)).map (·.1)

end WOom

/-- `C77_safe_partial` with views: a history is undefined only in a `finish` whose first request for memory for the
array is granted and whose second one is refused. -/
theorem C77_append_safe_partial {cs : List WkbCallV} (hp : ∀ c ∈ cs, c.Proper) {s : OWkb} (hb : WkbBegins mem s) (hu : wkbRunsV mem junk cs s = none) :
    ∃ pre post rs s', cs = pre ++ .call .finish :: post ∧ wkbRunsV mem junk pre s = some (rs, s') ∧
      ∃ k, s'.asked ≤ k ∧ k ≤ s'.asked + 1 ∧ mem k = true ∧ mem (k + 1) = false := by
  rcases proper_runV (mem := mem) (junk := junk) cs hp (begins_inv hb).1 with ⟨rs, s', e, _⟩ | h
  · rw [hu] at e; cases e
  · exact h

/-- `C77_codes` with views: after any history, ENOMEM is answered exactly when memory for the call itself was refused;
appending a view has no other error. -/
theorem C77_append_codes {cs : List WkbCallV} (hp : ∀ c ∈ cs, c.Proper) {s0 s : OWkb} (hb : WkbBegins mem s0) {rs}
    (hr : wkbRunsV mem junk cs s0 = some (rs, s)) {m : Mem} {v : View} {g : Geom} (h : ViewDenotes m v g) (hs : g.SmallSeqs) :
    ∃ rc s', (WkbCallV.append m v).run mem junk s = some ((rc, none), s') ∧ (rc = 0 ∨ rc = ENOMEM) ∧ (rc = ENOMEM ↔ Refused mem s s') := by
  have hg := good_view (mem := mem) (junk := junk) h hs (proper_invV hp (begins_inv hb).1 hr) (rel_self s)
  have hgr : ∀ {s'}, Granted mem s s' → ¬ Refused mem s s' := fun g ⟨k, k1, k2, k3⟩ => by rw [g.2 k k1 k2] at k3; cases k3
  cases hx : appendView mem junk m v s with
  | ok a s' =>
    rw [hx] at hg
    obtain ⟨b', h1, h2, h3, h4⟩ := hg
    exact ⟨0, s', by simp only [WkbCallV.run, hx], Or.inl rfl, ⟨fun h => (by cases h), fun h => absurd h (hgr h4)⟩⟩
  | err rc s' =>
    rw [hx] at hg
    obtain ⟨h1, h2, h3⟩ := hg
    refine ⟨rc, s', by simp only [WkbCallV.run, hx], ?_⟩
    rcases h3 with h3 | ⟨_, b', e⟩
    · exact ⟨Or.inr h3.1, ⟨fun _ => h3.2, fun _ => h3.1⟩⟩
    · cases e
  | ub => rw [hx] at hg; cases hg

/-- `C77_intact` with views: as long as no append fails, whether of a feature, a null or a view, nothing is lost. -/
theorem C77_append_intact {cs : List WkbCallV} {gs : List (Option Geom)} (hs : SayAllV cs gs) {s : OWkb} (hb : WkbBegins mem s) {rs s'}
    (hr : wkbRunsV mem junk cs s = some (rs, s')) (hf : AllFine rs) :
    (∃ rc a s'', finish mem s' = some ((rc, some a), s'') ∧ Represents a (gs.map wanted) ∧ (rc = 0 ∨ rc = ENOMEM ∧ Refused mem s' s'')) ∨
    (∃ s'', finish mem s' = some ((ENOMEM, none), s'') ∧ Refused mem s' s'') ∨
    (finish mem s' = some ((EOVERFLOW, none), s') ∧ 2147483647 < (elemBytes (gs.map wanted)).length) ∨
    (finish mem s' = none ∧ ∃ k, s'.asked ≤ k ∧ k ≤ s'.asked + 1 ∧ mem k = true ∧ mem (k + 1) = false) := by
  obtain ⟨hi, hfr, _⟩ := begins_inv hb
  obtain ⟨b', r', i', _, v', _, _, p'⟩ := fine_runV cs gs hs hi (rel_begins hb) hr hf
  have hv : b'.values = elemBytes (gs.map wanted) := by rw [v', hfr.2.2.1]; rfl
  have hw : b' = s'.w := (r'.exact trivial).1
  subst hw
  rcases finish_cases (mem := mem) s' i' with ⟨hl, e⟩ | ⟨hl, ⟨s1, e, _, r⟩ | ⟨e, k⟩ | ⟨rc, s1, k, e, h⟩⟩
  · exact Or.inr (Or.inr (Or.inl ⟨e, by rw [← hv]; exact hl⟩))
  · exact Or.inr (Or.inl ⟨s1, e, r⟩)
  · exact Or.inr (Or.inr (Or.inr ⟨e, k⟩))
  · have hc := wouldBe_canon ((p' hl).2 [] (has_fresh.2 hfr))
    rw [List.nil_append] at hc
    rw [hc] at e h
    refine Or.inl ⟨rc, _, _, e, canon_represents _, ?_⟩
    rcases h with h | ⟨_, h⟩
    · exact Or.inr h
    · rw [canon_finish] at h
      rcases h with h | h
      · exact Or.inl h.2
      · cases h

/-- `C77_enough` with views: when memory is always granted and the data fits 32-bit offsets, all calls succeed and the
array is right. -/
theorem C77_append_enough (hm : ∀ k, mem k = true) {cs : List WkbCallV} {gs : List (Option Geom)} (hs : SayAllV cs gs) {s : OWkb}
    (hb : WkbBegins mem s) (hl : (elemBytes (gs.map wanted)).length ≤ 2147483647) :
    ∃ rs s' a s'', wkbRunsV mem junk cs s = some (rs, s') ∧ AllFine rs ∧ finish mem s' = some ((0, some a), s'') ∧ Represents a (gs.map wanted) := by
  obtain ⟨hi, hfr, _⟩ := begins_inv hb
  obtain ⟨rs, s', e, f⟩ := enough_runV (junk := junk) hm cs gs hs hi (rel_begins hb) (by rw [hfr.2.2.1]; simpa using hl)
  have no : ∀ {a b : OWkb}, ¬ Refused mem a b := fun ⟨k, _, _, h⟩ => by rw [hm k] at h; cases h
  rcases C77_append_intact hs hb e f with ⟨rc, a, s'', e2, r2, rfl | ⟨_, h⟩⟩ | ⟨_, _, h⟩ | ⟨_, h⟩ | ⟨_, k, _, _, _, h⟩
  · exact ⟨rs, s', a, s'', e, f, e2, r2⟩
  · exact absurd h no
  · exact absurd h no
  · omega
  · rw [hm] at h; cases h

/-- A view of a collection, a null and a feature, with memory that is never refused. -/
example : ∃ rs s' a s'', wkbRunsV (fun _ => true) junk [exAppend, .call .appendNull, .call (exPoint dbl2)] (init exRaw 0) = some (rs, s') ∧ AllFine rs ∧
    finish (fun _ => true) s' = some ((0, some a), s'') ∧
    Represents a [some (isoWkb exGeom), none, some (isoWkb (.point .xy [[dbl2, dbl2]]))] :=
  C77_append_enough (mem := fun _ => true) (fun _ => rfl) (gs := [some exGeom, none, some (.point .xy [[dbl2, dbl2]])])
    (cs := [exAppend, .call .appendNull, .call (exPoint dbl2)]) ⟨exAppend_says, .call .appendNull, .call (exPoint_says _), trivial⟩ (exBegins 0)
    (by decide +kernel)

example : ∀ c ∈ [exAppend, .call (exPoint dbl1)], c.Proper := by
  intro c h
  simp only [List.mem_cons, List.not_mem_nil, or_false] at h
  rcases h with rfl | rfl
  · exact ⟨_, exView_denotes, by simp [exGeom, Geom.SmallSeqs, Geom.SmallSeqsL, exCoords, Dims.n]⟩
  · exact ⟨_, rfl, by simp [closesMatch]⟩

/-- `C77_after_failure` with views: whatever was appended before and however it failed, as long as no view was refused, if
all later appends succeed and `finish` returns 0, the array ends with elements that hold exactly the bytes of the later
features and views (nulls hold none).

Partial: false when a view was refused (`C77_append_shifts`). -/
theorem C77_append_after_failure_partial {pre : List WkbCallV} (hp : ∀ c ∈ pre, c.Proper) (hn : .call .finish ∉ pre) {s0 s1 : OWkb}
    (hb : WkbBegins mem s0) {rs1} (h1 : wkbRunsV mem junk pre s0 = some (rs1, s1)) (hnv : NoViewRefused pre rs1) {cs : List WkbCallV}
    {gs : List (Option Geom)} (hs : SayAllV cs gs) {rs2 s2}
    (h2 : wkbRunsV mem junk cs s1 = some (rs2, s2)) (hf : AllFine rs2) {a s3} (h3 : finish mem s2 = some ((0, some a), s3)) :
    gs.length ≤ a.length ∧ ∀ (j : Nat) (o : Option Geom), gs[j]? = some o → ElementIs a (a.length - gs.length + j) ((wanted o).getD []) := by
  obtain ⟨hi, hfr, _⟩ := begins_inv hb
  obtain ⟨i1, sh1⟩ := any_runV pre hp hn hi h1 hnv
  obtain ⟨b', r', i2, _, v', l', ol', p'⟩ := fine_runV cs gs hs i1 (rel_self s1) h2 hf
  have hq := r'.like
  have ev : b'.values = s2.w.values := by rw [hq]
  have el : b'.length = s2.w.length := by rw [hq]
  have eo : b'.offsets = s2.w.offsets := by rw [hq]
  have hs1 : s1.w.offsets.length ≤ s1.w.length := sh1 (by rw [hfr.2.1, hfr.2.2.2.1]; exact Nat.le_refl _)
  have hshort : s2.w.offsets.length ≤ s2.w.length := by rw [← eo, ← el, ol', l']; omega
  rcases finish_cases (mem := mem) s2 i2 with ⟨hl, e⟩ | ⟨hl, ⟨s', e, _, r⟩ | ⟨e, k⟩ | ⟨rc, s', k, e, h⟩⟩
  · rw [h3] at e; cases e
  · rw [h3] at e; cases e
  · rw [h3] at e; cases e
  · rw [h3] at e
    have ha : a = wouldBe s2.w := by cases e; rfl
    have hrc : rc = 0 := by cases e; rfl
    have hfb : finishBuilding (wouldBe s2.w) = some (.ok ()) := by
      rcases h with ⟨h, _⟩ | ⟨_, h | h⟩
      · rw [hrc] at h; cases h
      · exact h.1
      · exact absurd h (by rw [hrc]; exact building_not_zero _)
    have hal : a.length = s1.w.length + gs.length := by rw [ha, ← l', el]; rfl
    refine ⟨by omega, fun j o hj => ?_⟩
    have hj' : j < gs.length := by
      rcases Nat.lt_or_ge j gs.length with h | h
      · exact h
      · rw [List.getElem?_eq_none h] at hj; cases hj
    have h0 : (wouldBe s2.w).length ≠ 0 := by rw [← ha, hal]; omega
    have hge := building_offsets hfb h0
    have hol : (wouldBe s2.w).offsets.length = s2.w.offsets.length + 1 := by simp [wouldBe]
    have hwl : (wouldBe s2.w).length = s2.w.length := rfl
    obtain ⟨ho, _⟩ := p' (by rw [ev]; exact hl)
    have hpre : s1.w.offsets.length = s1.w.length := by
      rw [eo] at ol'
      omega
    have := elements_behind s1.w.offsets s1.w.values (gs.map wanted) a
      (by rw [ha]; show s2.w.offsets ++ [(s2.w.values.length : Int)] = _; rw [← eo, ho, ← ev, v'])
      (by rw [ha]; show s2.w.values = _; rw [← ev, v']) (j := j) (e := wanted o) (by simp [hj])
    rw [hpre] at this
    rw [hal, Nat.add_sub_cancel]
    exact this

/-- A history it is about: a view is accepted, a point is refused, a view is accepted and `finish` returns 0. -/
example : (exWithoutV 5 [exAppendPoint, .call (exPoint dbl1), exAppendPoint, .call .finish]).map (·.map (·.1)) = some [0, ENOMEM, 0, 0] := by
  decide +kernel

example : NoViewRefused [exAppendPoint, .call (exPoint dbl1)] [(0, none), (ENOMEM, none)] := ⟨rfl, trivial⟩

/-- `C77_no_nulls` with views: if no null was ever fed, the array has no validity buffer and no nulls are counted, whatever was
refused. -/
theorem C77_append_no_nulls {cs : List WkbCallV} (hp : ∀ c ∈ cs, c.Proper) (hc : ∀ c ∈ cs, c.FeedsNoNull) {s : OWkb} (hb : WkbBegins mem s)
    {rs s'} (hr : wkbRunsV mem junk cs s = some (rs, s')) {rc a s''} (hf : finish mem s' = some ((rc, some a), s'')) :
    a.validity = none ∧ a.nullCount = 0 := by
  obtain ⟨hi, hfr, _⟩ := begins_inv hb
  have h := clean_runV cs hc (s := s) ⟨hfr.1, hfr.2.2.2.2⟩ hr
  rcases finish_cases (mem := mem) s' (proper_invV hp hi hr) with ⟨hl, e⟩ | ⟨hl, ⟨s1, e, _, r⟩ | ⟨e, k⟩ | ⟨rc, s1, k, e, _⟩⟩
  · rw [hf] at e; cases e
  · rw [hf] at e; cases e
  · rw [hf] at e; cases e
  · rw [hf] at e
    have ha : a = wouldBe s'.w := by cases e; rfl
    rw [ha]
    exact h

example : ∀ c ∈ [exAppend, .call (exPoint dbl1)], c.FeedsNoNull := by
  intro c h
  simp only [List.mem_cons, List.not_mem_nil, or_false] at h
  rcases h with rfl | rfl
  · trivial
  · exact ⟨_, rfl, by simp⟩

/-- Unlike a refused feature (`C77_after_failure`), a refused view makes later elements wrong: the first view is refused
memory for its bytes, the second is accepted and `finish` returns 0, with an array of a single element that is empty. -/
theorem C77_append_shifts : ∃ a, exWithoutV 1 [exAppendPoint, exAppendPoint, .call .finish] = some [(ENOMEM, none), (0, none), (0, some a)] ∧
    a.length = 1 ∧ a.offsets = [0, 0, 21] ∧ exShown a 0 = [] :=
  ⟨⟨1, 0, none, [0, 0, 21], isoWkb (.point .xy [[dbl1, dbl2]])⟩, by decide +kernel, rfl, rfl, by decide +kernel⟩

end Verif
