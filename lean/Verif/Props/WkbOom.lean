import Verif.Proof.WkbOomRun
import Verif.Props.WkbWriter
/-!
# C77: the WKB writer when memory runs out
-/
namespace Verif
open Spec WOom
open Verif.Oom (ENOMEM)

variable {mem : Nat → Bool} {junk : Nat → Nat → Bool}

/-! ## Concrete histories -/

namespace WOom

/-- Memory that was never written. -/
def exRaw : WkbW := ⟨none, [], [], fun _ => 77, fun _ => 77, fun _ => 1000, fun _ => 77, 77, 77, 77, true⟩

/-- Feeding the point (x, x). -/
def exPoint (x : Dbl) : WkbCall := .visit [.featStart, .geomStart 1 1, .coords 2 [[x, x]], .geomEnd, .featEnd]

/-- Feeding a null. -/
def exNull : WkbCall := .visit [.featStart, .nullFeat, .featEnd]

/-- What the calls return when the `m`-th request for memory is the only one that is refused. -/
def exWithout (m : Nat) (junk : Nat → Nat → Bool) (cs : List WkbCall) : Option (List (Code × Option BinArray)) :=
  (wkbRuns (fun k => k != m) junk cs (init exRaw 0)).map (·.1)

theorem exBegins (k : Nat) : WkbBegins mem (init exRaw k) := Or.inl ⟨_, _, rfl⟩

theorem exPoint_says (x : Dbl) : (exPoint x).Says (some (.point .xy [[x, x]])) := by
  refine .feature ⟨[.geomStart 1 1, .coords 2 [[x, x]], .geomEnd], ?_, rfl⟩ (by simp [Geom.Countable]) (by simp [Geom.height])
  exact ⟨[.coords 2 [[x, x]]], ⟨[[[x, x]]], by simp, rfl⟩, rfl⟩

end WOom

/-! ## C77 -/

/-- Whatever requests are refused, the calls of a client are never undefined, except for a `finish` whose first request
for memory for the array is granted and whose second one is refused. (The exception happens: `C77_finish_crash`.) -/
theorem C77_safe_partial {cs : List WkbCall} (hp : ∀ c ∈ cs, c.Proper) {s : OWkb} (hb : WkbBegins mem s) (hu : wkbRuns mem junk cs s = none) :
    ∃ pre post rs s', cs = pre ++ .finish :: post ∧ wkbRuns mem junk pre s = some (rs, s') ∧
      ∃ k, s'.asked ≤ k ∧ k ≤ s'.asked + 1 ∧ mem k = true ∧ mem (k + 1) = false := by
  rcases proper_run (mem := mem) (junk := junk) cs hp (begins_inv hb).1 with ⟨rs, s', e, _⟩ | h
  · rw [hu] at e; cases e
  · exact h

/-- Before the first `finish` no call is undefined. -/
theorem C77_safe_appends {cs : List WkbCall} (hp : ∀ c ∈ cs, c.Proper) (hf : .finish ∉ cs) {s : OWkb} (hb : WkbBegins mem s) :
    ∃ rs s', wkbRuns mem junk cs s = some (rs, s') := by
  cases h : wkbRuns mem junk cs s with
  | some p => exact ⟨p.1, p.2, rfl⟩
  | none =>
    obtain ⟨pre, post, _, _, e, _⟩ := C77_safe_partial hp hb h
    exact absurd (by rw [e]; simp) hf

/-- The code of an append tells whether memory was refused: after any history, a feature or null is answered with 0,
ENOMEM or EOVERFLOW; it is ENOMEM exactly when one of its own requests was refused, and EOVERFLOW only when the data
already exceeds 32-bit offsets. -/
theorem C77_codes {cs : List WkbCall} {s0 s : OWkb} (hb : WkbBegins mem s0) {rs} (hr : wkbRuns mem junk cs s0 = some (rs, s))
    {c : WkbCall} {o : Option Geom} (h : c.Says o) :
    ∃ rc s', c.run mem junk s = some ((rc, none), s') ∧ (rc = 0 ∨ rc = ENOMEM ∨ rc = EOVERFLOW) ∧ (rc = ENOMEM ↔ Refused mem s s') ∧
      (rc = EOVERFLOW → 2147483647 < s.w.values.length) := by
  obtain ⟨rc, s', e, st⟩ := says_step (mem := mem) (junk := junk) h (run_inv cs (begins_inv hb).1 hr) (rel_self s)
  have hgr : Granted mem s s' → ¬ Refused mem s s' := fun g ⟨k, k1, k2, k3⟩ => by rw [g.2 k k1 k2] at k3; cases k3
  refine ⟨rc, s', e, ?_⟩
  rcases st.code with ⟨h0, g, _⟩ | ⟨h0, r⟩ | ⟨h0, g, hl⟩
  · exact ⟨Or.inl h0, ⟨fun h => (by rw [h0] at h; cases h), fun h => absurd h (hgr g)⟩, fun h => by rw [h0] at h; cases h⟩
  · exact ⟨Or.inr (Or.inl h0), ⟨fun _ => r, fun _ => h0⟩, fun h => by rw [h0] at h; cases h⟩
  · exact ⟨Or.inr (Or.inr h0), ⟨fun h => (by rw [h0] at h; cases h), fun h => absurd h (hgr g)⟩, fun _ => hl⟩

/-- As long as no append fails nothing is lost: features and nulls that were all accepted by a writer that held nothing
are, in order and byte for byte, the elements of the array `finish` makes, even when `finish` itself then reports that
memory was refused. -/
theorem C77_intact {cs : List WkbCall} {gs : List (Option Geom)} (hs : SayAll cs gs) {s : OWkb} (hb : WkbBegins mem s) {rs s'}
    (hr : wkbRuns mem junk cs s = some (rs, s')) (hf : AllFine rs) :
    (∃ rc a s'', finish mem s' = some ((rc, some a), s'') ∧ Represents a (gs.map wanted) ∧ (rc = 0 ∨ rc = ENOMEM ∧ Refused mem s' s'')) ∨
    (∃ s'', finish mem s' = some ((ENOMEM, none), s'') ∧ Refused mem s' s'') ∨
    (finish mem s' = some ((EOVERFLOW, none), s') ∧ 2147483647 < (elemBytes (gs.map wanted)).length) ∨
    (finish mem s' = none ∧ ∃ k, s'.asked ≤ k ∧ k ≤ s'.asked + 1 ∧ mem k = true ∧ mem (k + 1) = false) := by
  obtain ⟨hi, hfr, _⟩ := begins_inv hb
  obtain ⟨b', r', i', _, _, v', _, p'⟩ := fine_run cs gs hs hi (rel_begins hb) hr hf
  have hv : b'.values = elemBytes (gs.map wanted) := by rw [v', hfr.2.2.1]; rfl
  have hw : b' = s'.w := (r'.exact trivial).1
  subst hw
  rcases finish_cases (mem := mem) s' i' with ⟨hl, e⟩ | ⟨hl, ⟨s1, e, _, r⟩ | ⟨e, k⟩ | ⟨rc, s1, k, e, h⟩⟩
  · exact Or.inr (Or.inr (Or.inl ⟨e, by rw [← hv]; exact hl⟩))
  · exact Or.inr (Or.inl ⟨s1, e, r⟩)
  · exact Or.inr (Or.inr (Or.inr ⟨e, k⟩))
  · have hc := wouldBe_canon ((p' hl).2 [] (has_fresh.2 hfr))
    rw [List.nil_append] at hc
    rw [hc] at e h
    refine Or.inl ⟨rc, _, _, e, canon_represents _, ?_⟩
    rcases h with h | ⟨_, h⟩
    · exact Or.inr h
    · rw [canon_finish] at h
      rcases h with h | h
      · exact Or.inl h.2
      · cases h

/-- When memory is always granted and the data fits 32-bit offsets, all calls succeed and the array is right. -/
theorem C77_enough (hm : ∀ k, mem k = true) {cs : List WkbCall} {gs : List (Option Geom)} (hs : SayAll cs gs) {s : OWkb} (hb : WkbBegins mem s)
    (hl : (elemBytes (gs.map wanted)).length ≤ 2147483647) :
    ∃ rs s' a s'', wkbRuns mem junk cs s = some (rs, s') ∧ AllFine rs ∧ finish mem s' = some ((0, some a), s'') ∧ Represents a (gs.map wanted) := by
  obtain ⟨hi, hfr, _⟩ := begins_inv hb
  obtain ⟨rs, s', e, f⟩ := enough_run (junk := junk) hm cs gs hs hi (rel_begins hb) (by rw [hfr.2.2.1]; simpa using hl)
  have no : ∀ {a b : OWkb}, ¬ Refused mem a b := fun ⟨k, _, _, h⟩ => by rw [hm k] at h; cases h
  rcases C77_intact hs hb e f with ⟨rc, a, s'', e2, r2, rfl | ⟨_, h⟩⟩ | ⟨_, _, h⟩ | ⟨_, h⟩ | ⟨_, k, _, _, _, h⟩
  · exact ⟨rs, s', a, s'', e, f, e2, r2⟩
  · exact absurd h no
  · exact absurd h no
  · omega
  · rw [hm] at h; cases h

/-- Three features, the second of them null, with any memory that is never refused. -/
example : ∃ rs s' a s'', wkbRuns (fun _ => true) junk [exPoint dbl1, .appendNull, exPoint dbl2] (init exRaw 0) = some (rs, s') ∧ AllFine rs ∧
    finish (fun _ => true) s' = some ((0, some a), s'') ∧
    Represents a [some (isoWkb (.point .xy [[dbl1, dbl1]])), none, some (isoWkb (.point .xy [[dbl2, dbl2]]))] :=
  C77_enough (mem := fun _ => true) (fun _ => rfl) (gs := [some (.point .xy [[dbl1, dbl1]]), none, some (.point .xy [[dbl2, dbl2]])])
    (cs := [exPoint dbl1, .appendNull, exPoint dbl2]) ⟨exPoint_says _, .appendNull, exPoint_says _, trivial⟩ (exBegins 0) (by decide +kernel)

/-- What is accepted after a failure: whatever was appended before and however it failed, if all later appends succeed
and `finish` returns 0, the array ends with elements that hold exactly the bytes of the later features (nulls hold none). -/
theorem C77_after_failure {pre : List WkbCall} (hn : .finish ∉ pre) {s0 s1 : OWkb} (hb : WkbBegins mem s0) {rs1}
    (h1 : wkbRuns mem junk pre s0 = some (rs1, s1)) {cs : List WkbCall} {gs : List (Option Geom)} (hs : SayAll cs gs) {rs2 s2}
    (h2 : wkbRuns mem junk cs s1 = some (rs2, s2)) (hf : AllFine rs2) {a s3} (h3 : finish mem s2 = some ((0, some a), s3)) :
    gs.length ≤ a.length ∧ ∀ (j : Nat) (o : Option Geom), gs[j]? = some o → ElementIs a (a.length - gs.length + j) ((wanted o).getD []) := by
  obtain ⟨hi, hfr, _⟩ := begins_inv hb
  obtain ⟨i1, sh1⟩ := any_run pre hn hi h1
  obtain ⟨b', r', i2, _, sh2, v', l', p'⟩ := fine_run cs gs hs i1 (rel_self s1) h2 hf
  have hq := r'.like
  have ev : b'.values = s2.w.values := by rw [hq]
  have el : b'.length = s2.w.length := by rw [hq]
  have eo : b'.offsets = s2.w.offsets := by rw [hq]
  have hshort : s2.w.offsets.length ≤ s2.w.length := sh2 (sh1 (by rw [hfr.2.1, hfr.2.2.2.1]; exact Nat.le_refl _))
  rcases finish_cases (mem := mem) s2 i2 with ⟨hl, e⟩ | ⟨hl, ⟨s', e, _, r⟩ | ⟨e, k⟩ | ⟨rc, s', k, e, h⟩⟩
  · rw [h3] at e; cases e
  · rw [h3] at e; cases e
  · rw [h3] at e; cases e
  · rw [h3] at e
    have ha : a = wouldBe s2.w := by cases e; rfl
    have hrc : rc = 0 := by cases e; rfl
    have hfb : finishBuilding (wouldBe s2.w) = some (.ok ()) := by
      rcases h with ⟨h, _⟩ | ⟨_, h | h⟩
      · rw [hrc] at h; cases h
      · exact h.1
      · exact absurd h (by rw [hrc]; exact building_not_zero _)
    have hal : a.length = s1.w.length + gs.length := by rw [ha, ← l', el]; rfl
    refine ⟨by omega, fun j o hj => ?_⟩
    have hj' : j < gs.length := by
      rcases Nat.lt_or_ge j gs.length with h | h
      · exact h
      · rw [List.getElem?_eq_none h] at hj; cases hj
    have h0 : (wouldBe s2.w).length ≠ 0 := by rw [← ha, hal]; omega
    have hge := building_offsets hfb h0
    have hol : (wouldBe s2.w).offsets.length = s2.w.offsets.length + 1 := by simp [wouldBe]
    have hwl : (wouldBe s2.w).length = s2.w.length := rfl
    obtain ⟨ho, _⟩ := p' (by rw [ev]; exact hl)
    have hpre : s1.w.offsets.length = s1.w.length := by
      have : b'.offsets.length = s1.w.offsets.length + gs.length := by rw [ho, List.length_append, length_starts, List.length_map]
      rw [eo] at this
      omega
    have := elements_behind s1.w.offsets s1.w.values (gs.map wanted) a
      (by rw [ha]; show s2.w.offsets ++ [(s2.w.values.length : Int)] = _; rw [← eo, ho, ← ev, v'])
      (by rw [ha]; show s2.w.values = _; rw [← ev, v']) (j := j) (e := wanted o) (by simp [hj])
    rw [hpre] at this
    rw [hal, Nat.add_sub_cancel]
    exact this

/-- Features that are not null are never shown as null: if no null was ever fed, the array has no validity buffer and no
nulls are counted, whatever was refused. -/
theorem C77_no_nulls {cs : List WkbCall} (hc : ∀ c ∈ cs, ∃ t, c = .visit (.featStart :: t) ∧ .nullFeat ∉ t) {s : OWkb} (hb : WkbBegins mem s)
    {rs s'} (hr : wkbRuns mem junk cs s = some (rs, s')) {rc a s''} (hf : finish mem s' = some ((rc, some a), s'')) :
    a.validity = none ∧ a.nullCount = 0 := by
  obtain ⟨hi, hfr, _⟩ := begins_inv hb
  have h := clean_run cs hc (s := s) ⟨hfr.1, hfr.2.2.2.2⟩ hr
  rcases finish_cases (mem := mem) s' (run_inv cs hi hr) with ⟨hl, e⟩ | ⟨hl, ⟨s1, e, _, r⟩ | ⟨e, k⟩ | ⟨rc, s1, k, e, _⟩⟩
  · rw [hf] at e; cases e
  · rw [hf] at e; cases e
  · rw [hf] at e; cases e
  · rw [hf] at e
    have ha : a = wouldBe s'.w := by cases e; rfl
    rw [ha]
    exact h

/-- Histories the theorems above are about: four requests for memory are made for the first point, one for the second, and
the refusal of the sixth is reported to the caller. -/
example : (exWithout 5 (fun _ _ => false) [exPoint dbl1, exPoint dbl2]).map (·.map (·.1)) = some [0, 12] := by decide +kernel
example : ∃ t, exPoint dbl1 = .visit (.featStart :: t) ∧ .nullFeat ∉ t := ⟨_, rfl, by simp⟩
example : (exPoint dbl1).Proper := ⟨_, rfl, by simp [closesMatch]⟩

/-! ### What is not true -/

/-- The bytes of an element of an array. -/
def WOom.exShown (a : BinArray) (i : Nat) : List Byte :=
  ((a.data.drop (a.offsets[i]?.getD 0).toNat).take ((a.offsets[i + 1]?.getD 0) - (a.offsets[i]?.getD 0)).toNat)

/-- An accepted feature is lost: the first point is accepted, the second is refused for want of memory, the third is
accepted and `finish` returns 0; the first element of the array then is the third point. -/
theorem C77_lost : ∃ a, exWithout 5 (fun _ _ => false) [exPoint dbl1, exPoint dbl2, exPoint dbl3, .finish] =
      some [(0, none), (ENOMEM, none), (0, none), (0, some a)] ∧
    exShown a 0 = isoWkb (.point .xy [[dbl3, dbl3]]) ∧ isoWkb (.point .xy [[dbl3, dbl3]]) ≠ isoWkb (.point .xy [[dbl1, dbl1]]) :=
  ⟨⟨3, 0, none, [0, 21, 0, 21], isoWkb (.point .xy [[dbl3, dbl3]])⟩, by decide +kernel, by decide +kernel, by decide +kernel⟩

/-- An accepted feature shows memory that is not there: the first point is accepted, the second refused and `finish`
returns 0, with an array without data whose first element is said to have 21 bytes. -/
theorem C77_exposes : ∃ a, exWithout 5 (fun _ _ => false) [exPoint dbl1, exPoint dbl2, .finish] = some [(0, none), (ENOMEM, none), (0, some a)] ∧
    a.offsets = [0, 21, 0] ∧ a.data = [] :=
  ⟨⟨2, 0, none, [0, 21, 0], []⟩, by decide +kernel, rfl, rfl⟩

/-- Nulls are shown as values and values as nulls: of ten nulls the ninth is refused, the others are accepted, and `finish`
returns 0. The tenth then is shown as valid, and whether the first eight are shown as null depends on what the memory
held before. -/
theorem C77_null_shown_valid : ∀ j : Bool, ∃ a, exWithout 6 (fun _ _ => j) (List.replicate 10 exNull ++ [.finish]) =
      some (List.replicate 8 (0, none) ++ [(ENOMEM, none), (0, none), (0, some a)]) ∧
    a.nullCount = 10 ∧ (∀ l, a.validity = some l → l[9]? = some true ∧ l.take 8 = List.replicate 8 j) := by
  intro j
  refine ⟨⟨10, 10, some (List.replicate 8 j ++ List.replicate 9 true ++ [false]), List.replicate 11 0, []⟩, ?_, rfl, ?_⟩
  · cases j <;> decide +kernel
  · rintro l ⟨⟩
    cases j <;> decide

/-- After a `finish` that was refused memory the writer still holds its features, but what it shows of later ones is
wrong: a point is accepted, `finish` is refused memory, a second point is accepted and `finish` then returns 0; the
second element of the array is empty. -/
theorem C77_finish_retry : ∃ a, exWithout 5 (fun _ _ => false) [exPoint dbl1, .finish, exPoint dbl2, .finish] =
      some [(0, none), (ENOMEM, none), (0, none), (0, some a)] ∧ a.length = 2 ∧ a.offsets = [0, 21, 21, 42] ∧ exShown a 1 = [] :=
  ⟨⟨2, 0, none, [0, 21, 21, 42], isoWkb (.point .xy [[dbl1, dbl1]]) ++ isoWkb (.point .xy [[dbl2, dbl2]])⟩,
    by decide +kernel, rfl, rfl, by decide +kernel⟩

/-- A `finish` that is refused memory can be undefined (it writes through a null pointer), after one accepted point. -/
theorem C77_finish_crash : exWithout 6 (fun _ _ => false) [exPoint dbl1, .finish] = none := by decide +kernel

/-- A `finish` that fails can leave an array in the hands of the caller, and the writer empty. -/
theorem C77_failed_finish_fills : ∃ a, exWithout 6 (fun _ _ => false) [exPoint dbl1, exPoint dbl2, exPoint dbl3, .finish, .finish] =
    some [(0, none), (0, none), (ENOMEM, none), (EINVAL, some a), (0, some ⟨0, 0, none, [0], []⟩)] ∧ a.length = 3 ∧ a.offsets = [42] :=
  ⟨⟨3, 0, none, [42], isoWkb (.point .xy [[dbl1, dbl1]]) ++ isoWkb (.point .xy [[dbl2, dbl2]])⟩, by decide +kernel, rfl, rfl⟩

/-- A feature that was refused stays in the array as an element: empty, and valid although it was a null. -/
theorem C77_refused_stays : ∃ a, exWithout 1 (fun _ _ => false) [exNull, exPoint dbl1, .finish] = some [(ENOMEM, none), (0, none), (0, some a)] ∧
    a.length = 2 ∧ a.nullCount = 0 ∧ a.validity = none ∧ exShown a 0 = [] ∧ exShown a 1 = isoWkb (.point .xy [[dbl1, dbl1]]) :=
  ⟨⟨2, 0, none, [0, 0, 21], isoWkb (.point .xy [[dbl1, dbl1]])⟩, by decide +kernel, rfl, rfl, rfl, by decide +kernel, by decide +kernel⟩

/-- Nothing of a refused block is used again: when all memory is refused from the sixth request on, the second point fails for
want of memory, and so does the third (it does not go into the room the lost block had). -/
theorem C77_refused_for_good : (wkbRuns (fun k => decide (k < 5)) (fun _ _ => false) [exPoint dbl1, exPoint dbl2, exPoint dbl3] (init exRaw 0)).map (·.1.map (·.1)) = some [0, ENOMEM, ENOMEM] := by
  decide +kernel

end Verif
