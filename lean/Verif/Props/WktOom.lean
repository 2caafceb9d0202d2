import Verif.Proof.WktOomRun
import Verif.Props.WktWriter
/-!
# C82: the WKT writer when memory runs out

`print` is the number formatter, as in C22 to C25: `print precision x` is the text of `x`, at most 40 characters.
-/
namespace Verif
open Spec TOom
open Verif.Oom (ENOMEM)

variable {print : Nat → Dbl → List Byte} {mem : Nat → Bool} {junk : Nat → Nat → Bool}

/-! ## Concrete histories -/

namespace TOom

/-- Feeding the point (x, x). -/
def exPoint (x : Dbl) : WktCall := .visit [.featStart, .geomStart 1 1, .coords 2 [[x, x]], .geomEnd, .featEnd]

/-- Feeding a null. -/
def exNull : WktCall := .visit [.featStart, .nullFeat, .featEnd]

/-- What the calls return when the `m`-th request for memory is the only one that is refused; `max` is the size limit. -/
def exWithout (max : Int) (m : Nat) (junk : Nat → Nat → Bool) (cs : List WktCall) : Option (List (Code × Option BinArray)) :=
  (wktRuns exPrint (fun k => k != m) junk cs (init 16 true max exRaw 0)).map (·.1)

theorem exBegins (max : Int) (k : Nat) : WktBegins mem (init 16 true max exRaw k) := Or.inl ⟨_, _, _, _, _, rfl⟩

theorem exPoint_says (x : Dbl) : (exPoint x).Says (some (.point .xy [[x, x]])) := by
  refine .feature ⟨[.geomStart 1 1, .coords 2 [[x, x]], .geomEnd], ?_, rfl⟩ ?_ ?_ (by simp [Geom.height])
  · exact ⟨[.coords 2 [[x, x]]], ⟨[[[x, x]]], by simp, rfl⟩, rfl⟩
  · simp [Geom.WF, Dims.n]
  · simp [Geom.Typed]

end TOom

/-! ## C82 -/

/-- Whatever requests are refused, the calls of a client are never undefined, except for a `finish` whose first request
for memory for the array is granted and whose second one is refused. (The exception happens: `C82_finish_crash`.) -/
theorem C82_safe_partial (hp : ∀ n x, (print n x).length ≤ 40) {cs : List WktCall} (hc : ∀ c ∈ cs, c.Proper) {s : OWkt} (hb : WktBegins mem s)
    (hu : wktRuns print mem junk cs s = none) :
    ∃ pre post rs s', cs = pre ++ .finish :: post ∧ wktRuns print mem junk pre s = some (rs, s') ∧
      ∃ k, s'.asked ≤ k ∧ k ≤ s'.asked + 1 ∧ mem k = true ∧ mem (k + 1) = false := by
  rcases proper_run (mem := mem) (junk := junk) hp cs hc (begins_inv hb).1 with ⟨rs, s', e, _⟩ | h
  · rw [hu] at e; cases e
  · exact h

/-- Before the first `finish` no call is undefined. -/
theorem C82_safe_appends (hp : ∀ n x, (print n x).length ≤ 40) {cs : List WktCall} (hc : ∀ c ∈ cs, c.Proper) (hf : .finish ∉ cs) {s : OWkt}
    (hb : WktBegins mem s) : ∃ rs s', wktRuns print mem junk cs s = some (rs, s') := by
  cases h : wktRuns print mem junk cs s with
  | some p => exact ⟨p.1, p.2, rfl⟩
  | none =>
    obtain ⟨pre, post, _, _, e, _⟩ := C82_safe_partial hp hc hb h
    exact absurd (by rw [e]; simp) hf

/-- Not even a client that ignores every error meets undefined behaviour: once a feature was started, callbacks in any
order, going on after failures, are defined, whatever is refused. -/
theorem C82_callbacks_safe (hp : ∀ n x, (print n x).length ≤ 40) {cs : List WktCall} {s0 s : OWkt} (hb : WktBegins mem s0) {rs}
    (hr : wktRuns print mem junk cs s0 = some (rs, s)) {es : List Event} (he : ∀ e ∈ es, EvenCoords e) :
    CallbacksDefined (handler print mem junk) (.featStart :: es) s := by
  have h := start_defined (print := print) (mem := mem) (junk := junk) (run_inv cs (begins_inv hb).1 hr)
  unfold CallbacksDefined
  revert h
  cases handler print mem junk .featStart s with
  | ok _ s' => exact fun h => callbacks_defined hp es he h.1 h.2
  | err _ s' => exact fun h => callbacks_defined hp es he h.1 h.2
  | ub => exact id

/-- The code of an append tells whether memory was refused: after any history, a feature or null is answered with 0,
ENOMEM or EOVERFLOW; it is ENOMEM exactly when one of its own requests was refused, and EOVERFLOW only when the data
already exceeds 32-bit offsets. -/
theorem C82_codes (hp : ∀ n x, (print n x).length ≤ 40) {cs : List WktCall} {s0 s : OWkt} (hb : WktBegins mem s0) {rs}
    (hr : wktRuns print mem junk cs s0 = some (rs, s)) {c : WktCall} {o : Option Geom} (h : c.Says o) :
    ∃ rc s', c.run print mem junk s = some ((rc, none), s') ∧ (rc = 0 ∨ rc = ENOMEM ∨ rc = EOVERFLOW) ∧ (rc = ENOMEM ↔ WktRefused mem s s') ∧
      (rc = EOVERFLOW → 2147483647 < s.w.values.length) := by
  obtain ⟨rc, s', e, st⟩ := says_step (mem := mem) (junk := junk) hp h (run_inv cs (begins_inv hb).1 hr) (rel_self s)
  have hgr : Granted mem s s' → ¬ WktRefused mem s s' := fun g ⟨k, k1, k2, k3⟩ => by rw [g.2 k k1 k2] at k3; cases k3
  refine ⟨rc, s', e, ?_⟩
  rcases st.code with ⟨h0, g, _⟩ | ⟨h0, r⟩ | ⟨h0, g, hl⟩
  · exact ⟨Or.inl h0, ⟨fun h => (by rw [h0] at h; cases h), fun h => absurd h (hgr g)⟩, fun h => by rw [h0] at h; cases h⟩
  · exact ⟨Or.inr (Or.inl h0), ⟨fun _ => r, fun _ => h0⟩, fun h => by rw [h0] at h; cases h⟩
  · exact ⟨Or.inr (Or.inr h0), ⟨fun h => (by rw [h0] at h; cases h), fun h => absurd h (hgr g)⟩, fun _ => hl⟩

/-- As long as no append fails nothing is lost: features and nulls that were all accepted by a writer that held nothing
are, in order, the elements of the array `finish` makes (cut to the size limit, if there is one), even when `finish`
itself then reports that memory was refused. -/
theorem C82_intact (hp : ∀ n x, (print n x).length ≤ 40) {cs : List WktCall} {gs : List (Option Geom)} (hs : WktSayAll cs gs) {s : OWkt}
    (hb : WktBegins mem s) {rs s'} (hr : wktRuns print mem junk cs s = some (rs, s')) (hf : AllFine rs) :
    ∃ es, ElementsFor s.w.maxSize (wktText (print s.w.precision) s.w.flat) false gs es ∧
      ((∃ rc a s'', finish mem s' = some ((rc, some a), s'') ∧ Represents a es ∧ (rc = 0 ∨ rc = ENOMEM ∧ WktRefused mem s' s'')) ∨
       (∃ s'', finish mem s' = some ((ENOMEM, none), s'') ∧ WktRefused mem s' s'') ∨
       (finish mem s' = some ((EOVERFLOW, none), s') ∧ 2147483647 < (elemBytes es).length) ∨
       (finish mem s' = none ∧ ∃ k, s'.asked ≤ k ∧ k ≤ s'.asked + 1 ∧ mem k = true ∧ mem (k + 1) = false)) := by
  obtain ⟨hi, hfr, _⟩ := begins_inv hb
  obtain ⟨b', es, r', i', _, _, el, _, v', _, _, p'⟩ := fine_run hp cs gs hs hi (rel_begins hb) hr hf
  have hnone : s.w.validity = none := hfr.1
  have hempty : s.w.values = [] := hfr.2.2.1
  rw [hnone] at el
  have hv : b'.values = elemBytes es := by rw [v', hempty]; rfl
  have hw : b' = s'.w := (r'.exact trivial).1
  subst hw
  refine ⟨es, el, ?_⟩
  rcases finish_cases (mem := mem) s' i' with ⟨hl, e⟩ | ⟨hl, ⟨s1, e, _, r⟩ | ⟨e, k⟩ | ⟨rc, s1, k, e, h⟩⟩
  · exact Or.inr (Or.inr (Or.inl ⟨e, by rw [← hv]; exact hl⟩))
  · exact Or.inr (Or.inl ⟨s1, e, r⟩)
  · exact Or.inr (Or.inr (Or.inr ⟨e, k⟩))
  · have hc := wouldBe_canon (p' [] (has_fresh.2 hfr))
    rw [List.nil_append] at hc
    rw [hc] at e h
    refine Or.inl ⟨rc, _, _, e, canon_represents _, ?_⟩
    rcases h with h | ⟨_, h⟩
    · exact Or.inr h
    · rw [canon_finish] at h
      rcases h with h | h
      · exact Or.inl h.2
      · cases h

/-- When memory is always granted and the texts fit 32-bit offsets, all calls succeed and the array is right. -/
theorem C82_enough (hp : ∀ n x, (print n x).length ≤ 40) (hm : ∀ k, mem k = true) {cs : List WktCall} {gs : List (Option Geom)} (hs : WktSayAll cs gs)
    {s : OWkt} (hb : WktBegins mem s) (hl : (elemBytes (gs.map fun o => o.map (wktText (print s.w.precision) s.w.flat))).length ≤ 2147483647) :
    ∃ rs s' a s'' es, wktRuns print mem junk cs s = some (rs, s') ∧ AllFine rs ∧ finish mem s' = some ((0, some a), s'') ∧
      ElementsFor s.w.maxSize (wktText (print s.w.precision) s.w.flat) false gs es ∧ Represents a es := by
  obtain ⟨hi, hfr, _⟩ := begins_inv hb
  have hempty : s.w.values = [] := hfr.2.2.1
  obtain ⟨rs, s', e, f⟩ := enough_run (junk := junk) hp hm cs gs hs hi (rel_begins hb) (by rw [hempty]; simpa [textOf] using hl)
  have no : ∀ {a b : OWkt}, ¬ WktRefused mem a b := fun ⟨k, _, _, h⟩ => by rw [hm k] at h; cases h
  obtain ⟨es, el, h⟩ := C82_intact hp hs hb e f
  rcases h with ⟨rc, a, s'', e2, r2, rfl | ⟨_, h⟩⟩ | ⟨_, _, h⟩ | ⟨_, h⟩ | ⟨_, k, _, _, _, h⟩
  · exact ⟨rs, s', a, s'', es, e, f, e2, el, r2⟩
  · exact absurd h no
  · exact absurd h no
  · have := elements_length el
    omega
  · rw [hm] at h; cases h

/-- What is accepted after a failure: whatever was appended before and however it failed, if all later appends succeed
and `finish` returns 0, the array ends with elements that hold exactly the texts of the later features, cut to the limit
if there is one (nulls hold none). -/
theorem C82_after_failure (hp : ∀ n x, (print n x).length ≤ 40) {pre : List WktCall} (hn : .finish ∉ pre) {s0 s1 : OWkt} (hb : WktBegins mem s0) {rs1}
    (h1 : wktRuns print mem junk pre s0 = some (rs1, s1)) {cs : List WktCall} {gs : List (Option Geom)} (hs : WktSayAll cs gs) {rs2 s2}
    (h2 : wktRuns print mem junk cs s1 = some (rs2, s2)) (hf : AllFine rs2) {a s3} (h3 : finish mem s2 = some ((0, some a), s3)) :
    gs.length ≤ a.length ∧ ∃ afterNull es, ElementsFor s0.w.maxSize (wktText (print s0.w.precision) s0.w.flat) afterNull gs es ∧
      ∀ (j : Nat) (e : Option (List Byte)), es[j]? = some e → ElementIs a (a.length - gs.length + j) (e.getD []) := by
  obtain ⟨hi, hfr, _⟩ := begins_inv hb
  obtain ⟨i1, sh1⟩ := any_run pre hn hi h1
  obtain ⟨b', es, r', i2, _, sh2, elf, n', v', l', ho, _⟩ := fine_run hp cs gs hs i1 (rel_self s1) h2 hf
  have ht : textOf print s1.w = wktText (print s0.w.precision) s0.w.flat := by unfold textOf; rw [sh1.2.1, sh1.2.2]
  rw [ht, sh1.2.3] at elf
  have hq := r'.like
  have ev : b'.values = s2.w.values := by rw [hq]
  have el : b'.length = s2.w.length := by rw [hq]
  have eo : b'.offsets = s2.w.offsets := by rw [hq]
  have hshort : s2.w.offsets.length ≤ s2.w.length := sh2.1 (sh1.1 (by
    have e1 : s0.w.offsets = [] := hfr.2.1
    rw [e1]; exact Nat.zero_le _))
  rcases finish_cases (mem := mem) s2 i2 with ⟨hl, e⟩ | ⟨hl, ⟨s', e, _, r⟩ | ⟨e, k⟩ | ⟨rc, s', k, e, h⟩⟩
  · rw [h3] at e; cases e
  · rw [h3] at e; cases e
  · rw [h3] at e; cases e
  · rw [h3] at e
    have ha : a = wouldBe s2.w := by cases e; rfl
    have hrc : rc = 0 := by cases e; rfl
    have hfb : finishBuilding (wouldBe s2.w) = some (.ok ()) := by
      rcases h with ⟨h, _⟩ | ⟨_, h | h⟩
      · rw [hrc] at h; cases h
      · exact h.1
      · exact absurd h (by rw [hrc]; exact WOom.building_not_zero _)
    have hal : a.length = s1.w.length + gs.length := by rw [ha, ← l', el]; rfl
    refine ⟨by omega, _, es, elf, fun j o hj => ?_⟩
    have hj' : j < gs.length := by
      rcases Nat.lt_or_ge j es.length with h | h
      · omega
      · rw [List.getElem?_eq_none h] at hj; cases hj
    have h0 : (wouldBe s2.w).length ≠ 0 := by rw [← ha, hal]; omega
    have hge := WOom.building_offsets hfb h0
    have hol : (wouldBe s2.w).offsets.length = s2.w.offsets.length + 1 := by simp [wouldBe]
    have hwl : (wouldBe s2.w).length = s2.w.length := rfl
    have hpre : s1.w.offsets.length = s1.w.length := by
      have : b'.offsets.length = s1.w.offsets.length + gs.length := by rw [ho, List.length_append, length_starts, n']
      rw [eo] at this
      omega
    have := WOom.elements_behind s1.w.offsets s1.w.values es a
      (by rw [ha]; show s2.w.offsets ++ [(s2.w.values.length : Int)] = _; rw [← eo, ho, ← ev, v'])
      (by rw [ha]; show s2.w.values = _; rw [← ev, v']) (j := j) (e := o) hj
    rw [hpre] at this
    rw [hal, Nat.add_sub_cancel]
    exact this

/-- Features that are not null are never shown as null: if no null was ever fed, the array has no validity buffer and no
nulls are counted, whatever was refused. -/
theorem C82_no_nulls {cs : List WktCall} (hc : ∀ c ∈ cs, ∃ t, c = .visit (.featStart :: t) ∧ .nullFeat ∉ t) {s : OWkt} (hb : WktBegins mem s)
    {rs s'} (hr : wktRuns print mem junk cs s = some (rs, s')) {rc a s''} (hf : finish mem s' = some ((rc, some a), s'')) :
    a.validity = none ∧ a.nullCount = 0 := by
  obtain ⟨hi, hfr, _⟩ := begins_inv hb
  have h := clean_run cs hc (s := s) ⟨hfr.1, hfr.2.2.2.2⟩ hr
  rcases finish_cases (mem := mem) s' (run_inv cs hi hr) with ⟨hl, e⟩ | ⟨hl, ⟨s1, e, _, r⟩ | ⟨e, k⟩ | ⟨rc, s1, k, e, _⟩⟩
  · rw [hf] at e; cases e
  · rw [hf] at e; cases e
  · rw [hf] at e; cases e
  · rw [hf] at e
    have ha : a = wouldBe s'.w := by cases e; rfl
    rw [ha]
    exact h

/-- Without a size limit the elements are the texts. -/
theorem elementsFor_unlimited {max : Int} (hm : max < 0) {txt : Geom → List Byte} : ∀ {n : Bool} {gs : List (Option Geom)} {es : List (Option (List Byte))},
    ElementsFor max txt n gs es → es = gs.map fun o => o.map txt
  | _, [], [], _ => rfl
  | _, none :: gs, none :: es, h => by
    rw [elementsFor_unlimited hm (n := true) (gs := gs) (es := es) h]; rfl
  | n, some g :: gs, some e :: es, h => by
    have h1 : e = txt g := by have := h.1; unfold MayHold at this; rwa [if_pos hm] at this
    rw [h1, elementsFor_unlimited hm (n := n) (gs := gs) (es := es) h.2]; rfl
  | _, [], _ :: _, h => by simp [ElementsFor] at h
  | _, _ :: _, [], h => by simp [ElementsFor] at h
  | _, none :: _, some _ :: _, h => by simp [ElementsFor] at h
  | _, some _ :: _, none :: _, h => by simp [ElementsFor] at h

/-- Three features, the second of them null, with any memory that is never refused. -/
example : ∃ rs s' a s'', wktRuns exPrint (fun _ => true) junk [exPoint dbl1, exNull, exPoint dbl2] (init 16 true (-1) exRaw 0) = some (rs, s') ∧ AllFine rs ∧
    finish (fun _ => true) s' = some ((0, some a), s'') ∧ Represents a [some (str "POINT (1 1)"), none, some (str "POINT (2 2)")] := by
  obtain ⟨rs, s', a, s'', es, h1, h2, h3, h4, h5⟩ := C82_enough (mem := fun _ => true) (junk := junk) exPrint_short (fun _ => rfl)
    (gs := [some (.point .xy [[dbl1, dbl1]]), none, some (.point .xy [[dbl2, dbl2]])]) (cs := [exPoint dbl1, exNull, exPoint dbl2])
    ⟨exPoint_says _, .null, exPoint_says _, trivial⟩ (exBegins (-1) 0) (by decide +kernel)
  refine ⟨rs, s', a, s'', h1, h2, h3, ?_⟩
  have h6 : es = [some (str "POINT (1 1)"), none, some (str "POINT (2 2)")] := by
    rw [elementsFor_unlimited (by decide) h4]
    decide +kernel
  rw [← h6]
  exact h5

/-- Histories the theorems above are about: four requests for memory are made for the first point, two for the second, and
the refusal of the sixth is reported to the caller. -/
example : (exWithout (-1) 5 (fun _ _ => false) [exPoint dbl1, exPoint dbl2]).map (·.map (·.1)) = some [0, 12] := by decide +kernel
example : ∃ t, exPoint dbl1 = .visit (.featStart :: t) ∧ .nullFeat ∉ t := ⟨_, rfl, by simp⟩
example : (exPoint dbl1).Proper := ⟨_, rfl, by simp [EvenCoords]⟩

/-! ### What is not true -/

/-- The bytes of an element of an array. -/
def TOom.exShown (a : BinArray) (i : Nat) : List Byte :=
  ((a.data.drop (a.offsets[i]?.getD 0).toNat).take ((a.offsets[i + 1]?.getD 0) - (a.offsets[i]?.getD 0)).toNat)

/-- An accepted feature is lost: the first point is accepted, the second is refused for want of memory, the third is
accepted and `finish` returns 0; the first element of the array then is the text of the third point. -/
theorem C82_lost : ∃ a, exWithout (-1) 5 (fun _ _ => false) [exPoint dbl1, exPoint dbl2, exPoint dbl3, .finish] =
      some [(0, none), (ENOMEM, none), (0, none), (0, some a)] ∧ exShown a 0 = str "POINT (3 3)" :=
  ⟨⟨3, 0, none, [0, 11, 0, 11], str "POINT (3 3)"⟩, by decide +kernel, by decide +kernel⟩

/-- An accepted feature shows memory that is not there: the first point is accepted, the second refused and `finish`
returns 0, with an array without data whose first element is said to have 11 bytes. -/
theorem C82_exposes : ∃ a, exWithout (-1) 5 (fun _ _ => false) [exPoint dbl1, exPoint dbl2, .finish] = some [(0, none), (ENOMEM, none), (0, some a)] ∧
    a.offsets = [0, 11, 0] ∧ a.data = [] :=
  ⟨⟨2, 0, none, [0, 11, 0], []⟩, by decide +kernel, rfl, rfl⟩

/-- Nulls are shown as values and values as nulls: of ten nulls the ninth is refused, the others are accepted, and `finish`
returns 0. The tenth then is shown as valid, and whether the first eight are shown as null depends on what the memory
held before. -/
theorem C82_null_shown_valid : ∀ j : Bool, ∃ a, exWithout (-1) 6 (fun _ _ => j) (List.replicate 10 exNull ++ [.finish]) =
      some (List.replicate 8 (0, none) ++ [(ENOMEM, none), (0, none), (0, some a)]) ∧
    a.nullCount = 10 ∧ (∀ l, a.validity = some l → l[9]? = some true ∧ l.take 8 = List.replicate 8 j) := by
  intro j
  refine ⟨⟨10, 10, some (List.replicate 8 j ++ List.replicate 9 true ++ [false]), List.replicate 11 0, []⟩, ?_, rfl, ?_⟩
  · cases j <;> decide +kernel
  · rintro l ⟨⟩
    cases j <;> decide

/-- After a `finish` that was refused memory the writer still holds its features, but what it shows of later ones is
wrong: a point is accepted, `finish` is refused memory, a second point is accepted and `finish` then returns 0; the
second element of the array is empty. -/
theorem C82_finish_retry : ∃ a, exWithout (-1) 5 (fun _ _ => false) [exPoint dbl1, .finish, exPoint dbl2, .finish] =
      some [(0, none), (ENOMEM, none), (0, none), (0, some a)] ∧ a.length = 2 ∧ a.offsets = [0, 11, 11, 22] ∧ exShown a 1 = [] :=
  ⟨⟨2, 0, none, [0, 11, 11, 22], str "POINT (1 1)POINT (2 2)"⟩, by decide +kernel, rfl, rfl, by decide +kernel⟩

/-- A `finish` that is refused memory can be undefined (it writes through a null pointer), after one accepted point. -/
theorem C82_finish_crash : exWithout (-1) 6 (fun _ _ => false) [exPoint dbl1, .finish] = none := by decide +kernel

/-- A `finish` that fails can leave an array in the hands of the caller, and the writer empty. -/
theorem C82_failed_finish_fills : ∃ a, exWithout (-1) 6 (fun _ _ => false) [exPoint dbl1, exPoint dbl2, exPoint dbl3, .finish, .finish] =
    some [(0, none), (0, none), (ENOMEM, none), (EINVAL, some a), (0, some ⟨0, 0, none, [0], []⟩)] ∧ a.length = 3 ∧ a.offsets = [22] :=
  ⟨⟨3, 0, none, [22], str "POINT (1 1)POINT (2 2)"⟩, by decide +kernel, rfl, rfl⟩

/-- A feature that was refused stays in the array as an element: a null whose bitmap was refused, between points cut to
three bytes, is shown as a valid empty text, and none is counted. -/
theorem C82_refused_stays : ∃ a, exWithout 3 7 (fun _ _ => false) [exPoint dbl1, exPoint dbl2, exNull, exPoint dbl1, .finish] =
      some [(0, none), (0, none), (ENOMEM, none), (0, none), (0, some a)] ∧
    a.length = 4 ∧ a.nullCount = 0 ∧ a.validity = none ∧ exShown a 2 = [] ∧ exShown a 3 = str "POI" :=
  ⟨⟨4, 0, none, [0, 3, 6, 6, 9], str "POIPOIPOI"⟩, by decide +kernel, rfl, rfl, rfl, by decide +kernel, by decide +kernel⟩

/-- Nothing of a refused block is used again: when the sixth and the eighth request are refused, the second point fails for
want of memory, and so does an empty point after it (it does not go into the room the lost block had). -/
theorem C82_refused_for_good : (wktRuns exPrint (fun k => k != 5 && k != 7) (fun _ _ => false)
      [exPoint dbl1, exPoint dbl2, .visit [.featStart, .geomStart 1 1, .geomEnd, .featEnd]] (init 16 true (-1) exRaw 0)).map (·.1.map (·.1)) =
    some [0, ENOMEM, ENOMEM] := by
  decide +kernel

end Verif
