import Verif.Proof.WktHistory
import Verif.Proof.WktNesting
import Verif.Props.WkbWriter
/-!
# Theorems about the WKT writer (C22 to C25)

`print` is the number formatter: `print precision x` is the text of `x`. It writes at most 40 characters.
-/
namespace Verif
open Spec

/-- A formatter for the examples. -/
def exPrint (_ : Nat) (x : Dbl) : List Byte :=
  if x = dbl1 then str "1" else if x = dbl2 then str "2" else if x = dbl3 then str "3" else str "4"

theorem exPrint_short (n x) : (exPrint n x).length ≤ 40 := by
  unfold exPrint
  split
  · decide
  · split
    · decide
    · split <;> decide

theorem exGeom_typed : exGeom.Typed := by
  simp [exGeom, Geom.Typed, Geom.TypedL]

/-! ## C23 -/

/-- Without a size limit, feeding any admissible callback sequence of a geometry (any chunking of the coordinates) to the
writer appends exactly its well-known text, whatever was written before. -/
theorem C23_writes_wkt {print : Nat → Dbl → List Byte} (hp : ∀ n x, (print n x).length ≤ 40)
    {g : Geom} {t : List Event} (ht : FeatureTrace g t) (hw : g.WF) (hty : g.Typed) (hh : g.height ≤ 31)
    (s : WktW) (hm : s.maxSize < 0) (hv : s.values.length ≤ 2147483647) :
    ∃ s', feed (wktHandler print) t s = .ok () s' ∧ s'.values = s.values ++ wktText (print s.precision) s.flat g := by
  obtain ⟨s', h1, h2⟩ := feature_plain hp ht hw hty hh s hv hm
  exact ⟨s', h1, h2.values⟩

example (raw : WktW) : ∃ t s', FeatureTrace exGeom t ∧
    feed (wktHandler exPrint) t (wktInitVisitor 3 true (-1) (wktInit raw)) = .ok () s' ∧
      s'.values = wktText (exPrint 3) true exGeom := by
  obtain ⟨t, ht, -⟩ := C09_view_visit exView_denotes
  obtain ⟨s', h1, h2⟩ := C23_writes_wkt exPrint_short ht exGeom_wf exGeom_typed (by decide)
    (wktInitVisitor 3 true (-1) (wktInit raw)) (show (-1 : Int) < 0 by decide) (Nat.zero_le _)
  exact ⟨t, s', ht, h1, h2⟩

/-- The text of a geometry as the specification has it. -/
example : wktText (exPrint 3) true (.multi .collection .xyz [.multi .multipoint .xyz [.point .xyz [[dbl1, dbl2, dbl3]], .point .xyz []],
    .polygon .xyz [[[dbl1, dbl1, dbl1], [dbl2, dbl4, dbl1]], []], .linestring .xy []]) =
    str "GEOMETRYCOLLECTION Z (MULTIPOINT Z (1 2 3, EMPTY), POLYGON Z ((1 1 1, 2 4 1), EMPTY), LINESTRING EMPTY)" := by
  decide +kernel

example : wktText (exPrint 3) false (.multi .multipoint .xym [.point .xym [[dbl1, dbl2, dbl3]]]) = str "MULTIPOINT M ((1 2 3))" := by
  decide +kernel

/-! ## C24 -/

/-- If visiting the callbacks of a feature fails at all, it is with `EAGAIN`, a limit is set, and what was written for the
feature is a prefix of its text that has already reached the limit. -/
theorem C24_stops_only_at_limit {print : Nat → Dbl → List Byte} (hp : ∀ n x, (print n x).length ≤ 40)
    {g : Geom} {t : List Event} (ht : FeatureTrace g t) (hw : g.WF) (hty : g.Typed) (hh : g.height ≤ 31)
    (s : WktW) (hv : s.values.length ≤ 2147483647) {rc : Code} {s' : WktW} (h : feed (wktHandler print) t s = .err rc s') :
    rc = EAGAIN ∧ 0 ≤ s.maxSize ∧ ∃ p, p <+: wktText (print s.precision) s.flat g ∧ s'.values = s.values ++ p ∧
      s.maxSize ≤ p.length := by
  obtain ⟨b, hb, rfl⟩ := ht
  have hg := feature_body hp hb hw hty hh s.started rfl
  rw [List.cons_append, feed_cons_ok (featStart_run s hv), feed_append'] at h
  cases hr : feed (wktHandler print) b s.started with
  | ok a s2 =>
    rw [hr] at hg h
    obtain ⟨h1, h2, -⟩ := hg
    obtain ⟨s3, h3, -⟩ := feature_end (print := print) (p := wktText (print s.precision) s.flat g) h2 h1 (List.prefix_refl _) (Or.inl rfl)
    simp only [Res.andThen, feed, h3, M.pure_run] at h
    cases h
  | err rc s2 =>
    rw [hr] at hg h
    obtain ⟨h1, h2, ⟨p, h3, h4⟩, h5⟩ := hg
    have hmx : s2.maxSize = s.maxSize := h5.maxSize
    have hfs : s2.featStart = (s.values.length : Int) := h5.featStart
    have h4' : s2.values = s.values ++ p := h4
    simp only [WktW.limitReached, decide_eq_true_eq, hmx, hfs, h4', List.length_append] at h2
    cases h
    exact ⟨h1, h2.1, p, h3, h4', by omega⟩
  | ub => rw [hr] at hg; exact hg.elim

/-- With a limit set and no null seen since the last Finish, a feature visited as the kernel does (end the feature when the
writer asks to stop) adds exactly the first `limit` bytes of its text.

Partial: the property asks for this after any history; once a null was written the cut is skipped
(`C24_limit_ignored_after_null`). -/
theorem C24_feature_cut_partial {print : Nat → Dbl → List Byte} (hp : ∀ n x, (print n x).length ≤ 40)
    {g : Geom} {t : List Event} (ht : FeatureTrace g t) (hw : g.WF) (hty : g.Typed) (hh : g.height ≤ 31)
    (s : WktW) (hv : s.values.length ≤ 2147483647) (hm : 0 ≤ s.maxSize) (hn : s.validity = none) :
    ∃ s', visitByFeature (wktHandler print) (feed (wktHandler print) t) s = .ok () s' ∧
      s'.values = s.values ++ (wktText (print s.precision) s.flat g).take s.maxSize.toNat := by
  obtain ⟨s', e, h1, h2⟩ := feature_run hp ht hw hty hh s hv
  exact ⟨s', h1, by rw [h2.values, h2.cut hn hm]⟩

/-- The callbacks of a feature (`some`) or of a null (`none`). -/
inductive WktFeature : List Event → Option Geom → Prop where
  | feature {g t} : FeatureTrace g t → g.WF → g.Typed → g.height ≤ 31 → WktFeature t (some g)
  | null : WktFeature [.featStart, .nullFeat, .featEnd] none

/-- One callback sequence per feature. -/
def WktFeatures : List (List Event) → List (Option Geom) → Prop
  | [], gs => gs = []
  | t :: ts, gs => ∃ g gs', gs = g :: gs' ∧ WktFeature t g ∧ WktFeatures ts gs'

/-- Visit features one after the other, as the kernel does. -/
def runWkt (print : Nat → Dbl → List Byte) : List (List Event) → M WktW Unit
  | [] => pure ()
  | t :: ts => do
    visitByFeature (wktHandler print) (feed (wktHandler print) t)
    runWkt print ts

/-- The elements written for a history. Every element is a prefix of the text of its geometry: all of it, or at least
`max` bytes if there is a limit. As long as no null was written (`seen = false`) it is the text cut to `max` bytes. -/
def Written (max : Int) (txt : Geom → List Byte) : (seen : Bool) → List (Option Geom) → List (Option (List Byte)) → Prop
  | _, [], es => es = []
  | _, none :: gs, es => ∃ es', es = none :: es' ∧ Written max txt true gs es'
  | seen, some g :: gs, es => ∃ e es', es = some e :: es' ∧ e <+: txt g ∧ (e = txt g ∨ (0 ≤ max ∧ max ≤ e.length)) ∧
      (seen = false → 0 ≤ max → e = (txt g).take max.toNat) ∧ Written max txt seen gs es'

def texts (txt : Geom → List Byte) (gs : List (Option Geom)) : List (Option (List Byte)) := gs.map fun o => o.map txt

theorem elemBytes_cons (e : Option (List Byte)) (es : List (Option (List Byte))) : elemBytes (e :: es) = e.getD [] ++ elemBytes es := rfl

theorem runWkt_run {print : Nat → Dbl → List Byte} (hp : ∀ n x, (print n x).length ≤ 40) (prec : Nat) (flat : Bool) (max : Int) :
    ∀ (ts : List (List Event)) (gs : List (Option Geom)), WktFeatures ts gs → ∀ (s : WktW) (els : List (Option (List Byte))),
    s.core.Has els → s.precision = prec → s.flat = flat → s.maxSize = max →
    (elemBytes els).length + (elemBytes (texts (wktText (print prec) flat) gs)).length ≤ 2147483647 →
    ∃ s' es, runWkt print ts s = .ok () s' ∧ s'.core.Has (els ++ es) ∧
      Written max (wktText (print prec) flat) (!els.all Option.isSome) gs es ∧
      (elemBytes (els ++ es)).length ≤ 2147483647 ∧ SameOptions s s'
  | [], gs, h, s, els, hs, h1, h2, h3, hv => by
    simp only [WktFeatures] at h; subst h
    exact ⟨s, [], rfl, by simpa using hs, rfl, by simp only [List.append_nil]; omega, ⟨rfl, rfl, rfl⟩⟩
  | t :: ts, gs, ⟨g, gs', h0, ha, hrest⟩, s, els, hs, h1, h2, h3, hv => by
    subst h0
    have hvals : s.values = elemBytes els := hs.values
    simp only [texts, List.map_cons, elemBytes_cons, List.length_append] at hv
    have hsv : s.values.length ≤ 2147483647 := by rw [hvals]; omega
    cases ha with
    | @feature g t ht hw hty hh =>
      obtain ⟨s1, e, r1, r2⟩ := feature_run hp ht hw hty hh s hsv
      rw [h1, h2] at r2
      have hlen : e.length ≤ (wktText (print prec) flat g).length := r2.pre.length_le
      have hhas : s1.core.Has (els ++ [some e]) := has_some hs r2.validity r2.offsets r2.values r2.length r2.nulls
      obtain ⟨s2, es, q1, q2, q3, q4, q5⟩ := runWkt_run hp prec flat max ts gs' hrest s1 (els ++ [some e]) hhas (r2.options.1.trans h1) (r2.options.2.trans h2)
        (r2.options.3.trans h3) (by
          simp only [elemBytes_append, List.length_append, elemBytes_cons, Option.getD_some] at hv ⊢
          simp only [Option.map_some, Option.getD_some] at hv
          have : (elemBytes ([] : List (Option (List Byte)))).length = 0 := rfl
          simp only [texts]
          omega)
      refine ⟨s2, some e :: es, ?_, by simpa using q2, ⟨e, es, rfl, r2.pre, ?_, ?_, ?_⟩, by simpa using q4, r2.options.trans q5⟩
      · exact (M.bind_ok r1).trans q1
      · have := r2.stop
        rw [h3] at this
        exact this
      · intro hseen h0
        have hall : els.all Option.isSome = true := by simpa using hseen
        have hval : s.validity = none := by
          have := hs.validity
          rw [if_pos hall] at this
          exact this
        have := r2.cut hval (by rw [h3]; exact h0)
        rw [h3] at this
        exact this
      · have : (els ++ [some e]).all Option.isSome = els.all Option.isSome := by simp [List.all_append]
        rw [this] at q3
        exact q3
    | null =>
      obtain ⟨s1, l, r1, r2, r3, r4, r5, r6, r7, r8⟩ := wktNull_run print s hsv
      have hhas : s1.core.Has (els ++ [none]) := by
        refine has_null hs ?_ r5 r4 r6 r7
        have : els.length = s.length := hs.length.symm
        rw [this]
        show some s1.validity = (bitsAppendNull s.validity _).map some
        rw [r2, r3]; rfl
      obtain ⟨s2, es, q1, q2, q3, q4, q5⟩ := runWkt_run hp prec flat max ts gs' hrest s1 (els ++ [none]) hhas (r8.1.trans h1) (r8.2.trans h2)
        (r8.3.trans h3) (by
          simp only [elemBytes_append, List.length_append, elemBytes_cons] at hv ⊢
          have : (elemBytes ([] : List (Option (List Byte)))).length = 0 := rfl
          simp only [texts, Option.map_none, Option.getD_none, List.length_nil] at hv ⊢
          omega)
      refine ⟨s2, none :: es, ?_, by simpa using q2, ⟨es, rfl, ?_⟩, by simpa using q4, r8.trans q5⟩
      · refine (M.bind_ok (a := ()) (s' := s1) ?_).trans q1
        unfold visitByFeature
        rw [r1]
      · have : (els ++ [none]).all Option.isSome = false := by simp [List.all_append]
        rw [this] at q3
        exact q3

theorem wktInit_fresh (raw : WktW) (p f m) : (wktInitVisitor p f m (wktInit raw)).core.Fresh := ⟨rfl, rfl, rfl, rfl, rfl⟩

/-- The precision in effect: the requested one if it is between 0 and 16, otherwise 16. -/
def effective (p : Int) : Nat := if p < 0 ∨ 16 < p then 16 else p.toNat

/-- Any history of features and nulls under any options, followed by Finish, gives an array whose elements are as `Written`
says: cut to the limit up to the first null, and afterwards prefixes of the text that are complete or no shorter than the
limit.

Partial: see `C24_feature_cut_partial`. -/
theorem C24_history_partial {print : Nat → Dbl → List Byte} (hp : ∀ n x, (print n x).length ≤ 40)
    {ts : List (List Event)} {gs : List (Option Geom)} (h : WktFeatures ts gs) (p : Int) (flat : Bool) (max : Int)
    (hv : (elemBytes (texts (wktText (print (effective p)) flat) gs)).length ≤ 2147483647) (raw : WktW) :
    ∃ s1 a s2 es, runWkt print ts (wktInitVisitor p flat max (wktInit raw)) = .ok () s1 ∧ wktFinish s1 = .ok a s2 ∧
      Represents a es ∧ Written max (wktText (print (effective p)) flat) false gs es := by
  obtain ⟨s1, es, q1, q2, q3, q4, q5⟩ := runWkt_run hp (effective p) flat max ts gs h (wktInitVisitor p flat max (wktInit raw)) []
    (has_fresh.mpr (wktInit_fresh raw p flat max)) rfl rfl rfl (by simpa [elemBytes] using hv)
  rw [List.nil_append] at q2 q4
  have hs : s1.values = elemBytes es := q2.values
  obtain ⟨s2, f1, -⟩ := wktFinish_run q2 (by rw [hs]; exact q4)
  exact ⟨s1, _, s2, es, q1, f1, canon_represents _, q3⟩

/-- The array a writer call returned. -/
def returned : Res WktW BinArray → Option BinArray
  | .ok a _ => some a
  | _ => none

/-- Memory before initialisation, for examples. -/
def exRaw : WktW := ⟨none, [], [], 0, fun _ => 77, fun _ => 77, 77, 77, 77, 77, 77, false, 77, true⟩

/-- Defect: after a null, elements are no longer cut to the limit. With a limit of 3 bytes, a null followed by a
linestring gives a second element of 15 bytes. -/
theorem C24_limit_ignored_after_null : ∃ ts,
    WktFeatures ts [none, some (.linestring .xy [[dbl1, dbl2], [dbl1, dbl2]])] ∧
    returned ((do runWkt exPrint ts; wktFinish) (wktInitVisitor 16 true 3 (wktInit exRaw))) =
      some ⟨2, 1, some [false, true], [0, 0, 15], str "LINESTRING (1 2"⟩ := by
  refine ⟨[[.featStart, .nullFeat, .featEnd], [.featStart, .geomStart 2 1, .coords 2 [[dbl1, dbl2], [dbl1, dbl2]], .geomEnd, .featEnd]],
    ?_, by decide +kernel⟩
  refine ⟨none, _, rfl, .null, some _, _, rfl, .feature ?_ ?_ trivial (by decide), rfl⟩
  · exact ⟨_, ⟨_, ⟨[[[dbl1, dbl2], [dbl1, dbl2]]], rfl, rfl⟩, rfl⟩, rfl⟩
  · intro c hc; simp at hc; rw [hc]; rfl

/-! ## C25 -/

theorem written_all (max : Int) (hm : max < 0) (txt : Geom → List Byte) : ∀ (seen : Bool) (gs : List (Option Geom)) (es),
    Written max txt seen gs es → es = texts txt gs
  | _, [], es, h => by simp only [Written] at h; subst h; rfl
  | _, none :: gs, es, ⟨es', h1, h2⟩ => by subst h1; rw [written_all max hm txt _ gs es' h2]; rfl
  | seen, some g :: gs, es, ⟨e, es', h1, h2, h3, h4, h5⟩ => by
    subst h1
    rw [written_all max hm txt _ gs es' h5, h3.resolve_right (by omega)]; rfl

/-- Any history of features and nulls without a size limit, followed by Finish, gives an array that represents exactly the
texts of the visited geometries in order, as long as the data fits 32-bit offsets. -/
theorem C25_history_array {print : Nat → Dbl → List Byte} (hp : ∀ n x, (print n x).length ≤ 40)
    {ts : List (List Event)} {gs : List (Option Geom)} (h : WktFeatures ts gs) (p : Int) (flat : Bool) (max : Int) (hm : max < 0)
    (hv : (elemBytes (texts (wktText (print (effective p)) flat) gs)).length ≤ 2147483647) (raw : WktW) :
    ∃ s1 a s2, runWkt print ts (wktInitVisitor p flat max (wktInit raw)) = .ok () s1 ∧ wktFinish s1 = .ok a s2 ∧
      Represents a (texts (wktText (print (effective p)) flat) gs) := by
  obtain ⟨s1, a, s2, es, h1, h2, h3, h4⟩ := C24_history_partial hp h p flat max hv raw
  rw [written_all max hm _ _ _ _ h4] at h3
  exact ⟨s1, a, s2, h1, h2, h3⟩

/-- A second history after Finish gives the very array a newly initialised writer gives for it alone (options unchanged,
no limit). -/
theorem C25_reuse_after_finish {print : Nat → Dbl → List Byte} (hp : ∀ n x, (print n x).length ≤ 40)
    {ts ts' : List (List Event)} {gs gs' : List (Option Geom)} (h : WktFeatures ts gs) (h' : WktFeatures ts' gs')
    (p : Int) (flat : Bool) (max : Int) (hm : max < 0)
    (hv : (elemBytes (texts (wktText (print (effective p)) flat) gs)).length ≤ 2147483647)
    (hv' : (elemBytes (texts (wktText (print (effective p)) flat) gs')).length ≤ 2147483647) (raw raw' : WktW) :
    ∃ s1 a s2 s3 a' s4 n1 n2, runWkt print ts (wktInitVisitor p flat max (wktInit raw)) = .ok () s1 ∧ wktFinish s1 = .ok a s2 ∧
      runWkt print ts' s2 = .ok () s3 ∧ wktFinish s3 = .ok a' s4 ∧
      runWkt print ts' (wktInitVisitor p flat max (wktInit raw')) = .ok () n1 ∧ wktFinish n1 = .ok a' n2 := by
  obtain ⟨s1, es, q1, q2, q3, q4, q5⟩ := runWkt_run hp (effective p) flat max ts gs h (wktInitVisitor p flat max (wktInit raw)) []
    (has_fresh.mpr (wktInit_fresh raw p flat max)) rfl rfl rfl (by simpa [elemBytes] using hv)
  rw [List.nil_append] at q2 q4
  have hs : s1.values = elemBytes es := q2.values
  obtain ⟨s2, f1, f2, f3⟩ := wktFinish_run q2 (by rw [hs]; exact q4)
  obtain ⟨s3, es', c1, c2, c3, c4, c5⟩ := runWkt_run hp (effective p) flat max ts' gs' h' s2 []
    (has_fresh.mpr f2) (f3.1.trans q5.1) (f3.2.trans q5.2) (f3.3.trans q5.3) (by simpa [elemBytes] using hv')
  rw [List.nil_append] at c2 c4
  have hs3 : s3.values = elemBytes es' := c2.values
  obtain ⟨s4, g1, -⟩ := wktFinish_run c2 (by rw [hs3]; exact c4)
  obtain ⟨n1, es2, d1, d2, d3, d4, d5⟩ := runWkt_run hp (effective p) flat max ts' gs' h' (wktInitVisitor p flat max (wktInit raw')) []
    (has_fresh.mpr (wktInit_fresh raw' p flat max)) rfl rfl rfl (by simpa [elemBytes] using hv')
  rw [List.nil_append] at d2 d4
  have hn1 : n1.values = elemBytes es2 := d2.values
  obtain ⟨n2, e1, -⟩ := wktFinish_run d2 (by rw [hn1]; exact d4)
  have : es' = es2 := by rw [written_all max hm _ _ _ _ c3, written_all max hm _ _ _ _ d3]
  subst this
  exact ⟨s1, _, s2, s3, _, s4, n1, n2, q1, f1, c1, g1, d1, e1⟩

/-- Offsets never wrap: from any state, whatever the callbacks, Finish reports an error once the text exceeds 2^31-1 bytes, and
starting a feature beyond that is an error as well. -/
theorem C25_overlong_reported (print : Nat → Dbl → List Byte) (s : WktW) (hv : 2147483647 < s.values.length) :
    wktFinish s = .err EOVERFLOW s ∧ ∃ s', wktHandler print .featStart s = .err EOVERFLOW s' ∧ s'.offsets = s.offsets := by
  refine ⟨by unfold wktFinish; rw [if_pos (by omega)], ?_⟩
  refine ⟨{ s with level := -1, length := s.length + 1, featIsNull := false, featStart := s.values.length }, ?_, rfl⟩
  simp only [wktHandler, wktFeatStart]
  rw [if_pos (by omega)]

def exWktHistory (t : List Event) : List (List Event) := [[.featStart, .nullFeat, .featEnd], t, [.featStart, .nullFeat, .featEnd]]

theorem exWktHistory_features {t : List Event} (ht : FeatureTrace exGeom t) :
    WktFeatures (exWktHistory t) [none, some exGeom, none] :=
  ⟨none, _, rfl, .null, some exGeom, _, rfl, .feature ht exGeom_wf exGeom_typed (by decide), none, _, rfl, .null, rfl⟩

example (raw : WktW) : ∃ t s1 a s2, runWkt exPrint (exWktHistory t) (wktInitVisitor 20 true (-1) (wktInit raw)) = .ok () s1 ∧
    wktFinish s1 = .ok a s2 ∧ a.length = 3 ∧ a.nullCount = 2 := by
  obtain ⟨t, ht, -⟩ := C09_view_visit exView_denotes
  obtain ⟨s1, a, s2, h1, h2, h3⟩ := C25_history_array exPrint_short (exWktHistory_features ht) 20 true (-1) (by decide) (by decide +kernel) raw
  exact ⟨t, s1, a, s2, h1, h2, h3.length, h3.nulls⟩

/-! ## C22 (WKT writer) -/

/-- Invoke callbacks one after the other, going on after errors. Returns `false` as soon as undefined behaviour occurs. -/
def callsSafe (h : Handler WktW) : WktW → List Event → Bool
  | _, [] => true
  | s, e :: es => match h e s with
    | .ok _ s' => callsSafe h s' es
    | .err _ s' => callsSafe h s' es
    | .ub => false

/-- Coordinates have as many ordinates as announced, and at least one. -/
def GoodCoords (e : Event) : Prop := ∀ nv cs, e = .coords nv cs → 1 ≤ nv ∧ ∀ c ∈ cs, c.length = nv

/-- From any state of the writer (new, used, after Finish, after errors), any sequence of callbacks that begins with a
feature start - arbitrary types, dimensions, nesting depth, unmatched starts and ends, going on after errors - never makes
the writer access memory outside its level tables or the bytes it reserved.

Partial: the property asks for every callback sequence. `C22_wkt_null_before_start` and `C22_wkt_limit_before_start` show
that the feature start is needed. -/
theorem C22_wkt_calls_safe_partial {print : Nat → Dbl → List Byte} (hp : ∀ n x, (print n x).length ≤ 40) (es : List Event)
    (hes : ∀ e ∈ es, GoodCoords e) (s : WktW) : callsSafe (wktHandler print) s (.featStart :: es) = true := by
  have main : ∀ (es : List Event), (∀ e ∈ es, GoodCoords e) → ∀ s : WktW, s.Sane → callsSafe (wktHandler print) s es = true := by
    intro es
    induction es with
    | nil => intros; rfl
    | cons e es ih =>
      intro he s hs
      have h := handler_sound hp e (he e (by simp)) hs
      unfold callsSafe
      cases hr : wktHandler print e s with
      | ok a s' => rw [hr] at h; exact ih (fun e' h' => he e' (by simp [h'])) s' h
      | err rc s' => rw [hr] at h; exact ih (fun e' h' => he e' (by simp [h'])) s' h
      | ub => rw [hr] at h; exact h.elim
  have h0 : Sound (wktHandler print .featStart s) := by
    simp only [wktHandler, wktFeatStart]
    split
    · exact ⟨by simp, Int.natCast_nonneg _⟩
    · exact ⟨by simp, Int.natCast_nonneg _⟩
  unfold callsSafe
  cases hr : wktHandler print .featStart s with
  | ok a s' => rw [hr] at h0; exact main es hes s' h0
  | err rc s' => rw [hr] at h0; exact main es hes s' h0
  | ub => rw [hr] at h0; exact h0.elim

/-- Ends without starts, a ring at the outermost level, a coordinate outside any geometry, an unknown type. -/
example (s : WktW) : callsSafe (wktHandler exPrint) s [.featStart, .geomEnd, .ringEnd, .coords 2 [[dbl1, dbl2]], .ringStart, .ringStart,
    .geomStart 99 3, .coords 3 [[dbl1, dbl2, dbl3]], .featEnd, .featEnd] = true :=
  C22_wkt_calls_safe_partial exPrint_short _ (by
    intro e he nv cs h
    subst h
    simp at he
    rcases he with ⟨rfl, rfl⟩ | ⟨rfl, rfl⟩
    · simp
    · simp) s

/-- Defect: ending a null feature that was never started appends a run of -1 valid bits to an unallocated bitmap. -/
theorem C22_wkt_null_before_start (raw : WktW) : feed (wktHandler exPrint) [.nullFeat, .featEnd] (wktInit raw) = .ub := by
  simp [feed, wktHandler, wktNullFeat, wktFeatEnd, wktInit, bitsAppendNull]

/-- Defect: ending a feature that was never started, with a size limit set, cuts the values at a position computed from a
member that was never initialised; it may be negative. -/
theorem C22_wkt_limit_before_start (raw : WktW) (h1 : raw.featStart = -100) (h2 : raw.featIsNull = false) :
    wktHandler exPrint .featEnd (wktInitVisitor 16 true 3 (wktInit raw)) = .ub := by
  simp [wktHandler, wktFeatEnd, wktInit, wktInitVisitor, h1, h2]

example : ∃ raw : WktW, raw.featStart = -100 ∧ raw.featIsNull = false :=
  ⟨⟨none, [], [], 0, fun _ => 0, fun _ => 0, 0, 0, 0, -100, 0, false, 0, false⟩, rfl, rfl⟩

end Verif
