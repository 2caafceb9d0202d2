import Verif.Proof.KernelFinish
/-! # Pushing batches -/
namespace Verif
open Spec

section
variable {σ α : Type} {h : Handler σ} {finish : M σ α} {parse : List Byte → Option Dbl} {scratch : Int → WktR × WkbR} {a : AArray}
  {k : Kernel σ} {r : AReader}

theorem kernelSetArray_ok (hs : arrayReaderSetArray a k.reader = .ok () r) : kernelSetArray a k = .ok () { k with reader := r } := by
  unfold kernelSetArray
  rw [hs]

theorem push_eq (hs : arrayReaderSetArray a k.reader = .ok () r) :
    kernelPushBatch h finish parse scratch a k = onVis (r.after (scratch 0)) (do arrayReaderVisit h parse r 0 a.length; finish) ⟨r, k.vis⟩ := by
  unfold kernelPushBatch
  rw [M.bind_ok (kernelSetArray_ok hs), M.bind_run, M.get_run]

theorem push_ok {t : List Event} (hs : arrayReaderSetArray a k.reader = .ok () r)
    (hv : Behaves (fun _ h => arrayReaderVisit h parse r 0 a.length) t (.done ())) {s1 s2 : σ} {out : α}
    (hf : feed h t k.vis = .ok () s1) (hfin : finish s1 = .ok out s2) :
    kernelPushBatch h finish parse scratch a k = .ok out ⟨r.after (scratch 0), s2⟩ := by
  rw [push_eq hs]
  unfold onVis
  dsimp only
  have : arrayReaderVisit h parse r 0 a.length k.vis = .ok () s1 := by
    refine (hv σ h k.vis).trans ?_
    unfold replay
    rw [hf]
    rfl
  rw [M.bind_ok this, hfin]

theorem push_fail {t : List Event} {rc : Code} (hs : arrayReaderSetArray a k.reader = .ok () r)
    (hv : Behaves (fun _ h => arrayReaderVisit h parse r 0 a.length) t (.fail rc)) {s1 : σ}
    (hf : feed h t k.vis = .ok () s1) :
    kernelPushBatch h finish parse scratch a k = .err rc ⟨r.after (scratch 0), s1⟩ := by
  rw [push_eq hs]
  unfold onVis
  dsimp only
  have : arrayReaderVisit h parse r 0 a.length k.vis = .err rc s1 := by
    refine (hv σ h k.vis).trans ?_
    unfold replay
    rw [hf]
    rfl
  rw [M.bind_err this]

/-- A push that succeeds: the array is accepted, and visiting it and finishing succeed. -/
theorem push_inv {out : α} {k' : Kernel σ} (hp : kernelPushBatch h finish parse scratch a k = .ok out k') :
    ∃ r s1, arrayReaderSetArray a k.reader = .ok () r ∧ arrayReaderVisit h parse r 0 a.length k.vis = .ok () s1 ∧ finish s1 = .ok out k'.vis ∧
      k'.reader = r.after (scratch 0) := by
  cases hs : arrayReaderSetArray a k.reader with
  | ok u r =>
    rw [push_eq hs] at hp
    unfold onVis at hp
    dsimp only at hp
    cases hr : (do arrayReaderVisit h parse r 0 a.length; finish) k.vis with
    | ok o s2 =>
      rw [hr] at hp
      cases hp
      obtain ⟨_, s1, h1, h2⟩ := M.bind_eq_ok.mp hr
      exact ⟨r, s1, rfl, h1, h2, rfl⟩
    | err rc s2 => rw [hr] at hp; cases hp
    | ub => rw [hr] at hp; cases hp
  | err rc r =>
    unfold kernelPushBatch at hp
    rw [M.bind_err (rc := rc) (s' := { k with reader := r }) (by unfold kernelSetArray; rw [hs])] at hp
    cases hp
  | ub =>
    unfold kernelPushBatch at hp
    rw [M.bind_ub (by unfold kernelSetArray; rw [hs])] at hp
    cases hp

end

/-- Features of an array, visited from its beginning. -/
theorem features_visit {parse : List Byte → Option Dbl} (hpe : parse [] = none) (hE : ∀ w, parse (69 :: w) = none) {kind : ArrayKind}
    {r0 r : AReader} (hr : ReaderOf kind.id r0) {a : AArray} (hs : arrayReaderSetArray a r0 = .ok () r) {fs : List (Option Geom)}
    (hf : kind.Features parse a fs) :
    ∃ t, FeaturesTrace fs t ∧ Behaves (fun _ h => arrayReaderVisit h parse r 0 a.length) t (.done ()) := by
  obtain ⟨t, h1, h2⟩ := batch_visit hpe hE kind hr hs r.wkt r.wkb 0 fs (fun t f ht => by rw [Nat.zero_add]; exact hf.2 t f ht)
  refine ⟨t, h1, ?_⟩
  rw [hf.1]
  exact h2

theorem features_wf {parse : List Byte → Option Dbl} (hpe : parse [] = none) (hE : ∀ w, parse (69 :: w) = none) {kind : ArrayKind}
    {a : AArray} {fs : List (Option Geom)} (hf : kind.Features parse a fs) : ∀ g, some g ∈ fs → g.WF := by
  intro g hg
  obtain ⟨i, hi⟩ := List.getElem?_of_mem hg
  exact slotAt_wf hpe hE (hf.2 i _ hi)

theorem readerOf_set {type : Int} {r r' : AReader} {a : AArray} (hr : ReaderOf type r) (hs : arrayReaderSetArray a r = .ok () r')
    (sc : WktR × WkbR) : ReaderOf type (r'.after sc) := .visited (.setArray hr (by rw [hs]; rfl))

/-- The reader of a kernel stays a reader of its type, whatever happens. -/
theorem push_reader {σ α : Type} {h : Handler σ} {finish : M σ α} {parse : List Byte → Option Dbl} {scratch : Int → WktR × WkbR} {a : AArray}
    {k k' : Kernel σ} {type : Int} (hr : ReaderOf type k.reader) (hp : (kernelPushBatch h finish parse scratch a k).state? = some k') :
    ReaderOf type k'.reader := by
  cases hs : arrayReaderSetArray a k.reader with
  | ok u r =>
    rw [push_eq hs] at hp
    unfold onVis at hp
    dsimp only at hp
    have h1 := readerOf_set hr hs (scratch 0)
    cases hq : (do arrayReaderVisit h parse r 0 a.length; finish) k.vis with
    | ok o s2 => rw [hq] at hp; cases hp; exact h1
    | err rc s2 => rw [hq] at hp; cases hp; exact h1
    | ub => rw [hq] at hp; cases hp
  | err rc r =>
    unfold kernelPushBatch at hp
    rw [M.bind_err (rc := rc) (s' := { k with reader := r }) (by unfold kernelSetArray; rw [hs])] at hp
    cases hp
    exact .setArray hr (by rw [hs]; rfl)
  | ub =>
    unfold kernelPushBatch at hp
    rw [M.bind_ub (by unfold kernelSetArray; rw [hs])] at hp
    cases hp

theorem boxKernelOf_reader {parse : List Byte → Option Dbl} {type : Int} {k : Kernel BoxS} (hk : BoxKernelOf parse type k) : ReaderOf type k.reader := by
  induction hk with
  | start h => exact h
  | push _ hp ih => exact push_reader ih hp

theorem boxKernelStart_inv {parse : List Byte → Option Dbl} {type : Int} {k : Kernel BoxS} (hk : BoxKernelStart parse type k) :
    BoxKernelOf parse type k ∧ Pending [] k.vis := by
  cases hk with
  | start h => exact ⟨.start h, Pending.zero⟩
  | push h hp =>
    obtain ⟨r, s1, _, _, h3, _⟩ := push_inv hp
    exact ⟨.push h (by rw [hp]; rfl), boxFinish_clean h3⟩

/-! ## What is pending after pushes of all kinds -/

theorem pending_handler (junk : Nat → Byte) (e : Event) {s s' : BoxS} (h : ∃ rows, Pending rows s) (hr : (boxHandler junk e s).state? = some s') :
    ∃ rows, Pending rows s' := by
  obtain ⟨rows, h⟩ := h
  cases e with
  | featStart => cases hr; exact ⟨rows, h.congr rfl rfl rfl rfl rfl rfl⟩
  | nullFeat => cases hr; exact ⟨rows, h.congr rfl rfl rfl rfl rfl rfl⟩
  | geomStart gt dims => cases hr; exact ⟨rows, h⟩
  | ringStart => cases hr; exact ⟨rows, h⟩
  | ringEnd => cases hr; exact ⟨rows, h⟩
  | geomEnd => cases hr; exact ⟨rows, h⟩
  | featEnd =>
    obtain ⟨s1, h1, h2⟩ := boxFeatEnd_run junk h
    have : (boxFeatEnd junk s).state? = some s' := hr
    rw [h1] at this
    cases this
    exact ⟨_, h2⟩
  | coords nv cs =>
    have hr : (boxCoords cs s).state? = some s' := hr
    unfold boxCoords at hr
    rw [M.bind_run, M.get_run] at hr
    dsimp only at hr
    cases hx : boxExtend 0 cs (s.minX, s.maxX) with
    | none => rw [hx] at hr; cases hr
    | some x =>
      cases hy : boxExtend 1 cs (s.minY, s.maxY) with
      | none => rw [hx, hy] at hr; cases hr
      | some y =>
        rw [hx, hy] at hr
        cases hr
        exact ⟨rows, h.congr rfl rfl rfl rfl rfl rfl⟩

theorem feed_invariant {σ : Type} {h : Handler σ} {I : σ → Prop} (hI : ∀ e s s', I s → (h e s).state? = some s' → I s') :
    ∀ (t : List Event) (s s' : σ), I s → (feed h t s).state? = some s' → I s'
  | [], s, s', h0, hr => by cases hr; exact h0
  | e :: t, s, s', h0, hr => by
    cases he : h e s with
    | ok u s1 =>
      cases u
      rw [feed_cons_ok' he] at hr
      exact feed_invariant hI t s1 s' (hI e s s1 h0 (by rw [he]; rfl)) hr
    | err rc s1 =>
      have : feed h (e :: t) s = .err rc s1 := by simp [feed, he]
      rw [this] at hr
      exact hI e s s' h0 (by rw [he]; exact hr)
    | ub =>
      have : feed h (e :: t) s = .ub := by simp [feed, he]
      rw [this] at hr
      cases hr

theorem visit_invariant {σ : Type} {h : Handler σ} {I : σ → Prop} (hI : ∀ e s s', I s → (h e s).state? = some s' → I s')
    {parse : List Byte → Option Dbl} (hpe : parse [] = none) (r : AReader) (offset length : Int) {s s' : σ} (h0 : I s)
    (hr : (arrayReaderVisit h parse r offset length s).state? = some s') : I s' := by
  obtain ⟨t, o, hb⟩ := C11_array_reader hpe r offset length
  have hb' : arrayReaderVisit h parse r offset length s = replay h t o s := hb σ h s
  rw [hb'] at hr
  unfold replay at hr
  cases hf : feed h t s with
  | ok u s1 =>
    rw [hf] at hr
    have : s1 = s' := by
      cases o <;> cases hr <;> rfl
    subst this
    exact feed_invariant hI t s s1 h0 (by rw [hf]; rfl)
  | err rc s1 =>
    rw [hf] at hr
    exact feed_invariant hI t s s' h0 (by rw [hf]; exact hr)
  | ub => rw [hf] at hr; cases hr

/-- What holds of the visitor's state after every callback holds after a push that succeeds or fails. -/
theorem push_invariant {σ α : Type} {h : Handler σ} {finish : M σ α} {I : σ → Prop} (hI : ∀ e s s', I s → (h e s).state? = some s' → I s')
    (hF : ∀ s s', I s → (finish s).state? = some s' → I s')
    {parse : List Byte → Option Dbl} (hpe : parse [] = none) {scratch : Int → WktR × WkbR} {a : AArray} {k k' : Kernel σ} (h0 : I k.vis)
    (hp : (kernelPushBatch h finish parse scratch a k).state? = some k') : I k'.vis := by
  cases hs : arrayReaderSetArray a k.reader with
  | ok u r =>
    rw [push_eq hs] at hp
    unfold onVis at hp
    dsimp only at hp
    cases hv : arrayReaderVisit h parse r 0 a.length k.vis with
    | ok u s1 =>
      have h1 := visit_invariant hI hpe r 0 a.length h0 (by rw [hv]; rfl)
      rw [M.bind_ok hv] at hp
      cases hf : finish s1 with
      | ok o s2 => rw [hf] at hp; cases hp; exact hF s1 s2 h1 (by rw [hf]; rfl)
      | err rc s2 => rw [hf] at hp; cases hp; exact hF s1 s2 h1 (by rw [hf]; rfl)
      | ub => rw [hf] at hp; cases hp
    | err rc s1 =>
      have h1 := visit_invariant hI hpe r 0 a.length h0 (by rw [hv]; rfl)
      rw [M.bind_err hv] at hp
      cases hp
      exact h1
    | ub => rw [M.bind_ub hv] at hp; cases hp
  | err rc r =>
    unfold kernelPushBatch at hp
    rw [M.bind_err (rc := rc) (s' := { k with reader := r }) (by unfold kernelSetArray; rw [hs])] at hp
    cases hp
    exact h0
  | ub =>
    unfold kernelPushBatch at hp
    rw [M.bind_ub (by unfold kernelSetArray; rw [hs])] at hp
    cases hp

theorem boxKernelOf_pending {parse : List Byte → Option Dbl} (hpe : parse [] = none) {type : Int} {k : Kernel BoxS}
    (hk : BoxKernelOf parse type k) : ∃ rows, Pending rows k.vis := by
  induction hk with
  | start h => exact ⟨_, Pending.zero⟩
  | push _ hp ih =>
    refine push_invariant (I := fun s => ∃ rows, Pending rows s) (fun e s s' => pending_handler _ e) ?_ hpe ih hp
    intro s s' ⟨rows, hr⟩ hf
    obtain ⟨s2, h2, _⟩ := boxFinish_run hr
    rw [h2] at hf
    cases hf
    exact ⟨_, boxFinish_clean h2⟩

/-- A push with rows pending: they come first. -/
theorem boxPush_run (junk : Nat → Byte) {parse : List Byte → Option Dbl} (hpe : parse [] = none) (hE : ∀ w, parse (69 :: w) = none)
    {kind : ArrayKind} {k : Kernel BoxS} (hr : ReaderOf kind.id k.reader) {rows : List BoxRow} (hk : Pending rows k.vis)
    {a : AArray} {r : AReader} (hs : arrayReaderSetArray a k.reader = .ok () r) {fs : List (Option Geom)} (hf : kind.Features parse a fs)
    (scratch : Int → WktR × WkbR) :
    ∃ out k', boxPush junk parse scratch a k = .ok out k' ∧ RowsArray out (rows ++ fs.map rowOf) := by
  obtain ⟨t, h1, h2⟩ := features_visit hpe hE hr hs hf
  obtain ⟨s1, h3, h4⟩ := box_features junk fs t (features_wf hpe hE hf) h1 hk
  obtain ⟨s2, h5, h6⟩ := boxFinish_run h4
  exact ⟨_, _, push_ok hs h2 h3 h5, h6⟩

/-! ## box_agg -/

theorem agg_feature {f : Option Geom} (hw : ∀ g, f = some g → g.WF) {t : List Event} (ht : OptFeatureTrace f t) (s : BoxS) :
    feed boxAggHandler t s = .ok () (s.ext (featureCoords [f])) := by
  cases f with
  | none => cases ht; rfl
  | some g =>
    obtain ⟨b, hb, rfl⟩ := ht
    rw [List.cons_append, feed_void rfl, feed_append_ok (feed_geom bounding_agg g b s hb (hw g rfl)), feed_void rfl]
    show Res.ok () (s.ext g.allCoords) = Res.ok () (s.ext (g.allCoords ++ []))
    rw [List.append_nil]

theorem agg_features : ∀ (fs : List (Option Geom)) (t : List Event), (∀ g, some g ∈ fs → g.WF) → FeaturesTrace fs t → ∀ s : BoxS,
    feed boxAggHandler t s = .ok () (s.ext (featureCoords fs))
  | [], t, _, ht, s => by cases ht; rfl
  | f :: fs, t, hw, ht, s => by
    obtain ⟨t1, t2, h1, h2, rfl⟩ := ht
    rw [feed_append_ok (agg_feature (fun g hg => hw g (by rw [hg]; simp)) h1 s), agg_features fs t2 (fun g hg => hw g (by simp [hg])) h2,
      ← BoxS.ext_append]
    congr 2
    unfold featureCoords
    rw [← List.flatMap_append]
    rfl

theorem boxAggPush_run {parse : List Byte → Option Dbl} (hpe : parse [] = none) (hE : ∀ w, parse (69 :: w) = none)
    {kind : ArrayKind} {k : Kernel BoxS} (hr : ReaderOf kind.id k.reader)
    {a : AArray} {r : AReader} (hs : arrayReaderSetArray a k.reader = .ok () r) {fs : List (Option Geom)} (hf : kind.Features parse a fs)
    (scratch : Int → WktR × WkbR) :
    boxAggPush parse scratch a k = .ok () ⟨r.after (scratch 0), k.vis.ext (featureCoords fs)⟩ := by
  obtain ⟨t, h1, h2⟩ := features_visit hpe hE hr hs hf
  exact push_ok hs h2 (agg_features fs t (features_wf hpe hE hf) h1 k.vis) rfl

theorem boxAgg_all {parse : List Byte → Option Dbl} (hpe : parse [] = none) (hE : ∀ w, parse (69 :: w) = none) {kind : ArrayKind} :
    ∀ (ps : List Pushed) {k k' : Kernel BoxS}, ReaderOf kind.id k.reader → PushAll (boxAggPush parse) kind parse ps k k' →
      k'.vis = k.vis.ext (featureCoords (allFeatures ps))
  | [], k, k', _, h => by cases h; rfl
  | p :: ps, k, k', hr, h => by
    obtain ⟨hf, out, k1, h1, h2⟩ := h
    obtain ⟨r, s1, hs, _, _, _⟩ := push_inv h1
    have h3 := boxAggPush_run hpe hE hr hs hf p.scratch
    rw [h3] at h1
    cases h1
    have h4 := boxAgg_all hpe hE ps (k := ⟨r.after (p.scratch 0), k.vis.ext (featureCoords p.features)⟩) (readerOf_set hr hs _) h2
    rw [h4]
    show (k.vis.ext (featureCoords p.features)).ext _ = _
    rw [← BoxS.ext_append]
    congr 1
    unfold allFeatures featureCoords
    rw [List.flatMap_cons, List.flatMap_append]

/-- The row that box_agg adds when it finishes. -/
def aggRow (cs : List (Dims × Coord)) : BoxRow :=
  ⟨true, loOf Dbl.inf (xsOf cs), loOf Dbl.inf (ysOf cs), hiOf Dbl.negInf (xsOf cs), hiOf Dbl.negInf (ysOf cs)⟩

theorem boxAgg_pending (cs : List (Dims × Coord)) : ∃ s, boxFlush (boxAggStart.ext cs) = .ok () s ∧ Pending [aggRow cs] s :=
  ⟨_, rfl, ⟨rfl, rfl, rfl, rfl, .inl ⟨rfl, rfl, rfl, rfl⟩, rfl⟩⟩

theorem oneBox_of {out : AArray} {cs : List (Dims × Coord)} (h : RowsArray out [aggRow cs]) : OneBox out cs := by
  obtain ⟨h1, h2, h3, ⟨h4, h5⟩, h6⟩ := h
  obtain ⟨e1, e2⟩ := h6 0 _ rfl
  exact ⟨h1, h2, h3, ⟨h4, h5⟩, e1, _, _, _, _, e2, ⟨isLeast_inf _, isLeast_inf _, isGreatest_negInf _, isGreatest_negInf _⟩⟩

end Verif
