import Verif.Proof.KernelTypes
/-!
# C40, C41, C42, C43

`parse` is the function that reads numbers in WKT; it must not accept the empty word nor words that begin with `E`.
-/
namespace Verif
open Spec

/-! ## C40 -/

/-- A box kernel that was just started or whose last push succeeded, for arrays of any readable type: pushing an array it
accepts yields one row per feature, null for nulls, and otherwise the least and greatest numbers among the X and Y of all
coordinates; the kernel is then ready for the next batch. -/
theorem C40_box {parse : List Byte → Option Dbl} (hpe : parse [] = none) (hE : ∀ w, parse (69 :: w) = none) (kind : ArrayKind)
    (k : Kernel BoxS) (hk : BoxKernelStart parse kind.id k) (a : AArray) (r : AReader) (hs : arrayReaderSetArray a k.reader = .ok () r)
    (fs : List (Option Geom)) (hf : kind.Features parse a fs) (junk : Nat → Byte) (scratch : Int → WktR × WkbR) :
    ∃ out k', boxPush junk parse scratch a k = .ok out k' ∧ BoundsArray out fs ∧ BoxKernelStart parse kind.id k' := by
  obtain ⟨h1, h2⟩ := boxKernelStart_inv hk
  obtain ⟨out, k', h3, h4⟩ := boxPush_run junk hpe hE (boxKernelOf_reader h1) h2 hs hf scratch
  exact ⟨out, k', h3, boundsArray_of h4, .push h1 h3⟩

/-- Bounds are unique but for the sign of zero: two doubles that are both least are equal as numbers. -/
theorem C40_bounds_unique {xs : List Dbl} {m m' : Dbl} :
    (IsLeast xs m → IsLeast xs m' → ¬ Dbl.Exceeds m m' ∧ ¬ Dbl.Exceeds m' m) ∧
    (IsGreatest xs m → IsGreatest xs m' → ¬ Dbl.Exceeds m m' ∧ ¬ Dbl.Exceeds m' m) := by
  constructor
  · rintro (⟨h1, h2, h3⟩ | ⟨h1, rfl⟩) (⟨h4, h5, h6⟩ | ⟨h4, rfl⟩)
    · exact ⟨h3 _ h4, h6 _ h1⟩
    · exact absurd (h4 _ h1) h2
    · exact absurd (h1 _ h4) h5
    · exact ⟨fun h => Int.lt_irrefl _ h.2.2, fun h => Int.lt_irrefl _ h.2.2⟩
  · rintro (⟨h1, h2, h3⟩ | ⟨h1, rfl⟩) (⟨h4, h5, h6⟩ | ⟨h4, rfl⟩)
    · exact ⟨h6 _ h1, h3 _ h4⟩
    · exact absurd (h4 _ h1) h2
    · exact absurd (h1 _ h4) h5
    · exact ⟨fun h => Int.lt_irrefl _ h.2.2, fun h => Int.lt_irrefl _ h.2.2⟩

/-! Example: an array of WKB with a linestring, a null and an empty polygon, pushed twice. -/

theorem exViewArr_features : (ArrayKind.wkb .views).Features exParse exViewArr [some exBlobGeom, none, some (.polygon .xy [])] := by
  refine ⟨rfl, ?_⟩
  intro t f h
  match t, h with
  | 0, rfl => exact ⟨by decide, exBlob, exBlob_enc, by decide, .inr ⟨_, rfl, by decide, by decide +kernel⟩, _, 63, rfl, by decide +kernel,
      .inr ⟨by decide, 0, 2, by decide +kernel, by decide +kernel, _, rfl, by decide, by decide +kernel⟩⟩
  | 1, rfl => exact (⟨_, rfl, by decide, by decide +kernel⟩ : NullAt exViewArr 1)
  | 2, rfl => exact ⟨by decide, [1, 3, 0, 0, 0, 0, 0, 0, 0], ⟨false, [1, 3, 0, 0, 0], by decide, by simp, .inl (by decide +kernel), by decide +kernel⟩,
      by decide, .inr ⟨_, rfl, by decide, by decide +kernel⟩, _, 9, rfl, by decide +kernel,
      .inl ⟨by decide, by decide +kernel, by decide +kernel⟩⟩

/-- Arrays that are as the format describes are accepted again and again. -/
theorem exView_accepted {r0 : AReader} (hr : ReaderOf (wkbId .views) r0) : ∃ r, arrayReaderSetArray exViewArr r0 = .ok () r :=
  C53_accepted .views _ (.inl rfl) r0 hr exViewArr exViewArr_ok

example (junk : Nat → Byte) (scratch : Int → WktR × WkbR) : ∃ out k', boxPush junk exParse scratch exViewArr ⟨exViewReader, boxZero⟩ = .ok out k' ∧
    BoundsArray out [some exBlobGeom, none, some (.polygon .xy [])] ∧
    ∃ out' k'', boxPush junk exParse scratch exViewArr k' = .ok out' k'' ∧ BoundsArray out' [some exBlobGeom, none, some (.polygon .xy [])] := by
  obtain ⟨r, hr⟩ := exView_accepted exViewReader_of
  obtain ⟨out, k', h1, h2, h3⟩ := C40_box exParse_nil exParse_E (.wkb .views) ⟨exViewReader, boxZero⟩ (.start exViewReader_of) exViewArr r hr _
    exViewArr_features junk scratch
  obtain ⟨r', hr'⟩ := exView_accepted (boxKernelOf_reader (boxKernelStart_inv h3).1)
  obtain ⟨out', k'', h4, h5, _⟩ := C40_box exParse_nil exParse_E (.wkb .views) k' h3 exViewArr r' hr' _ exViewArr_features junk scratch
  exact ⟨out, k', h1, h2, out', k'', h4, h5⟩

/-! ## C41 -/

/-- A box_agg kernel accepts every batch whose array the reader accepts. -/
theorem C41_accepts {parse : List Byte → Option Dbl} (hpe : parse [] = none) (hE : ∀ w, parse (69 :: w) = none) (kind : ArrayKind)
    (k : Kernel BoxS) (hk : ReaderOf kind.id k.reader) (a : AArray) (r : AReader) (hs : arrayReaderSetArray a k.reader = .ok () r)
    (fs : List (Option Geom)) (hf : kind.Features parse a fs) (scratch : Int → WktR × WkbR) :
    ∃ k', boxAggPush parse scratch a k = .ok () k' ∧ ReaderOf kind.id k'.reader :=
  ⟨_, boxAggPush_run hpe hE hk hs hf scratch, readerOf_set hk hs _⟩

/-- After any number of batches, finishing a box_agg kernel yields one box: the bounds of all coordinates of all batches. -/
theorem C41_box_agg {parse : List Byte → Option Dbl} (hpe : parse [] = none) (hE : ∀ w, parse (69 :: w) = none) (kind : ArrayKind)
    (r : AReader) (hr : ReaderOf kind.id r) (ps : List Pushed) (k : Kernel BoxS) (h : PushAll (boxAggPush parse) kind parse ps ⟨r, boxAggStart⟩ k) :
    ∃ out k', boxAggFinish k = .ok out k' ∧ OneBox out (featureCoords (allFeatures ps)) := by
  have h1 := boxAgg_all hpe hE ps hr h
  obtain ⟨s, h2, h3⟩ := boxAgg_pending (featureCoords (allFeatures ps))
  obtain ⟨s', h4, h5⟩ := boxFinish_run h3
  refine ⟨_, ⟨k.reader, s'⟩, ?_, oneBox_of h5⟩
  unfold boxAggFinish onVis
  rw [h1]
  have h6 : (do boxFlush; boxFinish : M BoxS AArray) (boxAggStart.ext (featureCoords (allFeatures ps))) = .ok ((boxArray s).withNullCount s.nullCount) s' := by
    rw [M.bind_ok h2, h4]
  show (match (do boxFlush; boxFinish : M BoxS AArray) (boxAggStart.ext (featureCoords (allFeatures ps))) with
    | .ok a s => Res.ok (α := AArray) a (⟨k.reader, s⟩ : Kernel BoxS) | .err rc s => .err rc ⟨k.reader, s⟩ | .ub => .ub) = _
  rw [h6]

/-- Two kernels that were given the same coordinates in the same order produce the same array, bit for bit: it does not matter how
the features were divided into batches, nor in which type of array they were stored. -/
theorem C41_batching {parse : List Byte → Option Dbl} (hpe : parse [] = none) (hE : ∀ w, parse (69 :: w) = none) (kind kind' : ArrayKind)
    (r r' : AReader) (hr : ReaderOf kind.id r) (hr' : ReaderOf kind'.id r') (ps ps' : List Pushed) (k k' : Kernel BoxS)
    (h : PushAll (boxAggPush parse) kind parse ps ⟨r, boxAggStart⟩ k) (h' : PushAll (boxAggPush parse) kind' parse ps' ⟨r', boxAggStart⟩ k')
    (he : featureCoords (allFeatures ps) = featureCoords (allFeatures ps')) :
    ∃ out k1 k1', boxAggFinish k = .ok out k1 ∧ boxAggFinish k' = .ok out k1' := by
  obtain ⟨out, k1, h1, _⟩ := C41_box_agg hpe hE kind r hr ps k h
  have hv : k.vis = k'.vis := by
    rw [boxAgg_all hpe hE ps hr h, boxAgg_all hpe hE ps' hr' h', he]
  have h2 := h1
  unfold boxAggFinish onVis at h2
  cases hq : (do boxFlush; boxFinish : M BoxS AArray) k.vis with
  | ok o s =>
    rw [hq] at h2
    cases h2
    refine ⟨out, _, ⟨k'.reader, s⟩, h1, ?_⟩
    unfold boxAggFinish onVis
    rw [← hv, hq]
  | err rc s => rw [hq] at h2; cases h2
  | ub => rw [hq] at h2; cases h2

/-! Example: two batches. -/

theorem exView_pushAll {σ : Type} {push : (Int → WktR × WkbR) → AArray → M (Kernel σ) Unit}
    (hp : ∀ k r, ReaderOf (wkbId .views) k.reader → arrayReaderSetArray exViewArr k.reader = .ok () r →
      ∀ scratch, ∃ k', push scratch exViewArr k = .ok () k' ∧ ReaderOf (wkbId .views) k'.reader) (scratch : Int → WktR × WkbR) :
    ∀ (n : Nat) (k : Kernel σ), ReaderOf (wkbId .views) k.reader →
      ∃ k', PushAll push (.wkb .views) exParse (List.replicate n ⟨scratch, exViewArr, [some exBlobGeom, none, some (.polygon .xy [])]⟩) k k'
  | 0, k, _ => ⟨k, rfl⟩
  | n + 1, k, hk => by
    obtain ⟨r, hr⟩ := exView_accepted hk
    obtain ⟨k1, h1, h2⟩ := hp k r hk hr scratch
    obtain ⟨k2, h3⟩ := exView_pushAll hp scratch n k1 h2
    exact ⟨k2, exViewArr_features, (), k1, h1, h3⟩

example (scratch : Int → WktR × WkbR) : ∃ k out k', PushAll (boxAggPush exParse) (.wkb .views) exParse
      (List.replicate 2 ⟨scratch, exViewArr, [some exBlobGeom, none, some (.polygon .xy [])]⟩) ⟨exViewReader, boxAggStart⟩ k ∧
    boxAggFinish k = .ok out k' ∧ OneBox out (exBlobGeom.allCoords ++ exBlobGeom.allCoords) := by
  obtain ⟨k, h1⟩ := exView_pushAll (fun k r hk hs scratch =>
    C41_accepts exParse_nil exParse_E (.wkb .views) k hk exViewArr r hs _ exViewArr_features scratch) scratch 2 ⟨exViewReader, boxAggStart⟩ exViewReader_of
  obtain ⟨out, k', h2, h3⟩ := C41_box_agg exParse_nil exParse_E (.wkb .views) exViewReader exViewReader_of _ k h1
  refine ⟨k, out, k', h1, h2, ?_⟩
  have : featureCoords (allFeatures (List.replicate 2 ⟨scratch, exViewArr, [some exBlobGeom, none, some (.polygon .xy [])]⟩)) =
      exBlobGeom.allCoords ++ exBlobGeom.allCoords := by
    simp [allFeatures, featureCoords, List.replicate, Geom.allCoords]
  rwa [this] at h3

/-! ## C42 -/

/-- The kernel accepts every batch whose array the reader accepts. -/
theorem C42_accepts {parse : List Byte → Option Dbl} (hpe : parse [] = none) (hE : ∀ w, parse (69 :: w) = none) (kind : ArrayKind)
    (k : Kernel TypesS) (hk : ReaderOf kind.id k.reader) (a : AArray) (r : AReader) (hs : arrayReaderSetArray a k.reader = .ok () r)
    (fs : List (Option Geom)) (hf : kind.Features parse a fs) (scratch : Int → WktR × WkbR) :
    ∃ k', typesPush parse scratch a k = .ok () k' ∧ ReaderOf kind.id k'.reader := by
  obtain ⟨s', h1, _⟩ := typesPush_run hpe hE hk hs hf scratch
  exact ⟨_, h1, readerOf_set hk hs _⟩

/-- After any number of batches, finishing yields the strictly increasing list of the ISO codes of the features that have
coordinates. -/
theorem C42_types {parse : List Byte → Option Dbl} (hpe : parse [] = none) (hE : ∀ w, parse (69 :: w) = none) (kind : ArrayKind)
    (r : AReader) (hr : ReaderOf kind.id r) (ps : List Pushed) (k : Kernel TypesS) (h : PushAll (typesPush parse) kind parse ps ⟨r, typesZero⟩ k) :
    ∃ out vs, typesFinish k = .ok out k ∧ IntArray out vs ∧ vs.Pairwise (· < ·) ∧
      ∀ c, c ∈ vs ↔ ∃ g, some g ∈ allFeatures ps ∧ g.allCoords ≠ [] ∧ g.isoCode = c := by
  have h1 := types_all hpe hE ps hr h
  obtain ⟨out, vs, h2, h3, h4, h5⟩ := typesFinish_run k
  refine ⟨out, vs, h2, h3, h4, ?_⟩
  intro c
  rw [h5, h1]
  constructor
  · rintro ⟨j, g1, g2, g3⟩
    rcases (fold_bit _ _ j (by omega)).mp g2 with g2 | ⟨g, e1, e2, rfl⟩
    · simp [typesZero] at g2
    · rw [(geom_bit g).2] at g3
      exact ⟨g, e1, e2, Option.some.inj g3⟩
  · rintro ⟨g, e1, e2, rfl⟩
    exact ⟨g.bit, (geom_bit g).1, (fold_bit _ _ _ (by have := (geom_bit g).1; omega)).mpr (.inr ⟨g, e1, e2, rfl⟩), (geom_bit g).2⟩

/-- Two kernels that were given the same features, in any order, any number of times each and divided into batches in any way,
produce the same array. -/
theorem C42_order {parse : List Byte → Option Dbl} (hpe : parse [] = none) (hE : ∀ w, parse (69 :: w) = none) (kind kind' : ArrayKind)
    (r r' : AReader) (hr : ReaderOf kind.id r) (hr' : ReaderOf kind'.id r') (ps ps' : List Pushed) (k k' : Kernel TypesS)
    (h : PushAll (typesPush parse) kind parse ps ⟨r, typesZero⟩ k) (h' : PushAll (typesPush parse) kind' parse ps' ⟨r', typesZero⟩ k')
    (he : ∀ f, f ∈ allFeatures ps ↔ f ∈ allFeatures ps') :
    ∃ out, typesFinish k = .ok out k ∧ typesFinish k' = .ok out k' := by
  have hm : k.vis.mask = k'.vis.mask := by
    rw [types_all hpe hE ps hr h, types_all hpe hE ps' hr' h']
    apply BitVec.eq_of_getLsbD_eq
    intro i hi
    rw [Bool.eq_iff_iff, fold_bit _ _ i hi, fold_bit _ _ i hi]
    simp only [he]
  obtain ⟨out, vs, h2, _⟩ := typesFinish_run k
  refine ⟨out, h2, ?_⟩
  unfold typesFinish at h2 ⊢
  rw [← hm]
  cases hv : typesValues k.vis.mask 40 0 with
  | none => rw [hv] at h2; cases h2
  | some vs =>
    rw [hv] at h2
    dsimp only at h2 ⊢
    by_cases hc : typesCount k.vis.mask 40 0 < vs.length
    · rw [if_pos hc] at h2; cases h2
    · rw [if_neg hc] at h2 ⊢
      cases h2
      rfl

example (scratch : Int → WktR × WkbR) : ∃ k out vs, PushAll (typesPush exParse) (.wkb .views) exParse
      (List.replicate 2 ⟨scratch, exViewArr, [some exBlobGeom, none, some (.polygon .xy [])]⟩) ⟨exViewReader, typesZero⟩ k ∧
    typesFinish k = .ok out k ∧ IntArray out vs ∧ vs = [exBlobGeom.isoCode] := by
  obtain ⟨k, h1⟩ := exView_pushAll (fun k r hk hs scratch =>
    C42_accepts exParse_nil exParse_E (.wkb .views) k hk exViewArr r hs _ exViewArr_features scratch) scratch 2 ⟨exViewReader, typesZero⟩ exViewReader_of
  obtain ⟨out, vs, h2, h3, h4, h5⟩ := C42_types exParse_nil exParse_E (.wkb .views) exViewReader exViewReader_of _ k h1
  refine ⟨k, out, vs, h1, h2, h3, ?_⟩
  have h6 : ∀ c, c ∈ vs ↔ c = exBlobGeom.isoCode := by
    intro c
    rw [h5]
    constructor
    · rintro ⟨g, g1, g2, rfl⟩
      simp [allFeatures, List.replicate] at g1
      rcases g1 with rfl | rfl | rfl | rfl
      · rfl
      · exact absurd rfl g2
      · rfl
      · exact absurd rfl g2
    · rintro rfl
      exact ⟨exBlobGeom, by simp [allFeatures, List.replicate], by decide, rfl⟩
  match vs, h4, h6 with
  | [], _, h6 => exact absurd ((h6 _).mpr rfl) (by simp)
  | [x], _, h6 => rw [(h6 x).mp (by simp)]
  | x :: y :: _, h4, h6 =>
    have h7 := (List.pairwise_cons.mp h4).1 y (by simp)
    rw [(h6 x).mp (by simp), (h6 y).mp (by simp)] at h7
    exact absurd h7 (Int.lt_irrefl _)

/-! ## C43 -/

/-- Elements of which the first that cannot be read comes after some that can. -/
theorem elementsRead_broken {b : List Byte} {rc : Code} (hb : WkbRead b [] (.fail rc)) (rest : List (Option (List Byte))) :
    ∀ (es : List (Option (List Byte))) (fs : List (Option Geom)), es.length = fs.length →
    (∀ (i : Nat) e f, es[i]? = some e → fs[i]? = some f → match e, f with
      | none, none => True
      | some b, some g => g.height ≤ 255 ∧ WkbEnc g b ∧ b.length < 2 ^ 35
      | _, _ => False) →
    ∀ t o, ElementsRead WkbRead (es ++ some b :: rest) t o → FeaturesTrace fs t ∧ o = .fail rc
  | [], [], _, _, t, o, h => by
    obtain ⟨t1, o1, h1, h2⟩ := h
    obtain ⟨rfl, rfl⟩ := Behaves.unique hb h1 (by simp)
    rcases h2 with ⟨h2, _⟩ | ⟨_, rfl, rfl⟩
    · cases h2
    · exact ⟨rfl, rfl⟩
  | [], _ :: _, hl, _, _, _, _ => by cases hl
  | _ :: _, [], hl, _, _, _, _ => by cases hl
  | e :: es, f :: fs, hl, hm, t, o, h => by
    have h0 := hm 0 e f rfl rfl
    have ih := elementsRead_broken hb rest es fs (by simpa using hl) (fun i e f h1 h2 => hm (i + 1) e f (by simpa using h1) (by simpa using h2))
    match e, f, h0 with
    | none, none, _ =>
      obtain ⟨t', h1, rfl⟩ := h
      obtain ⟨i1, i2⟩ := ih t' o h1
      exact ⟨⟨_, t', rfl, i1, rfl⟩, i2⟩
    | some b', some g, ⟨hh, hb', hlen⟩ =>
      obtain ⟨t1, o1, h1, h2⟩ := h
      obtain ⟨tg, hg, hread⟩ := (C12_read_valid_partial (rest := []) hb' hh (by simpa using hlen) ⟨0, 0, false, []⟩).2
      rw [List.append_nil] at hread
      obtain ⟨rfl, rfl⟩ := Behaves.unique hread h1 (by simp)
      rcases h2 with ⟨_, t2, h3, rfl⟩ | ⟨h3, _⟩
      · obtain ⟨i1, i2⟩ := ih t2 o h3
        exact ⟨⟨_, t2, hg, i1, rfl⟩, i2⟩
      · exact absurd rfl h3

theorem encoded_wf {es : List (Option (List Byte))} {fs : List (Option Geom)} (hl : es.length = fs.length)
    (hm : ∀ (i : Nat) e f, es[i]? = some e → fs[i]? = some f → match e, f with
      | none, none => True
      | some b, some g => g.height ≤ 255 ∧ WkbEnc g b ∧ b.length < 2 ^ 35
      | _, _ => False) : ∀ g, some g ∈ fs → g.WF := by
  intro g hg
  obtain ⟨i, hi⟩ := List.getElem?_of_mem hg
  have hlt := (List.getElem?_eq_some_iff.mp hi).1
  have h := hm i es[i] (some g) (List.getElem?_eq_getElem (by omega)) hi
  generalize es[i] = e at h
  match e, h with
  | some b, ⟨_, hb, _⟩ => exact enc_wf _ b hb

/-- What happens in fact. If the element after some readable ones is not WKB, pushing the array fails; the next push that
succeeds outputs the rows of these readable elements before the rows of its own batch. So the property holds only of arrays
whose first element is the broken one. -/
theorem C43_rows_of_the_failed_batch {parse : List Byte → Option Dbl} (hpe : parse [] = none) (hE : ∀ w, parse (69 :: w) = none) (kl : BinLayout)
    (k : Kernel BoxS) (hk : BoxKernelStart parse (wkbId kl) k) (a : AArray) (r : AReader) (hs : arrayReaderSetArray a k.reader = .ok () r)
    (fs : List (Option Geom)) (hb : Broken kl a fs) (junk : Nat → Byte) (scratch : Int → WktR × WkbR) :
    ∃ rc k1, boxPush junk parse scratch a k = .err rc k1 ∧
      ∀ (a' : AArray) (r' : AReader), arrayReaderSetArray a' k1.reader = .ok () r' → ∀ fs', (ArrayKind.wkb kl).Features parse a' fs' →
      ∀ scratch', ∃ out k2, boxPush junk parse scratch' a' k1 = .ok out k2 ∧ BoundsArray out (fs ++ fs') := by
  obtain ⟨h1, h2⟩ := boxKernelStart_inv hk
  have hr := boxKernelOf_reader h1
  obtain ⟨es, b, rest, ⟨hlen, hel⟩, ⟨rc, hnot⟩, hl, hm⟩ := hb
  obtain ⟨t, o, h3, h4⟩ := C53_wkb kl k.reader r hr a hs r.wkt r.wkb 0 (es ++ some b :: rest) (fun t e ht => by rw [Nat.zero_add]; exact hel t e ht) parse
  obtain ⟨h5, rfl⟩ := elementsRead_broken hnot rest es fs hl hm t o h3
  obtain ⟨s1, h6, h7⟩ := box_features junk fs t (encoded_wf hl hm) h5 h2
  have h8 : boxPush junk parse scratch a k = .err rc ⟨r.after (scratch 0), s1⟩ := by
    refine push_fail hs ?_ h6
    rw [hlen]
    exact h4
  refine ⟨rc, _, h8, ?_⟩
  intro a' r' hs' fs' hf' scratch'
  obtain ⟨out, k2, h9, h10⟩ := boxPush_run junk hpe hE (kind := .wkb kl) (k := ⟨r.after (scratch 0), s1⟩) (readerOf_set hr hs _) h7 hs' hf' scratch'
  refine ⟨out, k2, h9, boundsArray_of ?_⟩
  rwa [List.nil_append, ← List.map_append] at h10

/-- The property holds if the array pushed first is refused before any of it is visited. -/
theorem C43_refused_array_partial {parse : List Byte → Option Dbl} (hpe : parse [] = none) (hE : ∀ w, parse (69 :: w) = none) (kind : ArrayKind)
    (k : Kernel BoxS) (hk : BoxKernelStart parse kind.id k) (a : AArray) (rc : Code) (r : AReader) (hs : arrayReaderSetArray a k.reader = .err rc r)
    (junk : Nat → Byte) (scratch : Int → WktR × WkbR) :
    ∃ k1, boxPush junk parse scratch a k = .err rc k1 ∧
      ∀ (a' : AArray) (r' : AReader), arrayReaderSetArray a' k1.reader = .ok () r' → ∀ fs', kind.Features parse a' fs' →
      ∀ scratch', ∃ out k2, boxPush junk parse scratch' a' k1 = .ok out k2 ∧ BoundsArray out fs' := by
  obtain ⟨h1, h2⟩ := boxKernelStart_inv hk
  refine ⟨{ k with reader := r }, ?_, ?_⟩
  · unfold boxPush kernelPushBatch
    rw [M.bind_err (rc := rc) (s' := { k with reader := r }) (by unfold kernelSetArray; rw [hs])]
  · intro a' r' hs' fs' hf' scratch'
    obtain ⟨out, k2, h9, h10⟩ := boxPush_run junk hpe hE (k := { k with reader := r }) (.setArray (boxKernelOf_reader h1) (by rw [hs]; rfl)) h2 hs' hf' scratch'
    exact ⟨out, k2, h9, boundsArray_of h10⟩

/-- However a kernel was used, batches of any type: it holds back a number of rows that depends on its past only. A push that
succeeds outputs them first, then exactly the rows of its batch. -/
theorem C43_rows_held_back {parse : List Byte → Option Dbl} (hpe : parse [] = none) (hE : ∀ w, parse (69 :: w) = none) (kind : ArrayKind)
    (k : Kernel BoxS) (hk : BoxKernelOf parse kind.id k) :
    ∃ n : Nat, ∀ (a : AArray) (r : AReader), arrayReaderSetArray a k.reader = .ok () r → ∀ fs, kind.Features parse a fs →
      ∀ junk scratch, ∃ out k', boxPush junk parse scratch a k = .ok out k' ∧ out.length = n + fs.length ∧
        (∀ (i : Nat) (f : Option Geom), fs[i]? = some f → match f with
          | none => NullAt out (n + i)
          | some g => ValidAt out (n + i) ∧
            ∃ xmin ymin xmax ymax, BoxAt .xy out (n + i) [xmin, ymin] [xmax, ymax] ∧ IsBounds g.allCoords xmin ymin xmax ymax) ∧
        BoxKernelStart parse kind.id k' := by
  obtain ⟨rows, hp⟩ := boxKernelOf_pending hpe hk
  refine ⟨rows.length, ?_⟩
  intro a r hs fs hf junk scratch
  obtain ⟨out, k', h1, h2⟩ := boxPush_run junk hpe hE (boxKernelOf_reader hk) hp hs hf scratch
  refine ⟨out, k', h1, ?_, ?_, .push hk h1⟩
  · rw [h2.length, List.length_append, List.length_map]
    omega
  · intro i f hi
    obtain ⟨e1, e2⟩ := h2.row (rows.length + i) (rowOf f) (by rw [List.getElem?_append_right (by omega), Nat.add_sub_cancel_left, List.getElem?_map, hi]; rfl)
    cases f with
    | none => exact e1
    | some g => exact ⟨e1, _, _, _, _, e2, bounds_of g⟩

/-! Example: a linestring and then a byte that is no WKB; then a good batch. -/

def exBrokenArr : AArray := .mk 2 0 1 [none, some (exViewRecs.take 32 ++ [1, 0, 0, 0, 1, 0, 0, 0, 0, 0, 0, 0, 0, 0, 0, 0]), some ([7, 7] ++ exBlob)] []

theorem exBroken_elements : Elements .views exBrokenArr ([some exBlob] ++ some [1] :: []) := by
  refine ⟨rfl, ?_⟩
  intro t e h
  match t, h with
  | 0, rfl => exact (⟨.inl rfl, _, 63, rfl, by decide +kernel, .inr ⟨by decide, 0, 2, by decide +kernel, by decide +kernel, _, rfl, by decide, by decide +kernel⟩⟩ :
      ElementAt .views exBrokenArr 0 (some exBlob))
  | 1, rfl => exact (⟨.inl rfl, _, 1, rfl, by decide +kernel, .inl ⟨by decide, by decide +kernel, by decide +kernel⟩⟩ : ElementAt .views exBrokenArr 1 (some [1]))

theorem exBroken_broken : Broken .views exBrokenArr [some exBlobGeom] := by
  refine ⟨[some exBlob], [1], [], exBroken_elements, ⟨EINVAL, ?_⟩, rfl, ?_⟩
  · intro σ h s
    rfl
  · intro i e f he hf
    match i, he, hf with
    | 0, rfl, rfl => exact ⟨by decide, exBlob_enc, by decide⟩

/-- A witness against the property: after the failed push, pushing a batch of three features outputs four rows. -/
theorem C43_witness (junk : Nat → Byte) (scratch : Int → WktR × WkbR) : ∃ rc k1 out k2,
    boxPush junk exParse scratch exBrokenArr ⟨exViewReader, boxZero⟩ = .err rc k1 ∧ boxPush junk exParse scratch exViewArr k1 = .ok out k2 ∧
    BoundsArray out [some exBlobGeom, some exBlobGeom, none, some (.polygon .xy [])] ∧
    ¬ BoundsArray out [some exBlobGeom, none, some (.polygon .xy [])] := by
  obtain ⟨r, hr⟩ : ∃ r, arrayReaderSetArray exBrokenArr exViewReader = .ok () r :=
    C53_accepted .views _ (.inl rfl) _ exViewReader_of _ ⟨rfl, by decide, by decide, by decide, fun _ => rfl, fun i hi => by
      have hi' : i < 2 := by have : (i : Int) < 2 := hi; omega
      match i, hi' with
      | 0, _ => exact ⟨_, (exBroken_elements.2 0 _ rfl).2⟩
      | 1, _ => exact ⟨_, (exBroken_elements.2 1 _ rfl).2⟩⟩
  obtain ⟨rc, k1, h1, h2⟩ := C43_rows_of_the_failed_batch exParse_nil exParse_E .views ⟨exViewReader, boxZero⟩ (.start exViewReader_of) exBrokenArr r hr _
    exBroken_broken junk scratch
  have hk1 : ReaderOf (wkbId .views) k1.reader := push_reader (h := boxHandler junk) (finish := boxFinish) (k := ⟨exViewReader, boxZero⟩) exViewReader_of
    (show (boxPush junk exParse scratch exBrokenArr ⟨exViewReader, boxZero⟩).state? = some k1 by rw [h1]; rfl)
  obtain ⟨r', hr'⟩ := exView_accepted hk1
  obtain ⟨out, k2, h3, h4⟩ := h2 exViewArr r' hr' _ exViewArr_features scratch
  refine ⟨rc, k1, out, k2, h1, h3, h4, ?_⟩
  intro hc
  have e1 := h4.length
  rw [hc.length] at e1
  cases e1

/-- An array with too many children is refused, and leaves no trace. -/
example (junk : Nat → Byte) (scratch : Int → WktR × WkbR) : ∃ k1 out k2,
    boxPush junk exParse scratch (.mk 0 0 0 [none, none, none] [exViewArr]) ⟨exViewReader, boxZero⟩ = .err EINVAL k1 ∧
    boxPush junk exParse scratch exViewArr k1 = .ok out k2 ∧ BoundsArray out [some exBlobGeom, none, some (.polygon .xy [])] := by
  obtain ⟨r, hr⟩ : ∃ r, arrayReaderSetArray (.mk 0 0 0 [none, none, none] [exViewArr]) exViewReader = .err EINVAL r := ⟨_, rfl⟩
  obtain ⟨k1, h1, h2⟩ := C43_refused_array_partial exParse_nil exParse_E (.wkb .views) ⟨exViewReader, boxZero⟩ (.start exViewReader_of) _ _ r hr junk scratch
  have hk1 : ReaderOf (wkbId .views) k1.reader := push_reader (h := boxHandler junk) (finish := boxFinish) (k := ⟨exViewReader, boxZero⟩) exViewReader_of
    (show (boxPush junk exParse scratch (.mk 0 0 0 [none, none, none] [exViewArr]) ⟨exViewReader, boxZero⟩).state? = some k1 by rw [h1]; rfl)
  obtain ⟨r', hr'⟩ := exView_accepted hk1
  obtain ⟨out, k2, h3, h4⟩ := h2 exViewArr r' hr' _ exViewArr_features scratch
  exact ⟨k1, out, k2, h1, h3, h4⟩

end Verif
