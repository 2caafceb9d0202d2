import Verif.Proof.KernelStart
import Verif.Props.WktReader
/-!
# C68: kernels from their names to their results
-/
namespace Verif
open Spec

/-! ## Names and starting -/

/-- `GeoArrowKernelInit` makes the eight kernels and reports ENOTSUP for every other name. -/
theorem C68_names (env : KEnv) (name : List Byte) :
    (name ∈ kernelNames → ∃ k, kernelInit env name = .ok k) ∧ (name ∉ kernelNames → kernelInit env name = .error ENOTSUP) := by
  refine ⟨fun h => ?_, fun h => ?_⟩
  · obtain ⟨n, hn⟩ := Option.isSome_iff_exists.mp ((kernelNamed_iff name).mpr h)
    exact ⟨_, kernelInit_new hn⟩
  · have : kernelNamed name = none := by
      cases hn : kernelNamed name with
      | none => rfl
      | some n => exact absurd ((kernelNamed_iff name).mp (by rw [hn]; rfl)) h
    unfold kernelInit
    rw [this]

/-- `start` on a new kernel, for every schema whose columns have formats and whose fixed sizes are 32-bit numbers: it succeeds exactly if
the schema is that of an extension type, for as_geoarrow the option `type` is there and can be written, and for the kernels that make
boxes the extension metadata can be viewed and the edges are planar; `void` and `void_agg` take anything. The schema of the output is
as `OutputSchema` says. Otherwise EINVAL or ENOTSUP is returned. Excluded are options `type` that are no numbers, and extension
metadata with a NUL or, if the memory ends behind them, such that the reader looks behind them (`C46_`). -/
theorem C68_start (env env' : KEnv) (print : Nat → Dbl → List Byte) (name : List Byte) (k0 : KObj) (h0 : kernelInit env name = .ok k0) (s : ASchema)
    (hf : HasFormats s) (hz : SizesFit s) (options : List (List Byte × List Byte))
    (ho : name = str "as_geoarrow" → (∀ p ∈ options, p.1 ≠ str "type") ∨ ∃ n, HasNumber options (str "type") n)
    (hmd : (0 : Byte) ∉ extensionMetadata s) (hb : env'.after ≠ none ∨ ¬ ReadsBehind (extensionMetadata s)) :
    (Startable name s options → ∃ out k, kernelStart env' print s options k0 = .ok out k ∧ OutputSchema name s options out) ∧
    (¬ Startable name s options → ∃ rc k, (rc = EINVAL ∨ rc = ENOTSUP) ∧ kernelStart env' print s options k0 = .err rc k) := by
  obtain ⟨n, hn, hk⟩ := kernelInit_inv h0
  have hname : name ∈ kernelNames := (kernelNamed_iff name).mp (by rw [hn]; rfl)
  have plain : ∀ f, PlainColumn f (schemaPlain f) := fun f => ⟨rfl, rfl, rfl, rfl⟩
  -- the kernels with a visitor
  have input : ∀ n', kernelNamed name = some n' → ¬ (n' = .void ∨ n' = .voidAgg) → (¬ ∃ type, InputType s type) →
      kernelStart env' print s options k0 = .err EINVAL k0 := by
    intro n' hn' hv hno
    rw [hn'] at hn
    cases hn
    exact start_noInput hf hz hno env' print options k0 (by rw [hk]; exact hv)
  have run : ∀ n', kernelNamed name = some n' → ¬ (n' = .void ∨ n' = .voidAgg) → (∃ type, InputType s type) →
      ∃ r v, v.extMetadata = firstValue "ARROW:extension:metadata" s ∧
        kernelStart env' print s options k0 = kernelFinishStart env' print s v options { newKernel env n' with reader := some r } := by
    intro n' hn' hv ⟨type, hi⟩
    obtain ⟨r, v, -, h2, h3⟩ := start_new (env' := env') (print := print) (options := options) hn' hv hi h0
    exact ⟨r, v, h2, h3⟩
  have boxy : ∀ (k : KObj) (md : Option (List Byte)), md.getD [] = extensionMetadata s →
      ((∃ w, Views (extensionMetadata s) w ∧ w.edge = 0) → ∃ out, schemaBox env' md k = .ok out k ∧ InputType out (boxId .xy) ∧
        ∃ w w', Views (extensionMetadata s) w ∧ Views (extensionMetadata out) w' ∧ w'.edge = 0 ∧ w'.crsType = w.crsType ∧
          (w.crsType ≠ 0 → w'.crs = w.crs)) ∧
      ((¬ ∃ w, Views (extensionMetadata s) w ∧ w.edge = 0) → schemaBox env' md k = .err EINVAL k) := by
    intro k md hm
    refine ⟨fun ⟨w, ⟨n0, hw⟩, he⟩ => ?_, fun hno => ?_⟩
    · have hok : metadataViewInit env'.after ((md.getD []).length + 1) (md.getD []) = .ok w [] := by
        rw [hm]
        have := (C46_returns_partial (extensionMetadata s) hmd env'.after (n0 + (extensionMetadata s).length + 1) (by omega)).2
        rw [← this]
        exact hw _ (by omega) _
      obtain ⟨out, e1, e2, w', e3, e4⟩ := schemaBox_ok k hok he
      rw [hm] at e3
      exact ⟨out, e1, e2, w, w', e3, e4⟩
    · rw [← hm] at hmd hb hno
      exact schemaBox_err k hmd hb hno
  simp only [kernelNames, List.mem_cons, List.not_mem_nil, or_false] at hname
  rcases hname with rfl | rfl | rfl | rfl | rfl | rfl | rfl | rfl
  · -- void
    cases (show some KName.void = some n from hn)
    refine ⟨fun _ => ⟨_, k0, by unfold kernelStart; rw [if_pos (by rw [hk]; exact .inl rfl)], ?_⟩, fun h => absurd (.inl (.inl rfl)) h⟩
    exact ⟨fun _ => plain _, fun h => absurd h (by decide), fun h => absurd h (by decide), fun h => absurd h (by decide), fun h => absurd h (by decide)⟩
  · -- void_agg
    cases (show some KName.voidAgg = some n from hn)
    refine ⟨fun _ => ⟨_, k0, by unfold kernelStart; rw [if_pos (by rw [hk]; exact .inr rfl)], ?_⟩, fun h => absurd (.inl (.inr rfl)) h⟩
    exact ⟨fun _ => plain _, fun h => absurd h (by decide), fun h => absurd h (by decide), fun h => absurd h (by decide), fun h => absurd h (by decide)⟩
  · -- visit_void_agg
    by_cases hi : ∃ type, InputType s type
    · obtain ⟨r, v, -, e⟩ := run .visitVoidAgg (by decide) (by decide) hi
      refine ⟨fun _ => ⟨_, _, by rw [e]; rfl, ?_⟩, fun h => absurd (.inr ⟨hi, fun h => absurd h (by decide), fun h => absurd h (by decide)⟩) h⟩
      exact ⟨fun _ => plain _, fun h => absurd h (by decide), fun h => absurd h (by decide), fun h => absurd h (by decide), fun h => absurd h (by decide)⟩
    · refine ⟨fun h => absurd (h.elim (fun h => absurd h (by decide)) (fun h => h.1)) hi, fun _ => ⟨EINVAL, _, .inl rfl, input .visitVoidAgg (by decide) (by decide) hi⟩⟩
  · -- format_wkt
    by_cases hi : ∃ type, InputType s type
    · obtain ⟨r, v, -, e⟩ := run .formatWkt (by decide) (by decide) hi
      refine ⟨fun _ => ⟨_, _, by rw [e]; rfl, ?_⟩, fun h => absurd (.inr ⟨hi, fun h => absurd h (by decide), fun h => absurd h (by decide)⟩) h⟩
      exact ⟨fun h => absurd h (by decide), fun _ => plain _, fun h => absurd h (by decide), fun h => absurd h (by decide), fun h => absurd h (by decide)⟩
    · refine ⟨fun h => absurd (h.elim (fun h => absurd h (by decide)) (fun h => h.1)) hi, fun _ => ⟨EINVAL, _, .inl rfl, input .formatWkt (by decide) (by decide) hi⟩⟩
  · -- as_geoarrow
    by_cases hi : ∃ type, InputType s type
    · obtain ⟨r, v, -, e⟩ := run .asGeoarrow (by decide) (by decide) hi
      have e' : kernelStart env' print s options k0 = asGeoarrowFinishStart env' print s options { newKernel env .asGeoarrow with reader := some r } := by
        rw [e]; rfl
      rcases ho rfl with ho | ⟨type, ho⟩
      · refine ⟨fun h => ?_, fun _ => ?_⟩
        · obtain ⟨type, ⟨b, t, a, rfl, -⟩, -⟩ := (h.resolve_left (by decide)).2.1 rfl
          exact absurd rfl (ho (str "type", t) (by simp))
        · refine ⟨EINVAL, { newKernel env .asGeoarrow with reader := some r }, .inl rfl, ?_⟩
          rw [e', asFinishStart_eq _ _ _ _ _ rfl]
          have : kernelArg options (str "type") = none := by unfold kernelArg; rw [metadataGet_absent ho]; rfl
          rw [this]
      · obtain ⟨c1, c2⟩ := asStart_cases env' print (k := { newKernel env .asGeoarrow with reader := some r }) rfl ho hi
        have uniq : ∀ t, HasNumber options (str "type") t → t = type := by
          intro t ht
          have h1 := kernelArg_number ht
          rw [kernelArg_number ho] at h1
          exact (Option.some.inj h1).symm
        refine ⟨fun h => ?_, fun h => ?_⟩
        · obtain ⟨t, ht, hp⟩ := (h.resolve_left (by decide)).2.1 rfl
          rw [uniq t ht] at hp
          obtain ⟨out, k', e1, e2, e3⟩ := c1 hp
          refine ⟨out, k', by rw [e', e1], ?_⟩
          exact ⟨fun h => absurd h (by decide), fun h => absurd h (by decide), fun h => absurd h (by decide),
            fun _ t ht => by rw [uniq t ht]; exact ⟨e2, e3⟩, fun h => absurd h (by decide)⟩
        · obtain ⟨rc, k', e1, e2⟩ := c2 fun hp => h (.inr ⟨hi, fun _ => ⟨type, ho, hp⟩, fun h => absurd h (by decide)⟩)
          exact ⟨rc, k', e1, by rw [e', e2]⟩
    · refine ⟨fun h => absurd (h.elim (fun h => absurd h (by decide)) (fun h => h.1)) hi, fun _ => ⟨EINVAL, _, .inl rfl, input .asGeoarrow (by decide) (by decide) hi⟩⟩
  · -- unique_geometry_types_agg
    by_cases hi : ∃ type, InputType s type
    · obtain ⟨r, v, -, e⟩ := run .uniqueTypesAgg (by decide) (by decide) hi
      refine ⟨fun _ => ⟨_, _, by rw [e]; rfl, ?_⟩, fun h => absurd (.inr ⟨hi, fun h => absurd h (by decide), fun h => absurd h (by decide)⟩) h⟩
      exact ⟨fun h => absurd h (by decide), fun h => absurd h (by decide), fun _ => plain _, fun h => absurd h (by decide), fun h => absurd h (by decide)⟩
    · refine ⟨fun h => absurd (h.elim (fun h => absurd h (by decide)) (fun h => h.1)) hi, fun _ => ⟨EINVAL, _, .inl rfl, input .uniqueTypesAgg (by decide) (by decide) hi⟩⟩
  · -- box
    by_cases hi : ∃ type, InputType s type
    · obtain ⟨r, v, hv, e⟩ := run .box (by decide) (by decide) hi
      have e' : kernelStart env' print s options k0 = schemaBox env' v.extMetadata { newKernel env .box with reader := some r } := by rw [e]; rfl
      obtain ⟨c1, c2⟩ := boxy { newKernel env .box with reader := some r } v.extMetadata (by rw [hv]; rfl)
      refine ⟨fun h => ?_, fun h => ⟨EINVAL, _, .inl rfl, by
        rw [e', c2 fun hw => h (.inr ⟨hi, fun h => absurd h (by decide), fun _ => hw⟩)]⟩⟩
      obtain ⟨out, e1, e2⟩ := c1 ((h.resolve_left (by decide)).2.2 (.inl rfl))
      refine ⟨out, _, by rw [e', e1], ?_⟩
      exact ⟨fun h => absurd h (by decide), fun h => absurd h (by decide), fun h => absurd h (by decide), fun h => absurd h (by decide), fun _ => e2⟩
    · refine ⟨fun h => absurd (h.elim (fun h => absurd h (by decide)) (fun h => h.1)) hi, fun _ => ⟨EINVAL, _, .inl rfl, input .box (by decide) (by decide) hi⟩⟩
  · -- box_agg
    by_cases hi : ∃ type, InputType s type
    · obtain ⟨r, v, hv, e⟩ := run .boxAgg (by decide) (by decide) hi
      have e' : ∃ k1, kernelStart env' print s options k0 = schemaBox env' v.extMetadata k1 := ⟨_, by rw [e]; rfl⟩
      obtain ⟨k1, e'⟩ := e'
      obtain ⟨c1, c2⟩ := boxy k1 v.extMetadata (by rw [hv]; rfl)
      refine ⟨fun h => ?_, fun h => ⟨EINVAL, _, .inl rfl, by
        rw [e', c2 fun hw => h (.inr ⟨hi, fun h => absurd h (by decide), fun _ => hw⟩)]⟩⟩
      obtain ⟨out, e1, e2⟩ := c1 ((h.resolve_left (by decide)).2.2 (.inr rfl))
      refine ⟨out, _, by rw [e', e1], ?_⟩
      exact ⟨fun h => absurd h (by decide), fun h => absurd h (by decide), fun h => absurd h (by decide), fun h => absurd h (by decide), fun _ => e2⟩
    · refine ⟨fun h => absurd (h.elim (fun h => absurd h (by decide)) (fun h => h.1)) hi, fun _ => ⟨EINVAL, _, .inl rfl, input .boxAgg (by decide) (by decide) hi⟩⟩

/-! ## Results -/

section
variable {parse : List Byte → Option Dbl} {print : Nat → Dbl → List Byte} {s : ASchema} {options : List (List Byte × List Byte)}

/-- box: each array pushed, of any layout, yields the bounds of its features. -/
theorem C68_box (hpe : parse [] = none) (hE : ∀ w, parse (69 :: w) = none) (kind : ArrayKind) (hs : InputType s kind.id) (k : KObj)
    (hk : KernelReady parse print (str "box") s options k) (a : AArray) (ht : Taken kind.id a) (fs : List (Option Geom)) (hf : kind.Features parse a fs)
    (env : KEnv) (scratch : Int → WktR × WkbR) :
    ∃ out k', kernelPush env parse print scratch a true k = .ok (some (.native out)) k' ∧ BoundsArray out fs ∧
      KernelReady parse print (str "box") s options k' := by
  obtain ⟨h1, r, h2, h3⟩ := kernelReady_box hs hk
  obtain ⟨r', hr⟩ := ht r (boxKernelOf_reader (boxKernelStart_inv h3).1)
  obtain ⟨out, k', e1, e2, -⟩ := C40_box hpe hE kind _ h3 a r' hr fs hf env.junk scratch
  have e : kernelPush env parse print scratch a true k = .ok (some (.native out)) { k with reader := some k'.reader, box := k'.vis } := by
    rw [push_box h1 h2, if_pos rfl, onPart_run e1]
  exact ⟨out, _, e, e2, .push (kernelOf_of_ready hk) e⟩

/-- box_agg: arrays are accepted, and finishing, at any time and any number of times, yields the bounds of all coordinates pushed so far. -/
theorem C68_box_agg (hpe : parse [] = none) (hE : ∀ w, parse (69 :: w) = none) (kind : ArrayKind) (hs : InputType s kind.id) (ps : List Pushed) (k : KObj)
    (hk : Fed parse print (str "box_agg") s options kind ps k) :
    (∃ out, kernelFinish true k = .ok (some (.native out)) k ∧ OneBox out (featureCoords (allFeatures ps))) ∧
    ∀ a, Taken kind.id a → ∀ fs, kind.Features parse a fs → ∀ env scratch w, ∃ k', kernelPush env parse print scratch a w k = .ok none k' := by
  obtain ⟨h1, r, h2, h3, h4⟩ := fed_boxAgg hpe hE hs hk
  refine ⟨finish_boxAgg h1 h4, fun a ht fs hf env scratch w => ?_⟩
  obtain ⟨r', hr⟩ := ht r h3
  obtain ⟨k', e1, -⟩ := C41_accepts hpe hE kind ⟨r, k.box⟩ h3 a r' hr fs hf scratch
  exact ⟨_, by rw [push_boxAgg h1 h2]; exact onPart_run (f := fun _ => none) e1⟩

/-- unique_geometry_types_agg: arrays are accepted, and finishing, at any time and any number of times, yields the ISO codes of the
features pushed so far that have coordinates, each once and in increasing order. -/
theorem C68_types (hpe : parse [] = none) (hE : ∀ w, parse (69 :: w) = none) (kind : ArrayKind) (hs : InputType s kind.id) (ps : List Pushed) (k : KObj)
    (hk : Fed parse print (str "unique_geometry_types_agg") s options kind ps k) :
    (∃ out vs, kernelFinish true k = .ok (some (.native out)) k ∧ IntArray out vs ∧ vs.Pairwise (· < ·) ∧
      ∀ c, c ∈ vs ↔ ∃ g, some g ∈ allFeatures ps ∧ g.allCoords ≠ [] ∧ g.isoCode = c) ∧
    ∀ a, Taken kind.id a → ∀ fs, kind.Features parse a fs → ∀ env scratch w, ∃ k', kernelPush env parse print scratch a w k = .ok none k' := by
  obtain ⟨h1, r, h2, h3, h4⟩ := fed_types hpe hE hs hk
  refine ⟨?_, fun a ht fs hf env scratch w => ?_⟩
  · obtain ⟨out, vs, e1, e2, e3, e4⟩ := finish_types h1
    refine ⟨out, vs, e1, e2, e3, fun c => ?_⟩
    rw [e4, h4]
    constructor
    · rintro ⟨j, g1, g2, g3⟩
      rcases (fold_bit _ _ j (by omega)).mp g2 with g2 | ⟨g, e1, e2, rfl⟩
      · simp at g2
      · rw [(geom_bit g).2] at g3
        exact ⟨g, e1, e2, Option.some.inj g3⟩
    · rintro ⟨g, e1, e2, rfl⟩
      exact ⟨g.bit, (geom_bit g).1, (fold_bit _ _ _ (by have := (geom_bit g).1; omega)).mpr (.inr ⟨g, e1, e2, rfl⟩), (geom_bit g).2⟩
  · obtain ⟨r', hr⟩ := ht r h3
    obtain ⟨k', e1, -⟩ := C42_accepts hpe hE kind ⟨r, k.types⟩ h3 a r' hr fs hf scratch
    exact ⟨_, by rw [push_types h1 h2]; exact onPart_run (f := fun _ => none) e1⟩

/-- format_wkt: each array pushed yields texts, as `Written` says (`C63_`: complete if there is no limit to their size). -/
theorem C68_format_wkt (hp : ∀ n x, (print n x).length ≤ 40) (hpe : parse [] = none) (hE : ∀ w, parse (69 :: w) = none) (kind : ArrayKind)
    (hs : InputType s kind.id) (p max : Int) (h1 : OptionIs options (str "precision") 16 p) (h2 : OptionIs options (str "max_element_size_bytes") (-1) max)
    (k : KObj) (hk : KernelReady parse print (str "format_wkt") s options k) (a : AArray) (ht : Taken kind.id a) (fs : List (Option Geom))
    (hf : kind.Features parse a fs) (hty : ∀ x, some x ∈ fs → x.Typed ∧ x.height ≤ 31)
    (hn : (elemBytes (texts (wktText (print (effective p)) true) fs)).length ≤ 2147483647) (env : KEnv) (scratch : Int → WktR × WkbR) :
    ∃ out es k', kernelPush env parse print scratch a true k = .ok (some (.bin out)) k' ∧ Represents out es ∧
      Written max (wktText (print (effective p)) true) false fs es ∧ (max < 0 → es = texts (wktText (print (effective p)) true) fs) ∧
      KernelReady parse print (str "format_wkt") s options k' := by
  obtain ⟨g1, r, g2, g3⟩ := kernelReady_format hs h1 h2 hk
  obtain ⟨r', hr⟩ := ht r (fwOf_inv hpe (fwStart_inv hpe g3).1).2
  obtain ⟨out, es, k', e1, e2, e3, -⟩ := C63_format_wkt hp hpe hE kind p max _ g3 a r' hr fs hf hty hn scratch
  have e : kernelPush env parse print scratch a true k =
      .ok (some (.bin out)) { k with reader := some k'.reader, wkt := { k.wkt with priv := k'.vis } } := by
    rw [push_format g1 g2, if_pos rfl, onPart_run e1]
  exact ⟨out, es, _, e, e2, e3, fun hm => written_plain hm e3, .push (kernelOf_of_ready hk) e⟩

/-- as_geoarrow to a native type: each array pushed yields one with what is stored of its features (`Geom.stored`; `C34_same`). -/
theorem C68_to_native (hpe : parse [] = none) (hE : ∀ w, parse (69 :: w) = none) (kind : ArrayKind) (hs : InputType s kind.id) (g : Int)
    (hg : 1 ≤ g ∧ g ≤ 6) (d : Dims) (ck : CoordKind) (ho : HasNumber options (str "type") (nativeId g d ck)) (k : KObj)
    (hk : KernelReady parse print (str "as_geoarrow") s options k) (a : AArray) (ht : Taken kind.id a) (fs : List (Option Geom))
    (hf : kind.Features parse a fs) (hty : ∀ x, some x ∈ fs → HasType g x) (hn : g = 1 ∨ numCoords fs ≤ 2147483647) (env : KEnv)
    (scratch : Int → WktR × WkbR) :
    ∃ out k', kernelPush env parse print scratch a true k = .ok (some (.native out)) k' ∧ out.nullCount = (numNulls fs : Int) ∧
      (ArrayKind.native g d ck hg).Features parse out (fs.map fun f => f.map (Geom.stored d)) ∧ Taken (nativeId g d ck) out ∧
      KernelReady parse print (str "as_geoarrow") s options k' := by
  obtain ⟨g1, r, hd, w, g2, g3, g4, g5⟩ := kernelReady_as hs ho hk
  obtain ⟨r', hr⟩ := ht r (asKernelOf_reader (asStart_of g5))
  obtain ⟨out, k', e1, e2, -, e3, e4, -⟩ := C62_native hpe hE kind g hg d ck hd ⟨r, w⟩ g5 a r' hr fs hf hty hn env.junk scratch
  have e : kernelPush env parse print scratch a true k = .ok (some (.native out)) { k with reader := some k'.reader, writer := some k'.vis } := by
    rw [push_as g1 g2 g3 g4, if_pos rfl, onPart_run e1]
  exact ⟨out, _, e, e2, e3, e4, .push (kernelOf_of_ready hk) e⟩

/-- as_geoarrow to WKB: each array pushed yields the ISO encodings of its features. -/
theorem C68_to_wkb (hpe : parse [] = none) (hE : ∀ w, parse (69 :: w) = none) (kind : ArrayKind) (hs : InputType s kind.id)
    (ho : HasNumber options (str "type") 100001) (k : KObj) (hk : KernelReady parse print (str "as_geoarrow") s options k) (a : AArray)
    (ht : Taken kind.id a) (fs : List (Option Geom)) (hf : kind.Features parse a fs) (hty : ∀ x, some x ∈ fs → x.SinglePoints ∧ x.height ≤ 29)
    (hn : (elemBytes (encodings fs)).length ≤ 2147483647) (env : KEnv) (scratch : Int → WktR × WkbR) :
    ∃ out k', kernelPush env parse print scratch a true k = .ok (some (.bin out)) k' ∧ Represents out (encodings fs) ∧
      KernelReady parse print (str "as_geoarrow") s options k' := by
  obtain ⟨g1, r, hd, w, g2, g3, g4, g5⟩ := kernelReady_as hs ho hk
  obtain ⟨r', hr⟩ := ht r (asKernelOf_reader (asStart_of g5))
  obtain ⟨out, k', e1, e2, -⟩ := C62_wkb hpe hE kind hd ⟨r, w⟩ g5 a r' hr fs hf hty hn env.junk scratch
  have e : kernelPush env parse print scratch a true k = .ok (some (.bin out)) { k with reader := some k'.reader, writer := some k'.vis } := by
    rw [push_as g1 g2 g3 g4, if_pos rfl, onPart_run e1]
  exact ⟨out, _, e, e2, .push (kernelOf_of_ready hk) e⟩

/-- as_geoarrow to WKT: each array pushed yields the texts of its features, with 16 digits and flat multipoints. -/
theorem C68_to_wkt (hp : ∀ n x, (print n x).length ≤ 40) (hpe : parse [] = none) (hE : ∀ w, parse (69 :: w) = none) (kind : ArrayKind)
    (hs : InputType s kind.id) (ho : HasNumber options (str "type") 100003) (k : KObj)
    (hk : KernelReady parse print (str "as_geoarrow") s options k) (a : AArray) (ht : Taken kind.id a) (fs : List (Option Geom))
    (hf : kind.Features parse a fs) (hty : ∀ x, some x ∈ fs → x.Typed ∧ x.height ≤ 31)
    (hn : (elemBytes (texts (wktText (print 16) true) fs)).length ≤ 2147483647) (env : KEnv) (scratch : Int → WktR × WkbR) :
    ∃ out k', kernelPush env parse print scratch a true k = .ok (some (.bin out)) k' ∧ Represents out (texts (wktText (print 16) true) fs) ∧
      KernelReady parse print (str "as_geoarrow") s options k' := by
  obtain ⟨g1, r, hd, w, g2, g3, g4, g5⟩ := kernelReady_as hs ho hk
  obtain ⟨r', hr⟩ := ht r (asKernelOf_reader (asStart_of g5))
  obtain ⟨out, k', e1, e2, -⟩ := C62_wkt hp hpe hE kind hd ⟨r, w⟩ g5 a r' hr fs hf hty hn env.junk scratch
  have e : kernelPush env parse print scratch a true k = .ok (some (.bin out)) { k with reader := some k'.reader, writer := some k'.vis } := by
    rw [push_as g1 g2 g3 g4, if_pos rfl, onPart_run e1]
  exact ⟨out, _, e, e2, .push (kernelOf_of_ready hk) e⟩

/-- The kernels with an array for each array refuse to output one when they are finished, and change nothing by it. -/
theorem C68_finish_scalar {name : List Byte} (hname : name = str "box" ∨ name = str "format_wkt" ∨ name = str "as_geoarrow") {type : Int}
    (hs : InputType s type) (ho : name = str "as_geoarrow" → ∃ t, HasNumber options (str "type") t)
    (hw : name = str "format_wkt" → ∃ p max, OptionIs options (str "precision") 16 p ∧ OptionIs options (str "max_element_size_bytes") (-1) max)
    (k : KObj) (hk : KernelOf parse print name s options k) :
    kernelFinish true k = .err EINVAL k ∧ kernelFinish false k = .ok none k := by
  have : k.name = .box ∨ k.name = .formatWkt ∨ k.name = .asGeoarrow := by
    rcases hname with rfl | rfl | rfl
    · exact .inl (kernelOf_box hs hk).1
    · obtain ⟨p, max, h1, h2⟩ := hw rfl
      exact .inr (.inl (kernelOf_format hs h1 h2 hk).1)
    · obtain ⟨t, h⟩ := ho rfl
      exact .inr (.inr (kernelOf_as hs h hk).1)
  unfold kernelFinish
  rcases this with h | h | h <;> rw [h] <;> exact ⟨rfl, rfl⟩

/-! ## visit_void_agg: validation -/

/-- Of an array of WKT, of any layout, pushing accepts exactly the one whose elements are in the grammar; otherwise EINVAL is returned. -/
theorem C68_validates_wkt (hpe : parse [] = none) (hE : ∀ w, parse (69 :: w) = none) (l : BinLayout) (hs : InputType s (wktId l)) (k : KObj)
    (hk : KernelOf parse print (str "visit_void_agg") s options k) (a : AArray) (ht : Taken (wktId l) a) (es : List (Option (List Byte)))
    (he : Elements l a es) (env : KEnv) (scratch : Int → WktR × WkbR) (w : Bool) :
    ((∀ b, some b ∈ es → ∃ g, GeomToks parse g (lex b)) → ∃ k', kernelPush env parse print scratch a w k = .ok none k') ∧
    ((¬ ∀ b, some b ∈ es → ∃ g, GeomToks parse g (lex b)) → ∃ k', kernelPush env parse print scratch a w k = .err EINVAL k') := by
  obtain ⟨h1, r, h2, h3⟩ := kernelOf_visit hs hk
  obtain ⟨r', hr⟩ := ht r h3
  obtain ⟨t, o, g1, g2⟩ := C53_wkt hpe l r r' h3 a hr r'.wkt r'.wkb 0 es (by intro t e h; rw [Nat.zero_add]; exact he.2 t e h)
  rw [show (((0 : Nat) : Int)) = 0 from rfl, ← he.1] at g2
  have hv := push_void (scratch := scratch) hr g2
  rw [push_visit h1 h2]
  have hdone := elementsRead_done (read := WktRead parse) (fun b t o t' o' h h' => (behaves_outcome h h')) g1
  have hcodes : ∀ b t o, WktRead parse b t o → o = .done () ∨ o = .fail EINVAL := by
    intro b t o h
    obtain ⟨t', o', h', ho⟩ := C26_no_undefined_behaviour hpe b _
    rw [behaves_outcome h h']
    exact ho
  have hgram : (∀ b, some b ∈ es → ∃ t, WktRead parse b t (.done ())) ↔ ∀ b, some b ∈ es → ∃ g, GeomToks parse g (lex b) :=
    ⟨fun h b hb => (C28_accepts_exactly_the_grammar hpe hE b _).mp (h b hb), fun h b hb => (C28_accepts_exactly_the_grammar hpe hE b _).mpr (h b hb)⟩
  rw [hgram] at hdone
  rcases elementsRead_codes hcodes g1 with rfl | rfl
  · exact ⟨fun _ => ⟨_, onPart_run (f := fun _ => none) hv⟩, fun h => absurd (hdone.mp rfl) h⟩
  · exact ⟨fun h => absurd (hdone.mpr h) (by simp), fun _ => ⟨_, onPart_err (f := fun _ => none) hv⟩⟩

/-- Of an array of WKB, of any layout, pushing accepts exactly the one whose elements are each accepted by a new WKB reader. -/
theorem C68_validates_wkb (l : BinLayout) (hs : InputType s (wkbId l)) (k : KObj)
    (hk : KernelOf parse print (str "visit_void_agg") s options k) (a : AArray) (ht : Taken (wkbId l) a) (es : List (Option (List Byte)))
    (he : Elements l a es) (env : KEnv) (scratch : Int → WktR × WkbR) (w : Bool) :
    (∃ k', kernelPush env parse print scratch a w k = .ok none k') ↔ ∀ b, some b ∈ es → ∃ t, WkbRead b t (.done ()) := by
  obtain ⟨h1, r, h2, h3⟩ := kernelOf_visit hs hk
  obtain ⟨r', hr⟩ := ht r h3
  obtain ⟨t, o, g1, g2⟩ := C53_wkb l r r' h3 a hr r'.wkt r'.wkb 0 es (by intro t e h; rw [Nat.zero_add]; exact he.2 t e h) parse
  rw [show (((0 : Nat) : Int)) = 0 from rfl, ← he.1] at g2
  have hv := push_void (scratch := scratch) hr g2
  rw [push_visit h1 h2]
  rw [← elementsRead_done (read := WkbRead) (fun b t o t' o' h h' => (behaves_outcome h h')) g1]
  cases o with
  | done u => exact ⟨fun _ => rfl, fun _ => ⟨_, onPart_run (f := fun _ => none) hv⟩⟩
  | fail rc =>
    refine ⟨fun ⟨k', h⟩ => ?_, fun h => by cases h⟩
    have := onPart_err (f := fun _ => (none : Option AOut)) (put := fun _ (k : KObj) => k) (k := k) hv
    rw [h] at this
    cases this
  | crash =>
    refine ⟨fun ⟨k', h⟩ => ?_, fun h => by cases h⟩
    have := onPart_ub (f := fun _ => (none : Option AOut)) (put := fun _ (k : KObj) => k) (k := k) hv
    rw [h] at this
    cases this

/-- Arrays of features, of any type, are accepted, and finishing yields one null, also after pushes that failed. -/
theorem C68_visit (hpe : parse [] = none) (hE : ∀ w, parse (69 :: w) = none) (kind : ArrayKind) (hs : InputType s kind.id) (k : KObj)
    (hk : KernelOf parse print (str "visit_void_agg") s options k) :
    (∃ out, kernelFinish true k = .ok (some (.native out)) k ∧ AllNull out 1) ∧
    ∀ a, Taken kind.id a → ∀ fs, kind.Features parse a fs → ∀ env scratch w, ∃ k', kernelPush env parse print scratch a w k = .ok none k' := by
  obtain ⟨h1, r, h2, h3⟩ := kernelOf_visit hs hk
  refine ⟨⟨naArray 1, by unfold kernelFinish; rw [h1]; rfl, rfl, rfl, rfl, rfl, rfl⟩, fun a ht fs hf env scratch w => ?_⟩
  obtain ⟨r', hr⟩ := ht r h3
  obtain ⟨t, -, g2⟩ := features_visit hpe hE h3 hr hf
  have hv := push_void (scratch := scratch) hr g2
  rw [push_visit h1 h2]
  exact ⟨_, onPart_run (f := fun _ => none) hv⟩

/-! ## void and void_agg -/

/-- void yields nulls, as many as there are elements; void_agg yields one. Neither needs to be started. -/
theorem C68_void (env : KEnv) (k : KObj) (scratch : Int → WktR × WkbR) :
    (kernelInit env (str "void") = .ok k → ∀ a, ∃ out, kernelPush env parse print scratch a true k = .ok (some (.native out)) k ∧ AllNull out a.length) ∧
    (kernelInit env (str "void_agg") = .ok k → (∀ a, kernelPush env parse print scratch a false k = .ok none k) ∧
      ∃ out, kernelFinish true k = .ok (some (.native out)) k ∧ AllNull out 1) := by
  refine ⟨fun h => ?_, fun h => ?_⟩
  · rw [kernelInit_new (n := .void) (by decide)] at h
    cases h
    exact fun a => ⟨naArray a.length, rfl, rfl, rfl, rfl, rfl, rfl⟩
  · rw [kernelInit_new (n := .voidAgg) (by decide)] at h
    cases h
    exact ⟨fun a => rfl, naArray 1, rfl, rfl, rfl, rfl, rfl, rfl⟩

/-! ## Using kernels otherwise -/

/-- Starting again: box_agg forgets what was pushed, unique_geometry_types_agg does not. -/
theorem C68_restart (hpe : parse [] = none) (hE : ∀ w, parse (69 :: w) = none) (kind : ArrayKind) (hs : InputType s kind.id) (ps : List Pushed)
    (k k' : KObj) (env : KEnv) (s' : ASchema) (type' : Int) (hs' : InputType s' type') (options' : List (List Byte × List Byte)) (sch : ASchema)
    (h : kernelStart env print s' options' k = .ok sch k') :
    (Fed parse print (str "box_agg") s options kind ps k → ∃ out, kernelFinish true k' = .ok (some (.native out)) k' ∧ OneBox out []) ∧
    (Fed parse print (str "unique_geometry_types_agg") s options kind ps k →
      ∃ out, kernelFinish true k = .ok (some (.native out)) k ∧ kernelFinish true k' = .ok (some (.native out)) k') := by
  refine ⟨fun hk => ?_, fun hk => ?_⟩
  · obtain ⟨h1, r, h2, h3, h4⟩ := fed_boxAgg hpe hE hs hk
    obtain ⟨r', v, -, -, e⟩ := start_run hs' env print options' k (by rw [h1]; decide)
    rw [e] at h
    unfold kernelFinishStart at h
    rw [M.bind_run, M.get_run] at h
    dsimp only at h
    rw [h1] at h
    dsimp only at h
    rw [M.bind_run, M.modify_run] at h
    dsimp only at h
    have hk' := schemaBox_state (k := k') (by rw [h]; rfl)
    refine finish_boxAgg (by rw [hk']) ?_
    rw [hk']
    dsimp only
    rw [h4]
    rfl
  · obtain ⟨h1, r, h2, h3, h4⟩ := fed_types hpe hE hs hk
    obtain ⟨r', v, -, -, e⟩ := start_run hs' env print options' k (by rw [h1]; decide)
    rw [e] at h
    unfold kernelFinishStart at h
    rw [M.bind_run, M.get_run] at h
    dsimp only at h
    rw [h1] at h
    cases h
    obtain ⟨out, vs, e1, -⟩ := finish_types h1
    refine ⟨out, e1, ?_⟩
    unfold kernelFinish at e1 ⊢
    rw [h1] at e1
    dsimp only at e1 ⊢
    rw [if_pos rfl] at e1 ⊢
    unfold typesFinish at e1 ⊢
    dsimp only at e1 ⊢
    cases hv : typesValues k.types.mask 40 0 with
    | none => rw [hv] at e1; cases e1
    | some vs =>
      rw [hv] at e1
      dsimp only at e1 ⊢
      by_cases hlt : typesCount k.types.mask 40 0 < vs.length
      · rw [if_pos hlt] at e1; cases e1
      · rw [if_neg hlt] at e1 ⊢
        injection e1 with e1 _
        dsimp only
        rw [e1]

/-- Pushing to a kernel that was not started, without asking for a result, succeeds, and the array is dropped; only void is different. -/
theorem C68_push_before_start (env env' : KEnv) (name : List Byte) (k : KObj) (h : kernelInit env name = .ok k) (hv : name ≠ str "void") (a : AArray)
    (scratch : Int → WktR × WkbR) :
    kernelPush env' parse print scratch a false k = .ok none k ∧ kernelPush env' parse print scratch a true k = .err EINVAL k := by
  obtain ⟨n, hn, rfl⟩ := kernelInit_inv h
  cases n with
  | void =>
    exfalso
    apply hv
    unfold kernelNamed at hn
    split at hn
    · assumption
    · repeat' split at hn
      all_goals cases hn
  | _ => exact ⟨rfl, rfl⟩

/-- Finishing box_agg without having started it yields a box, of zeros, not the empty box. -/
theorem C68_finish_before_start (env : KEnv) (k : KObj) (h : kernelInit env (str "box_agg") = .ok k) :
    ∃ out k', kernelFinish true k = .ok (some (.native out)) k' ∧ out.length = 1 ∧ ValidAt out 0 ∧ BoxAt .xy out 0 [0, 0] [0, 0] := by
  rw [kernelInit_new (n := .boxAgg) (by decide)] at h
  cases h
  obtain ⟨s, h2, h3⟩ : ∃ s, boxFlush boxZero = .ok () s ∧ Pending [⟨true, 0, 0, 0, 0⟩] s :=
    ⟨_, rfl, ⟨rfl, rfl, rfl, rfl, .inl ⟨rfl, rfl, rfl, rfl⟩, rfl⟩⟩
  obtain ⟨s', h4, h5⟩ := boxFinish_run h3
  have h6 : (do boxFlush; boxFinish : M BoxS AArray) boxZero = .ok ((boxArray s).withNullCount s.nullCount) s' := by
    rw [M.bind_ok h2, h4]
  refine ⟨(boxArray s).withNullCount s.nullCount, { newKernel env .boxAgg with box := s' }, ?_, h5.length, (h5.row 0 _ rfl).1, (h5.row 0 _ rfl).2⟩
  unfold kernelFinish newKernel
  dsimp only
  rw [if_pos rfl]
  unfold boxAggFinish onVis
  dsimp only
  rw [h6]

/-- If `start` of as_geoarrow has failed for want of an option, pushing is undefined behaviour, for every array of features. -/
theorem C68_push_after_failed_start (hpe : parse [] = none) (hE : ∀ w, parse (69 :: w) = none) (kind : ArrayKind) (hs : InputType s kind.id)
    (ho : ∀ p ∈ options, p.1 ≠ str "type") (env env' env'' : KEnv) (k0 : KObj) (h0 : kernelInit env (str "as_geoarrow") = .ok k0) :
    ∃ k, kernelStart env' print s options k0 = .err EINVAL k ∧ ∀ a, Taken kind.id a → ∀ fs, kind.Features parse a fs → ∀ scratch,
      kernelPush env'' parse print scratch a true k = .ub := by
  obtain ⟨r, v, h1, -, e⟩ := start_new (env' := env') (print := print) (options := options) (n := .asGeoarrow) (by decide) (by decide) hs h0
  have e' : kernelStart env' print s options k0 = asGeoarrowFinishStart env' print s options { newKernel env .asGeoarrow with reader := some r } := by
    rw [e]; rfl
  refine ⟨{ newKernel env .asGeoarrow with reader := some r }, ?_, fun a ht fs hf scratch => ?_⟩
  · rw [e', asFinishStart_eq _ _ _ _ _ rfl]
    have : kernelArg options (str "type") = none := by unfold kernelArg; rw [metadataGet_absent ho]; rfl
    rw [this]
  · obtain ⟨r', hr⟩ := ht r h1
    obtain ⟨t, -, g2⟩ := features_visit hpe hE h1 hr hf
    have hub : kernelPushBatch voidHandler (M.undef : M Unit AOut) parse scratch a (⟨r, ()⟩ : Kernel Unit) = .ub := by
      rw [push_eq hr]
      unfold onVis
      dsimp only
      have h1 : arrayReaderVisit voidHandler parse r' 0 a.length () = replay voidHandler t (.done ()) () := g2 Unit voidHandler ()
      rw [M.bind_run, h1, replay, feed_voidHandler]
      rfl
    unfold kernelPush newKernel
    dsimp only
    rw [if_pos rfl]
    have : asGeoarrowPushAny env'' parse scratch a r { newKernel env .asGeoarrow with reader := some r } = .ub := by
      unfold asGeoarrowPushAny newKernel
      dsimp only
      unfold onPart
      rw [hub]
    exact M.bind_ub (m := asGeoarrowPushAny env'' parse scratch a r) this

/-- A second `start` of as_geoarrow is refused, but the kernel reads arrays as of the new type from then on. -/
theorem C68_refused_start_switches {type type' outType : Int} (hs : InputType s type) (ho : HasNumber options (str "type") outType) (k : KObj)
    (hk : KernelOf parse print (str "as_geoarrow") s options k) (s' : ASchema) (hs' : InputType s' type') (env : KEnv) :
    ∃ k', kernelStart env print s' options k = .err EINVAL k' ∧ (∃ r, k.reader = some r ∧ ReaderOf type r) ∧ ∃ r, k'.reader = some r ∧ ReaderOf type' r := by
  obtain ⟨h1, r, hd, w, h2, h3, h4, h5⟩ := kernelOf_as hs ho hk
  obtain ⟨r', v, g1, -, e⟩ := start_run hs' env print options k (by rw [h1]; decide)
  refine ⟨{ k with reader := some r' }, ?_, ⟨r, h2, asKernelOf_reader h5⟩, r', rfl, g1⟩
  rw [e]
  unfold kernelFinishStart
  rw [M.bind_run, M.get_run]
  dsimp only
  rw [h1]
  dsimp only
  unfold asGeoarrowFinishStart
  rw [kernelArg_number ho]
  dsimp only
  rw [h4]
  rfl
end

/-! ## Examples -/

/-- A column of WKB in views, with a CRS. -/
def exKSchema : ASchema :=
  .mk (some (str "vz")) none [(str "ARROW:extension:name", str "geoarrow.wkb"), (str "ARROW:extension:metadata", str "{\"crs\":\"EPSG:32633\"}")] 2 [] false

theorem exKSchema_type : InputType exKSchema (wkbId .views) := by
  have h : formatsFit exKSchema = true := by decide +kernel
  obtain ⟨h1, h2⟩ := formatsFit_spec h
  have e2 : ∃ v, schemaViewInit exKSchema svZero = .ok () v ∧ v.type = wkbId .views := ⟨_, rfl, by decide +kernel⟩
  obtain ⟨v', e2, e3⟩ := e2
  rcases C04_view_exact_partial _ h1 h2 svZero with ⟨ext, v, g1, g2, g3⟩ | ⟨-, v, g3⟩
  · rw [e2] at g3
    cases g3
    exact ⟨ext, _, g1, g2, e3⟩
  · rw [e2] at g3; cases g3

theorem exKSchema_metadata : extensionMetadata exKSchema = str "{\"crs\":\"EPSG:32633\"}" := by decide +kernel

theorem exKSchema_views : Views (extensionMetadata exKSchema) ⟨0, 1, str "\"EPSG:32633\""⟩ := by
  rw [exKSchema_metadata]
  exact views_of_ok (after := none) (n := 40) (rest := []) (by decide +kernel)

example (env : KEnv) : (∃ k, kernelInit env (str "box_agg") = .ok k) ∧ kernelInit env (str "centroid") = .error ENOTSUP :=
  ⟨(C68_names env _).1 (by decide), (C68_names env _).2 (by decide)⟩

theorem exK_start (env : KEnv) (name : List Byte) (hn : name ∈ kernelNames) (options : List (List Byte × List Byte))
    (ho : name = str "as_geoarrow" → ∃ n, HasNumber options (str "type") n ∧ CanProduce n) :
    ∃ k0 out k, kernelInit env name = .ok k0 ∧ kernelStart env exPrint exKSchema options k0 = .ok out k ∧ OutputSchema name exKSchema options out := by
  obtain ⟨k0, h0⟩ := (C68_names env name).1 hn
  have h : formatsFit exKSchema = true := by decide +kernel
  obtain ⟨h1, h2⟩ := formatsFit_spec h
  obtain ⟨out, k, e1, e2⟩ := (C68_start env env exPrint name k0 h0 exKSchema h1 h2 options (fun e => .inr ((ho e).imp fun _ h => h.1))
    (by rw [exKSchema_metadata]; decide) (.inr (by
      rintro ⟨n, hn⟩
      obtain ⟨n0, hv⟩ := exKSchema_views
      have := C46_steps (extensionMetadata exKSchema) none n n0 (by rw [hn]; simp)
      rw [hn, hv _ (by omega)] at this
      cases this))).1 (.inr ⟨⟨_, exKSchema_type⟩, ho, fun _ => ⟨_, exKSchema_views, rfl⟩⟩)
  exact ⟨k0, out, k, h0, e1, e2⟩

/-- The boxes have the CRS of the input. -/
example (env : KEnv) : ∃ k0 out k, kernelInit env (str "box") = .ok k0 ∧ kernelStart env exPrint exKSchema [] k0 = .ok out k ∧
    InputType out (boxId .xy) ∧ ∃ w, Views (extensionMetadata out) w ∧ w.crsType = 1 ∧ w.crs = str "\"EPSG:32633\"" := by
  obtain ⟨k0, out, k, h0, h1, h2⟩ := exK_start env (str "box") (by decide) [] (fun h => absurd h (by decide))
  obtain ⟨h3, w, w', h4, h5, h6, h7, h8⟩ := h2.box (.inl rfl)
  have hw : w = ⟨0, 1, str "\"EPSG:32633\""⟩ := by
    obtain ⟨n0, h4⟩ := h4
    obtain ⟨n1, h9⟩ := exKSchema_views
    have := h4 (n0 + n1) (by omega) none
    rw [h9 (n0 + n1) (by omega) none] at this
    injection this with this _
    exact this.symm
  subst hw
  exact ⟨k0, out, k, h0, h1, h3, w', h5, h7, h8 (by decide)⟩

theorem exK_taken : Taken (wkbId .views) exViewArr := fun _ hr => exView_accepted hr

example (env : KEnv) (scratch : Int → WktR × WkbR) : ∃ k out k', KernelReady exParse exPrint (str "box") exKSchema [] k ∧
    kernelPush env exParse exPrint scratch exViewArr true k = .ok (some (.native out)) k' ∧ BoundsArray out [some exBlobGeom, none, some (.polygon .xy [])] := by
  obtain ⟨k0, sch, k, h0, h1, -⟩ := exK_start env (str "box") (by decide) [] (fun h => absurd h (by decide))
  obtain ⟨out, k', e1, e2, -⟩ := C68_box exParse_nil exParse_E (.wkb .views) exKSchema_type k (.start h0 h1) exViewArr exK_taken _ exViewArr_features env scratch
  exact ⟨k, out, k', .start h0 h1, e1, e2⟩

example (env : KEnv) (scratch : Int → WktR × WkbR) :
    ∃ k ps, Fed exParse exPrint (str "box_agg") exKSchema [] (.wkb .views) ps k ∧ ps ≠ [] ∧
      ∃ out, kernelFinish true k = .ok (some (.native out)) k ∧ OneBox out (exBlobGeom.allCoords ++ []) := by
  obtain ⟨k0, sch, k, h0, h1, -⟩ := exK_start env (str "box_agg") (by decide) [] (fun h => absurd h (by decide))
  have f0 : Fed exParse exPrint (str "box_agg") exKSchema [] (.wkb .views) [] k := .start h0 h1
  obtain ⟨k', e⟩ := (C68_box_agg exParse_nil exParse_E (.wkb .views) exKSchema_type _ k f0).2 exViewArr exK_taken _ exViewArr_features env scratch false
  have f1 := Fed.push (p := ⟨scratch, exViewArr, _⟩) f0 exViewArr_features e
  exact ⟨k', _, f1, by simp, (C68_box_agg exParse_nil exParse_E (.wkb .views) exKSchema_type _ k' f1).1⟩

example (env : KEnv) (scratch : Int → WktR × WkbR) :
    ∃ k ps, Fed exParse exPrint (str "unique_geometry_types_agg") exKSchema [] (.wkb .views) ps k ∧
      ∃ out vs, kernelFinish true k = .ok (some (.native out)) k ∧ IntArray out vs ∧ 1004 ∈ vs := by
  obtain ⟨k0, sch, k, h0, h1, -⟩ := exK_start env (str "unique_geometry_types_agg") (by decide) [] (fun h => absurd h (by decide))
  have f0 : Fed exParse exPrint (str "unique_geometry_types_agg") exKSchema [] (.wkb .views) [] k := .start h0 h1
  obtain ⟨k', e⟩ := (C68_types exParse_nil exParse_E (.wkb .views) exKSchema_type _ k f0).2 exViewArr exK_taken _ exViewArr_features env scratch false
  have f1 := Fed.push (p := ⟨scratch, exViewArr, _⟩) f0 exViewArr_features e
  obtain ⟨out, vs, e1, e2, -, e4⟩ := (C68_types exParse_nil exParse_E (.wkb .views) exKSchema_type _ k' f1).1
  exact ⟨k', _, f1, out, vs, e1, e2, (e4 1004).mpr ⟨exBlobGeom, by simp [allFeatures], by decide +kernel, by decide +kernel⟩⟩

example (env : KEnv) (scratch : Int → WktR × WkbR) : ∃ k, KernelReady exParse exPrint (str "format_wkt") exKSchema [] k ∧
    ∃ out k', kernelPush env exParse exPrint scratch exViewArr true k = .ok (some (.bin out)) k' ∧
      Represents out [some (str "MULTIPOINT Z (1 2, 3 4 1)"), none, some (str "POLYGON EMPTY")] := by
  obtain ⟨k0, sch, k, h0, h1, -⟩ := exK_start env (str "format_wkt") (by decide) [] (fun h => absurd h (by decide))
  obtain ⟨out, es, k', e1, e2, -, e4, -⟩ := C68_format_wkt exPrint_short exParse_nil exParse_E (.wkb .views) exKSchema_type 16 (-1)
    (.absent (by simp)) (.absent (by simp)) k (.start h0 h1) exViewArr exK_taken _ exViewArr_features (fun x hx => (exView_types x hx).2)
    (by decide +kernel) env scratch
  rw [e4 (by decide)] at e2
  have : texts (wktText (exPrint (effective 16)) true) [some exBlobGeom, none, some (.polygon .xy [])] =
    [some (str "MULTIPOINT Z (1 2, 3 4 1)"), none, some (str "POLYGON EMPTY")] := by decide +kernel
  rw [this] at e2
  exact ⟨k, .start h0 h1, out, k', e1, e2⟩

theorem exK_number (text : List Byte) (n : Int) (h : NumberText text n) (h1 : text.length ≤ 15) (h2 : -2147483648 ≤ n ∧ n < 2147483648) :
    HasNumber [(str "type", text)] (str "type") n := ⟨[], text, [], rfl, by simp, h, h1, h2.1, h2.2⟩

theorem exK_wkb : HasNumber [(str "type", str "100001")] (str "type") 100001 :=
  exK_number _ _ ⟨[], [], str "100001", rfl, by simp, by decide, by unfold IsDigit; decide, .inl ⟨.inl rfl, by decide⟩⟩ (by decide) (by decide)

theorem exK_wkt : HasNumber [(str "type", str "100003")] (str "type") 100003 :=
  exK_number _ _ ⟨[], [], str "100003", rfl, by simp, by decide, by unfold IsDigit; decide, .inl ⟨.inl rfl, by decide⟩⟩ (by decide) (by decide)

theorem exK_multipoint : HasNumber [(str "type", str "1004")] (str "type") (nativeId 4 .xyz .separate) :=
  exK_number _ _ ⟨[], [], str "1004", rfl, by simp, by decide, by unfold IsDigit; decide, .inl ⟨.inl rfl, by decide +kernel⟩⟩ (by decide) (by decide +kernel)

/-- To WKB, and the CRS is kept. -/
example (env : KEnv) (scratch : Int → WktR × WkbR) : ∃ k0 sch k, kernelInit env (str "as_geoarrow") = .ok k0 ∧
    kernelStart env exPrint exKSchema [(str "type", str "100001")] k0 = .ok sch k ∧
    InputType sch 100001 ∧ extensionMetadata sch = str "{\"crs\":\"EPSG:32633\"}" ∧
    ∃ out k', kernelPush env exParse exPrint scratch exViewArr true k = .ok (some (.bin out)) k' ∧
      Represents out (encodings [some exBlobGeom, none, some (.polygon .xy [])]) := by
  obtain ⟨k0, sch, k, h0, h1, h2⟩ := exK_start env (str "as_geoarrow") (by decide) [(str "type", str "100001")] (fun _ => ⟨_, exK_wkb, .inl rfl⟩)
  obtain ⟨e1, e2⟩ := h2.as rfl _ exK_wkb
  obtain ⟨out, k', e3, e4, -⟩ := C68_to_wkb exParse_nil exParse_E (.wkb .views) exKSchema_type exK_wkb k (.start h0 h1) exViewArr exK_taken _
    exViewArr_features (fun x hx => (exView_types x hx).1) (by decide +kernel) env scratch
  exact ⟨k0, sch, k, h0, h1, e1, by rw [e2, exKSchema_metadata], out, k', e3, e4⟩

example (env : KEnv) (scratch : Int → WktR × WkbR) : ∃ k, KernelReady exParse exPrint (str "as_geoarrow") exKSchema [(str "type", str "100003")] k ∧
    ∃ out k', kernelPush env exParse exPrint scratch exViewArr true k = .ok (some (.bin out)) k' ∧
      Represents out (texts (wktText (exPrint 16) true) [some exBlobGeom, none, some (.polygon .xy [])]) := by
  obtain ⟨k0, sch, k, h0, h1, -⟩ := exK_start env (str "as_geoarrow") (by decide) [(str "type", str "100003")] (fun _ => ⟨_, exK_wkt, .inr (.inl rfl)⟩)
  obtain ⟨out, k', e3, e4, -⟩ := C68_to_wkt exPrint_short exParse_nil exParse_E (.wkb .views) exKSchema_type exK_wkt k (.start h0 h1) exViewArr exK_taken _
    exViewArr_features (fun x hx => (exView_types x hx).2) (by decide +kernel) env scratch
  exact ⟨k, .start h0 h1, out, k', e3, e4⟩

/-- To a native type; the result can be pushed to another kernel. -/
example (env : KEnv) (scratch : Int → WktR × WkbR) : ∃ k, KernelReady exParse exPrint (str "as_geoarrow") exKSchema [(str "type", str "1004")] k ∧
    ∃ out k', kernelPush env exParse exPrint scratch exPairArr true k = .ok (some (.native out)) k' ∧ Taken (nativeId 4 .xyz .separate) out := by
  obtain ⟨k0, sch, k, h0, h1, -⟩ := exK_start env (str "as_geoarrow") (by decide) [(str "type", str "1004")]
    (fun _ => ⟨_, exK_multipoint, .inr (.inr ⟨4, .xyz, .separate, by decide, by decide, rfl⟩)⟩)
  obtain ⟨out, k', e3, -, -, e4, -⟩ := C68_to_native exParse_nil exParse_E (.wkb .views) exKSchema_type 4 (by decide) .xyz .separate exK_multipoint k
    (.start h0 h1) exPairArr (fun r hr => C53_accepted .views _ (.inl rfl) r hr exPairArr exPairArr_ok) _ exPairArr_features (by
      intro x hx
      simp only [List.mem_cons, Option.some.injEq, List.not_mem_nil, or_false, reduceCtorEq] at hx
      subst hx
      simp only [exBlobGeom, HasType, List.mem_cons, List.not_mem_nil, or_false, true_and, forall_eq_or_imp, forall_eq]
      exact ⟨⟨_, _, rfl, by decide⟩, _, _, rfl, by decide⟩) (.inr (by decide)) env scratch
  exact ⟨k, .start h0 h1, out, k', e3, e4⟩

/-- A column of WKT with 64-bit offsets and an array of two texts, of which the second ends too soon. -/
example (env : KEnv) (scratch : Int → WktR × WkbR) (w : Bool) :
    let s : ASchema := .mk (some (str "U")) none [(str "ARROW:extension:name", str "geoarrow.wkt")] 2 [] false
    ∃ k, KernelOf exParse exPrint (str "visit_void_agg") s [] k ∧ ∃ k', kernelPush env exParse exPrint scratch exLargeArr w k = .err EINVAL k' := by
  intro s
  have hfit : formatsFit s = true := by decide +kernel
  obtain ⟨f1, f2⟩ := formatsFit_spec hfit
  have hi : InputType s (wktId .offsets64) := by
    obtain ⟨v', e2, e3⟩ : ∃ v, schemaViewInit s svZero = .ok () v ∧ v.type = wktId .offsets64 := ⟨_, rfl, by decide +kernel⟩
    rcases C04_view_exact_partial _ f1 f2 svZero with ⟨ext, v, g1, g2, g3⟩ | ⟨-, v, g3⟩
    · rw [e2] at g3; cases g3; exact ⟨ext, _, g1, g2, e3⟩
    · rw [e2] at g3; cases g3
  obtain ⟨k0, h0⟩ := (C68_names env (str "visit_void_agg")).1 (by decide)
  have hmd : extensionMetadata s = [] := by decide +kernel
  obtain ⟨out, k, e1, -⟩ := (C68_start env env exPrint _ k0 h0 s f1 f2 [] (fun h => absurd h (by decide)) (by rw [hmd]; simp)
    (.inr (by rw [hmd]; rintro ⟨n, h⟩; cases h))).1 (.inr ⟨⟨_, hi⟩, fun h => absurd h (by decide), fun h => absurd h (by decide)⟩)
  have b0 : BytesAt .offsets64 exLargeArr 0 (str "POINT (1 2)") :=
    ⟨_, 0, 11, rfl, by decide +kernel, by decide +kernel, .inl ⟨_, rfl, by decide, by decide +kernel, by decide +kernel⟩⟩
  have b1 : BytesAt .offsets64 exLargeArr 1 (str "POINT (1") :=
    ⟨_, 11, 19, rfl, by decide +kernel, by decide +kernel, .inl ⟨_, rfl, by decide, by decide +kernel, by decide +kernel⟩⟩
  refine ⟨k, .start h0 e1, (C68_validates_wkt exParse_nil exParse_E .offsets64 hi k (.start h0 e1) exLargeArr (fun r hr =>
    C53_accepted .offsets64 _ (.inr rfl) r hr exLargeArr ⟨rfl, by decide, by decide, by decide, fun _ => rfl, fun i hi => by
      have hi' : i < 2 := by have : (i : Int) < 2 := hi; omega
      match i, hi' with
      | 0, _ => exact ⟨_, b0⟩
      | 1, _ => exact ⟨_, b1⟩⟩) [some (str "POINT (1 2)"), some (str "POINT (1")] ⟨rfl, fun t e h => by
      match t, h with
      | 0, rfl => exact (⟨.inl rfl, b0⟩ : ElementAt .offsets64 exLargeArr 0 (some (str "POINT (1 2)")))
      | 1, rfl => exact (⟨.inl rfl, b1⟩ : ElementAt .offsets64 exLargeArr 1 (some (str "POINT (1")))⟩ env scratch w).2 ?_⟩
  intro hall
  obtain ⟨t, ht⟩ := (C28_accepts_exactly_the_grammar exParse_nil exParse_E (str "POINT (1") exWktR).mpr (hall _ (by simp))
  have := ht Unit voidHandler ()
  unfold replay at this
  rw [feed_voidHandler] at this
  have hbad : (wktVisit exParse (str "POINT (1") voidHandler exWktR ()).code? = some EINVAL := by decide +kernel
  dsimp only at this
  rw [this] at hbad
  cases hbad

/-- An array of WKB whose second element is a single byte is not accepted; it is finished all the same. -/
example (env : KEnv) (scratch : Int → WktR × WkbR) : ∃ k, KernelOf exParse exPrint (str "visit_void_agg") exKSchema [] k ∧
    (¬ ∃ k', kernelPush env exParse exPrint scratch exBrokenArr false k = .ok none k') ∧
    (∃ k', kernelPush env exParse exPrint scratch exViewArr false k = .ok none k') ∧ ∃ out, kernelFinish true k = .ok (some (.native out)) k := by
  obtain ⟨k0, sch, k, h0, h1, -⟩ := exK_start env (str "visit_void_agg") (by decide) [] (fun h => absurd h (by decide))
  have hk : KernelOf exParse exPrint (str "visit_void_agg") exKSchema [] k := .start h0 h1
  obtain ⟨⟨out, e1, -⟩, e2⟩ := C68_visit exParse_nil exParse_E (.wkb .views) exKSchema_type k hk
  refine ⟨k, hk, ?_, e2 exViewArr exK_taken _ exViewArr_features env scratch false, out, e1⟩
  rw [C68_validates_wkb .views exKSchema_type k hk exBrokenArr (fun r hr =>
    C53_accepted .views _ (.inl rfl) r hr _ ⟨rfl, by decide, by decide, by decide, fun _ => rfl, fun i hi => by
      have hi' : i < 2 := by have : (i : Int) < 2 := hi; omega
      match i, hi' with
      | 0, _ => exact ⟨_, (exBroken_elements.2 0 _ rfl).2⟩
      | 1, _ => exact ⟨_, (exBroken_elements.2 1 _ rfl).2⟩⟩) _ exBroken_elements env scratch false]
  intro h
  obtain ⟨t, ht⟩ := h [1] (by simp)
  have hf : WkbRead [1] [] (.fail EINVAL) := by intro σ h s; rfl
  cases behaves_outcome ht hf

end Verif
