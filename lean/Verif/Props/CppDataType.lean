import Verif.Proof.CppDataType
import Verif.Props.ArrayWriter
/-!
# C67: data types of the C++ API keep what they are not told to change
-/
namespace Verif
open Spec

attribute [local irreducible] crsWgs84

theorem typeNumber {g dims c : Int} (h : ValidParts g dims c) : makeType g dims c = (dims - 1) * 1000 + (c - 1) * 10000 + g := by
  obtain ⟨a, b, h⟩ := h
  unfold makeType GT.geometry GT.box
  rw [if_neg (by omega), if_neg (by omega), if_neg (by omega), if_neg (by omega)]

theorem sound_enumerated {d : DType} (h : d.Sound) : Enumerated d.geometryType d.dimensions d.coordType := by
  rw [h.geometry, h.dims, h.coord]
  exact parts_range d.type

theorem withParts' {d : DType} (h : d.Sound) {g dims c : Int} (hE : Enumerated g dims c) (heap : Nat → Byte) :
    (ValidParts g dims c → ∃ d', Gives (fun n => (dtExtensionMetadata heap d).bind fun m => dtMakeParts n g dims c m) d' ∧ Obtained d' ∧
      HasParts d' ((dims - 1) * 1000 + (c - 1) * 10000 + g) g dims c ∧ SameMetadata d d') ∧
    (¬ ValidParts g dims c → Throws (fun n => (dtExtensionMetadata heap d).bind fun m => dtMakeParts n g dims c m)) := by
  obtain ⟨h1, h2⟩ := withParts h hE heap
  refine ⟨fun hv => ?_, h2⟩
  obtain ⟨d', ⟨n0, hg⟩, hp, hs⟩ := h1 hv
  rw [typeNumber hv] at hp
  refine ⟨d', ⟨n0, hg⟩, ?_, hp, hs⟩
  have := hg n0 (Nat.le_refl _)
  dsimp only at this
  rw [extensionMetadata_ok h] at this
  unfold CppRes.bind dtMakeParts at this
  dsimp only at this
  split at this
  · cases this
  · exact .type this

/-- `WithGeometryType` with any constant of the enumeration: if there is a type of these parts, a data type of that geometry type, with the
other parts, the edge type, the CRS type and the CRS unchanged; otherwise an exception. -/
theorem C67_with_geometry_type {d : DType} (h : Obtained d) (g : Int) (hg : 0 ≤ g ∧ g ≤ 7 ∨ g = 990) (heap : Nat → Byte) :
    (ValidParts g d.dimensions d.coordType → ∃ d', Gives (fun n => dtWithGeometryType heap n g d) d' ∧ Obtained d' ∧
      HasParts d' ((d.dimensions - 1) * 1000 + (d.coordType - 1) * 10000 + g) g d.dimensions d.coordType ∧ SameMetadata d d') ∧
    (¬ ValidParts g d.dimensions d.coordType → Throws (fun n => dtWithGeometryType heap n g d)) :=
  withParts' (obtained_sound h) ⟨hg, (sound_enumerated (obtained_sound h)).2⟩ heap

/-- The same for `WithDimensions`, which `XY()`, `XYZ()`, `XYM()` and `XYZM()` call. -/
theorem C67_with_dimensions {d : DType} (h : Obtained d) (dims : Int) (hd : 0 ≤ dims ∧ dims ≤ 4) (heap : Nat → Byte) :
    (ValidParts d.geometryType dims d.coordType → ∃ d', Gives (fun n => dtWithDimensions heap n dims d) d' ∧ Obtained d' ∧
      HasParts d' ((dims - 1) * 1000 + (d.coordType - 1) * 10000 + d.geometryType) d.geometryType dims d.coordType ∧ SameMetadata d d') ∧
    (¬ ValidParts d.geometryType dims d.coordType → Throws (fun n => dtWithDimensions heap n dims d)) :=
  withParts' (obtained_sound h) ⟨(sound_enumerated (obtained_sound h)).1, hd, (sound_enumerated (obtained_sound h)).2.2⟩ heap

/-- The same for `WithCoordType`. -/
theorem C67_with_coord_type {d : DType} (h : Obtained d) (c : Int) (hc : 0 ≤ c ∧ c ≤ 2) (heap : Nat → Byte) :
    (ValidParts d.geometryType d.dimensions c → ∃ d', Gives (fun n => dtWithCoordType heap n c d) d' ∧ Obtained d' ∧
      HasParts d' ((d.dimensions - 1) * 1000 + (c - 1) * 10000 + d.geometryType) d.geometryType d.dimensions c ∧ SameMetadata d d') ∧
    (¬ ValidParts d.geometryType d.dimensions c → Throws (fun n => dtWithCoordType heap n c d)) :=
  withParts' (obtained_sound h) ⟨(sound_enumerated (obtained_sound h)).1, (sound_enumerated (obtained_sound h)).2.1, hc⟩ heap

/-- `Simple` and `Multi` of a data type that has a geometry type between point and multipolygon; for others they throw. -/
theorem C67_simple_multi {d : DType} (h : Obtained d) (heap : Nat → Byte) :
    (ValidParts d.geometryType d.dimensions d.coordType ∧ d.geometryType ≠ 990 →
      (∃ d', Gives (fun n => dtSimple heap n d) d' ∧ Obtained d' ∧ SameMetadata d d' ∧ d'.dimensions = d.dimensions ∧ d'.coordType = d.coordType ∧
        d'.geometryType = if d.geometryType ≤ 3 then d.geometryType else d.geometryType - 3) ∧
      (∃ d', Gives (fun n => dtMulti heap n d) d' ∧ Obtained d' ∧ SameMetadata d d' ∧ d'.dimensions = d.dimensions ∧ d'.coordType = d.coordType ∧
        d'.geometryType = if d.geometryType ≤ 3 then d.geometryType + 3 else d.geometryType)) ∧
    (¬ (1 ≤ d.geometryType ∧ d.geometryType ≤ 6) → Throws (fun n => dtSimple heap n d) ∧ Throws (fun n => dtMulti heap n d)) := by
  constructor
  · rintro ⟨⟨h1, h2, h3⟩, h4⟩
    have hg : 1 ≤ d.geometryType ∧ d.geometryType ≤ 6 ∧ 1 ≤ d.coordType ∧ d.coordType ≤ 2 := by omega
    have step : ∀ g, 1 ≤ g ∧ g ≤ 6 → ∃ d', Gives (fun n => dtWithGeometryType heap n g d) d' ∧ Obtained d' ∧ SameMetadata d d' ∧
        d'.dimensions = d.dimensions ∧ d'.coordType = d.coordType ∧ d'.geometryType = g := by
      intro g hg'
      obtain ⟨d', a, b, c, e⟩ := (C67_with_geometry_type h g (.inl (by omega)) heap).1 ⟨h1, h2, .inl ⟨hg'.1, hg'.2, hg.2.2⟩⟩
      exact ⟨d', a, b, e, c.2.2.1, c.2.2.2, c.2.1⟩
    obtain ⟨g1, g2, -⟩ := hg
    unfold dtSimple dtMulti GT.point GT.multipoint GT.linestring GT.multilinestring GT.polygon GT.multipolygon
    have hcase : d.geometryType = 1 ∨ d.geometryType = 2 ∨ d.geometryType = 3 ∨ d.geometryType = 4 ∨ d.geometryType = 5 ∨ d.geometryType = 6 := by omega
    rcases hcase with e | e | e | e | e | e
    all_goals
      rw [e]
      exact ⟨step _ (by decide), step _ (by decide)⟩
  · intro hg
    unfold dtSimple dtMulti GT.point GT.multipoint GT.linestring GT.multilinestring GT.polygon GT.multipolygon
    refine ⟨⟨0, fun n _ => ?_⟩, ⟨0, fun n _ => ?_⟩⟩
    all_goals
      dsimp only
      rw [if_neg (by omega), if_neg (by omega), if_neg (by omega)]

/-- The schema that `InitSchema` makes gives the same data type back, if `Make` is called with it; `InitSchema` throws exactly for numbers
that are not documented type identifiers. -/
theorem C67_schema {d : DType} (h : Obtained d) (heap : Nat → Byte) :
    (d.type ∈ nativeTypes ++ serializedTypes → ∃ s, dtInitSchema heap d = .ok s ∧ ∀ after, ∃ d', Gives (fun n => dtMakeSchema after n s) d' ∧
      HasParts d' d.type d.geometryType d.dimensions d.coordType ∧ SameMetadata d d') ∧
    (d.type ∉ nativeTypes ++ serializedTypes → dtInitSchema heap d = .throws) := by
  refine ⟨fun ht => initSchema_ok (obtained_sound h) ht heap, fun ht => ?_⟩
  unfold dtInitSchema
  cases hs : schemaInitExtension d.type with
  | error rc => rfl
  | ok s => exact absurd ((C03_created_types d.type).mp ⟨s, hs⟩) ht

/-- The storage schema, the extension name and the metadata give the same data type back. -/
theorem C67_storage {d : DType} (h : Obtained d) (ht : d.type ∈ nativeTypes ++ serializedTypes) (heap : Nat → Byte) :
    ∃ s name text, dtInitStorageSchema d = .ok s ∧ dtExtensionName d = .ok name ∧ dtExtensionMetadata heap d = .ok text ∧
      ∃ d', Gives (fun n => dtMakeStorage n s name text) d' ∧ HasParts d' d.type d.geometryType d.dimensions d.coordType ∧ SameMetadata d d' := by
  have hd := obtained_sound h
  have hs : ∃ s, schemaInit d.type = .ok s := by
    obtain ⟨s, hs⟩ := (C03_created_types d.type).mpr ht
    unfold schemaInitExtension at hs
    split at hs
    · cases hs
    · split at hs
      · cases hs
      next s' e => exact ⟨s', e⟩
  obtain ⟨s, hs⟩ := hs
  obtain ⟨nm, hn, hv⟩ := C03_storage_view_of_created d.type s hs svZero
  obtain ⟨n0, hw⟩ := hd.views.2
  refine ⟨s, str nm, mdBytes d.md, by unfold dtInitStorageSchema; rw [hs], by unfold dtExtensionName; rw [hn], extensionMetadata_ok hd heap,
    ⟨d.type, d.geometryType, d.dimensions, d.coordType, storedView d.md⟩, ⟨n0, fun n hn0 => ?_⟩, ⟨rfl, rfl, rfl, rfl⟩, hd.same rfl⟩
  dsimp only
  unfold dtMakeStorage
  rw [hv]
  simp only [CppRes.ofView, CppRes.bind, hw n hn0, CppRes.ofParse, DType.new]
  rw [hd.geometry, hd.dims, hd.coord]

/-- What the functions say that change metadata only. -/
theorem C67_metadata (d : DType) (e t : Int) (crs : List Byte) :
    (let d' := dtWithEdgeType e d; HasParts d' d.type d.geometryType d.dimensions d.coordType ∧ d'.md.edge = e ∧ d'.md.crsType = d.md.crsType ∧
      d'.md.crs = d.md.crs) ∧
    (let d' := dtWithCrs crs t d; HasParts d' d.type d.geometryType d.dimensions d.coordType ∧ d'.md.edge = d.md.edge ∧ d'.md.crsType = t ∧
      (crs.head? ≠ some 34 → CrsIs d' crs) ∧ (∀ w u, crs = [34] ++ w ++ [34] → Unescaped w u → CrsIs d' u)) ∧
    (let d' := dtWithCrsLonLat d; HasParts d' d.type d.geometryType d.dimensions d.coordType ∧ d'.md.edge = d.md.edge ∧ d'.md.crsType = 2 ∧
      CrsIs d' crsWgs84) := by
  refine ⟨⟨⟨rfl, rfl, rfl, rfl⟩, rfl, rfl, rfl⟩, ⟨⟨rfl, rfl, rfl, rfl⟩, rfl, rfl, fun h => HasText.crsIs (hasText_plain h), fun w u e hu => HasText.crsIs ?_⟩,
    ⟨rfl, rfl, rfl, rfl⟩, rfl, rfl, HasText.crsIs (hasText_plain (by rw [dtWithCrsLonLat_md]; show crsWgs84.head? ≠ _; rw [lonlat_head]; decide))⟩
  show HasText crs u
  rw [e]
  exact hasText_quoted hu

/-! ## Storing metadata in a schema -/

/-- Two schemas that differ in nothing but the entries of the root for one key, of which the second has exactly one, with this value. -/
def OnlyEntry (key value : List Byte) (s s' : ASchema) : Prop :=
  s'.format = s.format ∧ s'.name = s.name ∧ s'.flags = s.flags ∧ s'.children = s.children ∧ s'.dictionary = s.dictionary ∧
    s'.metadata.filter (fun kv => kv.1 ≠ key) = s.metadata.filter (fun kv => kv.1 ≠ key) ∧
    s'.metadata.filter (fun kv => kv.1 = key) = [(key, value)]

theorem onlyEntry_set (key value : List Byte) (s : ASchema) : OnlyEntry key value s (s.setMetadata (metadataSet key value s.metadata)) := by
  obtain ⟨f, n, m, fl, c, d⟩ := s
  exact ⟨rfl, rfl, rfl, rfl, rfl, metadataSet_filter _ _ _, metadataSet_one _ _ _⟩

/-- `GeoArrowSchemaSetMetadata` with any metadata and any schema stays within the memory it allocates and changes nothing but the entry for
the extension metadata, of which there is one afterwards. If the edge type and the CRS type are constants of the enumerations and the CRS
is storable, that entry is viewed as the same edge type, CRS type and CRS. -/
theorem C45_schema (heap : Nat → Byte) (s : ASchema) (w : MdView) :
    ∃ s' text, schemaSetMetadata heap s w = some s' ∧ OnlyEntry (str "ARROW:extension:metadata") text s s' ∧
      (0 ≤ w.edge ∧ w.edge ≤ 5 → 0 ≤ w.crsType ∧ w.crsType ≤ 5 → (w.crsType ≠ 0 → StorableCrs w.crs) →
        ∃ w', Views text w' ∧ w'.edge = w.edge ∧ w'.crsType = w.crsType ∧
          (w.crsType ≠ 0 → ∃ crs, CrsText w.crs crs ∧ CrsText w'.crs crs)) := by
  obtain ⟨text, ht⟩ := mdAlloc_some w heap
  refine ⟨_, text, by unfold schemaSetMetadata; rw [ht]; rfl, onlyEntry_set _ _ _, fun he hc hs => ?_⟩
  have hk : w.crsType ≠ 0 → KeepsCrs w.crs := fun h0 => keeps_of_storable (hs h0)
  rw [mdAlloc_ok (KeepsCrs.noBackslashes hk)] at ht
  cases ht
  refine ⟨storedView w, views_written w he hc fun h0 => ?_, rfl, rfl, fun h0 => ?_⟩
  · obtain ⟨_, _, _, h⟩ := (hk h0).hasText
    exact h
  · obtain ⟨crs, h1, h2, _⟩ := (hk h0).hasText
    refine ⟨crs, h1.is, ?_⟩
    unfold storedView
    dsimp only
    rw [if_neg h0]
    exact h2.is

example : ∃ s', schemaSetMetadata (fun _ => 0) (.mk (some (str "z")) none [(str "a", []), (str "ARROW:extension:metadata", []), (str "ARROW:extension:metadata", [1])] 2 [] false)
    ⟨1, 4, str "EPSG:1"⟩ = some s' ∧ s'.metadata = [(str "a", []), (str "ARROW:extension:metadata",
      str "{\"edges\":\"spherical\",\"crs_type\":\"authority_code\",\"crs\":\"EPSG:1\"}")] :=
  ⟨_, rfl, by decide +kernel⟩

/-- `GeoArrowSchemaSetMetadataFrom` changes nothing but the entry for the extension metadata, of which there is one afterwards, with the
value in the other schema, empty if it has none; it fails exactly if the other schema cannot be viewed. -/
theorem C62_metadata_from (s src : ASchema) :
    match naInit src with
    | none => schemaSetMetadataFrom s src = .error EINVAL
    | some _ => ∃ s', schemaSetMetadataFrom s src = .ok s' ∧
        OnlyEntry (str "ARROW:extension:metadata") ((firstValue "ARROW:extension:metadata" src).getD []) s s' := by
  unfold schemaSetMetadataFrom
  cases h : naInit src with
  | none => rfl
  | some na =>
    dsimp only
    rw [naInit_metadata h, metadataGet_first]
    exact ⟨_, rfl, onlyEntry_set _ _ _⟩

/-! ## `ToString` -/

/-- The part of `ToString` before the CRS. -/
def headOf (type edge : Int) : List Byte :=
  (((if type = 100004 ∨ type = 100002 then [str "large"] else []) ++ (if type = 100006 ∨ type = 100005 then [str "view"] else []) ++
    (if edge ≠ 0 then [edgeString edge] else []) ++ (if coordTypeFromType type = 2 then [str "interleaved"] else [])).flatMap fun m => m ++ str " ") ++
  ((extensionNameFromType type).map str).getD [] ++
  (if dimensionsFromType type = 0 ∨ dimensionsFromType type = 1 then [] else str "_" ++ (dimensionsString (dimensionsFromType type)).drop 2)

/-- All pairs of a type and an edge type. -/
def headPairs : List (Int × Int) := (nativeTypes ++ serializedTypes).flatMap fun t => [0, 1, 2, 3, 4, 5].map fun e => (t, e)

/-- A text as a number. -/
def textCode : List Byte → Nat → Nat
  | [], acc => acc
  | b :: s, acc => textCode s (acc * 256 + b.toNat)

theorem headCode_injective : (headPairs.all fun a => headPairs.all fun b =>
    Nat.beq (textCode (headOf a.1 a.2) 0) (textCode (headOf b.1 b.2) 0) == (Nat.beq a.1.toNat b.1.toNat && Nat.beq a.2.toNat b.2.toNat)) = true := by
  decide +kernel

theorem headPairs_nonneg : ∀ a ∈ headPairs, 0 ≤ a.1 ∧ 0 ≤ a.2 := by decide +kernel

theorem headOf_injective (a : Int × Int) (ha : a ∈ headPairs) (b : Int × Int) (hb : b ∈ headPairs) (h : headOf a.1 a.2 = headOf b.1 b.2) : a = b := by
  have := List.all_eq_true.mp (List.all_eq_true.mp headCode_injective a ha) b hb
  rw [h] at this
  simp only [Nat.beq_refl, beq_iff_eq] at this
  have h2 := (Bool.and_eq_true _ _ ▸ this.symm)
  have h3 := Nat.eq_of_beq_eq_true h2.1
  have h4 := Nat.eq_of_beq_eq_true h2.2
  have := headPairs_nonneg a ha
  have := headPairs_nonneg b hb
  exact Prod.ext (by omega) (by omega)

theorem headOf_bounds : ∀ a ∈ headPairs, (60 : Byte) ∉ headOf a.1 a.2 ∧ (headOf a.1 a.2).length ≤ 50 := by decide +kernel

theorem pair_mem {d : DType} (h : d.Sound) (ht : d.type ∈ nativeTypes ++ serializedTypes) : (d.type, d.md.edge) ∈ headPairs := by
  refine List.mem_flatMap.mpr ⟨d.type, ht, List.mem_map.mpr ⟨d.md.edge, ?_, rfl⟩⟩
  have := h.edge
  simp only [List.mem_cons, List.not_mem_nil, or_false]
  omega

theorem toString_head {d : DType} (h : d.Sound) (heap : Nat → Byte) {max : Nat} (hm : 5 ≤ max) :
    ∃ tail, dtToString heap max d = .ok (headOf d.type d.md.edge ++ tail) ∧ tail.length ≤ max ∧ (tail = [] ∨ tail.head? = some 60) := by
  have hc : ∃ c, (if d.md.crsType = 0 then (.ok [] : CppRes (List Byte))
      else if d.md.crsType = 1 then dtCrs heap d
      else (dtCrs heap d).bind fun c => .ok (crsTypeString d.md.crsType ++ str ":" ++ c)) = .ok c := by
    by_cases h0 : d.md.crsType = 0
    · exact ⟨[], by rw [if_pos h0]⟩
    rw [if_neg h0]
    obtain ⟨text, ht, -⟩ := (h.crs h0).hasText
    rw [ht.crsIs heap]
    split
    · exact ⟨text, rfl⟩
    · exact ⟨_, rfl⟩
  obtain ⟨c, hc⟩ := hc
  obtain ⟨nm, hn⟩ : ∃ nm, extensionNameFromType d.type = some nm := by
    cases e : extensionNameFromType d.type with
    | none => exact absurd e h.named
    | some nm => exact ⟨nm, rfl⟩
  refine ⟨(let c := if c ≠ [] then str "<" ++ c ++ str ">" else c
    if max ≤ c.length then (if max < 4 then c else c.take (max - 4)) ++ str "...>" else c), ?_, ?_, ?_⟩
  · unfold dtToString
    rw [if_neg h.nonzero]
    unfold dtExtensionName
    rw [hn]
    simp only [CppRes.bind] at hc ⊢
    rw [hc]
    simp only [headOf, hn, Option.map_some, Option.getD_some, h.dims, h.coord, List.append_assoc]
  · by_cases hc0 : c ≠ []
    · simp only [if_pos hc0, if_neg (show ¬ max < 4 by omega)]
      split
      · simp only [List.length_append, List.length_take, str, List.length_map]
        simp only [List.length_append, str, List.length_map] at *
        have : "...>".toList.length = 4 := by decide
        omega
      · omega
    · simp only [if_neg hc0]
      have : c = [] := Decidable.not_not.mp hc0
      subst this
      rw [if_neg (by simp only [List.length_nil]; omega)]
      simp
  · by_cases hc0 : c ≠ []
    · simp only [if_pos hc0, if_neg (show ¬ max < 4 by omega)]
      right
      split
      · obtain ⟨k, hk⟩ : ∃ k, max - 4 = k + 1 := ⟨max - 5, by omega⟩
        rw [hk]
        rfl
      · rfl
    · simp only [if_neg hc0]
      have : c = [] := Decidable.not_not.mp hc0
      subst this
      rw [if_neg (by simp only [List.length_nil]; omega)]
      exact .inl rfl

theorem head_of_text {a b s t : List Byte} (ha : (60 : Byte) ∉ a) (hb : (60 : Byte) ∉ b) (hs : s = [] ∨ s.head? = some 60)
    (ht : t = [] ∨ t.head? = some 60) (h : a ++ s = b ++ t) : a = b := by
  induction a generalizing b with
  | nil =>
    cases b with
    | nil => rfl
    | cons x b =>
      rw [List.nil_append] at h
      subst h
      rcases hs with h | h
      · cases h
      · simp only [List.cons_append, List.head?_cons, Option.some.injEq] at h
        subst h
        simp at hb
  | cons y a ih =>
    cases b with
    | nil =>
      rw [List.nil_append] at h
      subst h
      rcases ht with h | h
      · cases h
      · simp only [List.cons_append, List.head?_cons, Option.some.injEq] at h
        subst h
        simp at ha
    | cons x b =>
      simp only [List.cons_append, List.cons.injEq] at h
      simp only [List.mem_cons, not_or] at ha hb
      rw [h.1, ih ha.2 hb.2 h.2]

/-- `ToString` of a data type with a documented type and a limit of at least five characters: it returns a text that is at most fifty
characters longer than the limit, and data types for which it returns the same text have the same type and the same edge type, whatever
their CRSs are. -/
theorem C67_to_string {d d' : DType} (h : Obtained d) (h' : Obtained d') (ht : d.type ∈ nativeTypes ++ serializedTypes)
    (ht' : d'.type ∈ nativeTypes ++ serializedTypes) (heap heap' : Nat → Byte) {max max' : Nat} (hm : 5 ≤ max) (hm' : 5 ≤ max') :
    ∃ text text', dtToString heap max d = .ok text ∧ dtToString heap' max' d' = .ok text' ∧ text.length ≤ max + 50 ∧
      (text = text' → d.type = d'.type ∧ d.md.edge = d'.md.edge) := by
  have hd := obtained_sound h
  have hd' := obtained_sound h'
  obtain ⟨tail, e, hl, hh⟩ := toString_head hd heap hm
  obtain ⟨tail', e', -, hh'⟩ := toString_head hd' heap' hm'
  have b := headOf_bounds _ (pair_mem hd ht)
  have b' := headOf_bounds _ (pair_mem hd' ht')
  refine ⟨_, _, e, e', by rw [List.length_append]; have := b.2; dsimp only at this; omega, fun eq => ?_⟩
  have := headOf_injective _ (pair_mem hd ht) _ (pair_mem hd' ht') (head_of_text b.1 b'.1 hh hh' eq)
  simp only [Prod.mk.injEq] at this
  exact this

/-! ## Cases -/

/-- Interleaved linestrings with spherical edges and a CRS. -/
def exDType : CppRes DType := dtMakeType 50 10002 (str "{\"edges\": \"spherical\", \"crs\": \"EPSG:4267\", \"crs_type\": \"authority_code\"}")

example : exDType = .ok ⟨10002, 2, 1, 2, ⟨1, 4, str "\"EPSG:4267\""⟩⟩ := by decide +kernel
example : (exDType.bind fun d => dtWithDimensions (fun _ => 0) 60 2 d) = .ok ⟨11002, 2, 2, 2, ⟨1, 4, str "\"EPSG:4267\""⟩⟩ := by decide +kernel
example : (exDType.bind fun d => dtWithGeometryType (fun _ => 0) 60 990 d) = .throws := by decide +kernel
example : ValidParts 2 2 2 ∧ ¬ ValidParts 990 1 2 := ⟨⟨by decide, by decide, .inl (by decide)⟩, fun h => by unfold ValidParts at h; omega⟩
example : (exDType.bind fun d => dtToString (fun _ => 0) 40 d) = .ok (str "spherical interleaved geoarrow.linestring<authority_code:EPSG:4267>") := by
  decide +kernel
example : (exDType.bind fun d => dtToString (fun _ => 0) 10 d) = .ok (str "spherical interleaved geoarrow.linestring<autho...>") := by
  decide +kernel
example : StorableCrs (str "OGC:CRS84") := .inr ⟨by decide, by decide, by decide⟩

/-- CRSs that are not storable: one that holds the text of other metadata. Asking for other dimensions changes the edge type. -/
theorem C67_not_storable_witness :
    ∃ d, dtMakeType 50 1 [] = .ok d ∧ d.md.edge = 0 ∧
      ((dtWithDimensions (fun _ => 0) 60 2 (dtWithCrs (str "{},\"edges\":\"karney\",\"a\":{}") 2 d)).bind fun d' => .ok d'.md.edge) = .ok 5 ∧
      -- a backslash: the text of the CRS changes
      (dtCrs (fun _ => 0) (dtWithCrs (str "a\\b") 1 d) = .ok (str "a\\b") ∧
        ((dtWithDimensions (fun _ => 0) 60 2 (dtWithCrs (str "a\\b") 1 d)).bind fun d' => dtCrs (fun _ => 0) d') ≠ .ok (str "a\\b")) ∧
      -- a CRS whose type says that there is none is lost
      (((dtWithDimensions (fun _ => 0) 60 2 (dtWithCrs (str "{}") 0 d)).bind fun d' => dtCrs (fun _ => 0) d') = .ok []) :=
  ⟨⟨1, 1, 1, 1, ⟨0, 0, []⟩⟩, by decide +kernel, by decide, by decide +kernel, by decide +kernel, by decide +kernel⟩

/-- A limit of zero: a data type without a CRS is printed as if it had one. -/
theorem C67_short_limit_witness :
    ((dtMakeType 50 1 []).bind fun d => dtToString (fun _ => 0) 0 d) = .ok (str "geoarrow.point...>") := by decide +kernel

end Verif
