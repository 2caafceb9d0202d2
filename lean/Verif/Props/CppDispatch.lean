import Verif.Model.CppDispatch
import Verif.Props.CppInit
import Verif.Props.CppIter
/-!
# C79: generic C++ code is dispatched to the class of its array's type
-/
namespace Verif
open Verif.Spec

/-- The class that the documentation of `enum GeoArrowType` gives a type: arrays of a geometry type with some dimensions, or arrays of WKB. -/
inductive Spec.StandsFor : TypeId → CppClass → Prop
  | native (g : Int) (d : Dims) (k : CoordKind) : 1 ≤ g → g ≤ 6 → StandsFor (nativeId g d k) (.native g d.code)
  | wkb : StandsFor 100001 (.wkb false)

theorem resolve_native {g dims : Int} (hg : 1 ≤ g ∧ g ≤ 6) (hd : 1 ≤ dims ∧ dims ≤ 4) : cppResolveArray g dims = some (.native g dims) :=
  if_pos ⟨by omega, by omega⟩

theorem dispatchDims_eq {g dims : Int} (hg : 1 ≤ g ∧ g ≤ 6) : cppDispatchDims g dims = if 1 ≤ dims ∧ dims ≤ 4 then some (.native g dims) else none := by
  unfold cppDispatchDims
  split
  · rename_i h; subst h; rw [resolve_native hg (by decide)]; rfl
  · split
    · rename_i h; subst h; rw [resolve_native hg (by decide)]; rfl
    · split
      · rename_i h; subst h; rw [resolve_native hg (by decide)]; rfl
      · split
        · rename_i h; subst h; rw [resolve_native hg (by decide)]; rfl
        · rw [if_neg (by omega)]

theorem dispatchNative_eq (type : TypeId) : cppDispatchNative type =
    if 1 ≤ geometryTypeFromType type ∧ geometryTypeFromType type ≤ 6 ∧ 1 ≤ dimensionsFromType type ∧ dimensionsFromType type ≤ 4 then
      some (.native (geometryTypeFromType type) (dimensionsFromType type)) else none := by
  unfold cppDispatchNative
  dsimp only
  generalize geometryTypeFromType type = g
  generalize dimensionsFromType type = dims
  by_cases hg : 1 ≤ g ∧ g ≤ 6
  · have h6 : g = 1 ∨ g = 2 ∨ g = 3 ∨ g = 4 ∨ g = 5 ∨ g = 6 := by omega
    rcases h6 with rfl | rfl | rfl | rfl | rfl | rfl <;> simp [dispatchDims_eq]
  · rw [if_neg (by omega), if_neg (by omega), if_neg (by omega), if_neg (by omega), if_neg (by omega), if_neg (by omega), if_neg (by omega)]

theorem native_split {g : Int} {d : Dims} {k : CoordKind} (hg : 1 ≤ g ∧ g ≤ 6) :
    geometryTypeFromType (nativeId g d k) = g ∧ dimensionsFromType (nativeId g d k) = d.code ∧ nativeId g d k < 100001 ∧ 0 < nativeId g d k := by
  have h6 : g = 1 ∨ g = 2 ∨ g = 3 ∨ g = 4 ∨ g = 5 ∨ g = 6 := by omega
  rcases h6 with rfl | rfl | rfl | rfl | rfl | rfl <;> cases d <;> cases k <;> decide

theorem id_of_parts (type t q r : Int) (ht : type - 10000 = t ∨ type = t) (hq : 1000 * q + r = t) (hn : q = 0 ∨ q = 1 ∨ q = 2 ∨ q = 3) :
    ∃ (d : Dims) (k : CoordKind), type = nativeId r d k ∧ q + 1 = d.code := by
  have hd : ∃ d : Dims, q + 1 = d.code := by
    rcases hn with rfl | rfl | rfl | rfl
    · exact ⟨.xy, rfl⟩
    · exact ⟨.xyz, rfl⟩
    · exact ⟨.xym, rfl⟩
    · exact ⟨.xyzm, rfl⟩
  obtain ⟨d, hd⟩ := hd
  rcases ht with ht | ht
  · exact ⟨d, .interleaved, by unfold nativeId; rw [← hd]; simp only [CoordKind.code]; omega, hd⟩
  · exact ⟨d, .separate, by unfold nativeId; rw [← hd]; simp only [CoordKind.code]; omega, hd⟩

/-- For every number that may be passed as a type: generic code runs with the class of the type if it has one, and with nothing else; for any other number
(boxes, WKT, large and view types, numbers that are no types) an exception is thrown. -/
theorem C79_picks (type : TypeId) (c : CppClass) : cppDispatch type = some c ↔ StandsFor type c := by
  constructor
  · intro h
    unfold cppDispatch at h
    split at h
    · rename_i ht; subst ht; cases h; exact .wkb
    · split at h
      · cases h
      · rename_i h1 h2
        rw [dispatchNative_eq] at h
        split at h
        · rename_i hb
          cases h
          have hu : isUninitOrSerialized type = false := by
            cases hu : isUninitOrSerialized type
            · rfl
            · unfold geometryTypeFromType at hb
              rw [if_pos hu] at hb
              exact absurd hb.1 (by decide)
          have hd : ∃ (d : Dims) (k : CoordKind), type = nativeId (geometryTypeFromType type) d k ∧ dimensionsFromType type = d.code := by
            unfold geometryTypeFromType dimensionsFromType at hb ⊢
            rw [hu] at hb ⊢
            simp only [Bool.false_eq_true, ite_false] at hb ⊢
            generalize ht : (if type ≥ 10001 then type - 10000 else type) = t at hb ⊢
            have hq := Int.mul_tdiv_add_tmod t 1000
            generalize hqe : t.tdiv 1000 = q at hb hq ⊢
            generalize hre : t.tmod 1000 = r at hb hq ⊢
            have hr : 1 ≤ r ∧ r ≤ 6 := by
              unfold GT.box GT.geometry at hb
              split at hb
              · omega
              · split at hb <;> omega
            have hg : (if r = GT.box then GT.box else if r ≤ 6 ∧ r ≥ 1 then r else GT.geometry) = r := by
              rw [if_neg (by unfold GT.box; omega), if_pos (by omega)]
            rw [hg]
            have ht : type - 10000 = t ∨ type = t := by
              split at ht
              · exact .inl ht
              · exact .inr ht
            by_cases hn : q = 0 ∨ q = 1 ∨ q = 2 ∨ q = 3
            · obtain ⟨d, k, h3, h4⟩ := id_of_parts type t q r ht hq hn
              refine ⟨d, k, h3, ?_⟩
              rw [← h4]
              rcases hn with rfl | rfl | rfl | rfl <;> rfl
            · rw [if_neg (by omega), if_neg (by omega), if_neg (by omega), if_neg (by omega)] at hb
              omega
          obtain ⟨d, k, h3, h4⟩ := hd
          rw [h4]
          have := StandsFor.native (geometryTypeFromType type) d k hb.1 hb.2.1
          rwa [← h3] at this
        · cases h
  · intro h
    cases h with
    | native g d k h1 h6 =>
      obtain ⟨hg, hd, hlt, _⟩ := native_split (d := d) (k := k) ⟨h1, h6⟩
      have hne : ∀ x : Int, 100001 ≤ x → nativeId g d k ≠ x := fun x hx => by omega
      unfold cppDispatch
      rw [if_neg (hne _ (by decide)), if_neg (by rintro (h | h | h) <;> exact hne _ (by decide) h), dispatchNative_eq, hg, hd, if_pos ⟨h1, h6, by cases d <;> decide⟩]
    | wkb => rfl

/-- The traits of a type are those of its parts, and the type is that of its traits. -/
theorem C79_traits (g : Int) (d : Dims) (k : CoordKind) (hg : 1 ≤ g ∧ g ≤ 6) :
    cppTypeTraits (nativeId g d k) = some ⟨some (k.code, d.code, g), some d.cppT, some (.native g d.code)⟩ ∧
    cppTraitTypeId g d.code k.code = nativeId g d k ∧ cppTraitTypeId g d.code k.code = makeType g d.code k.code := by
  have h6 : g = 1 ∨ g = 2 ∨ g = 3 ∨ g = 4 ∨ g = 5 ∨ g = 6 := by omega
  rcases h6 with rfl | rfl | rfl | rfl | rfl | rfl <;> cases d <;> cases k <;> decide

/-- What is chosen when a program is compiled is what is chosen when it runs. -/
theorem C79_compile_time (type : TypeId) (c : CppClass) (h : cppDispatch type = some c) : ∃ t, cppTypeTraits type = some t ∧ t.array = some c := by
  cases (C79_picks type c).mp h with
  | native g d k h1 h6 => exact ⟨_, (C79_traits g d k ⟨h1, h6⟩).1, rfl⟩
  | wkb => exact ⟨_, rfl, rfl⟩

/-- For the serialized types, the class chosen at compile time is that for WKB with offsets of the type's width, with coordinates
that have room for all four ordinates; there is none for WKT. -/
theorem C79_traits_serialized :
    cppTypeTraits 100001 = some ⟨none, some Dims.xyzm.cppT, some (.wkb false)⟩ ∧
    cppTypeTraits 100002 = some ⟨none, some Dims.xyzm.cppT, some (.wkb true)⟩ ∧
    cppTypeTraits 100003 = some ⟨none, none, none⟩ ∧ cppTypeTraits 100004 = some ⟨none, none, none⟩ := by decide

/-- The reverse does not hold: `TypeTraits` has no specializations for views of WKB and WKT, and takes them for arrays of multilinestrings and
multipolygons. -/
theorem C79_view_types_misread :
    cppTypeTraits 100005 = some ⟨some (11, 1, 5), some ⟨false, false⟩, some (.native 5 1)⟩ ∧ cppDispatch 100005 = none ∧
    cppTypeTraits 100006 = some ⟨some (11, 1, 6), some ⟨false, false⟩, some (.native 6 1)⟩ ∧ cppDispatch 100006 = none := by decide

/-! ## What generic code sees -/

theorem whole_slice (a : CppArr) : a.slice 0 a.value.length = a := by
  obtain ⟨v, b⟩ := a
  cases v <;> simp [CppArr.slice, CppSq.slice, CppSq.set, CppSq.offset, CppSq.length]

theorem traitCoord_dims (d : Dims) : cppTraitCoord d.code = some d.cppT ∧ d.cppT.n = d.n := by cases d <;> decide

/-- Generic code that visits vertices, with any destination, of an array with features of any native type: it gets the vertices of the features that are
not null. -/
theorem C79_native (g : Int) (d : Dims) (k : CoordKind) (hg : 1 ≤ g ∧ g ≤ 6) (v0 v : AView) (hv : ViewOf (nativeId g d k) v0) (a : AArray)
    (hs : arrayViewSetArray a v0 = .ok () v) (fs : List (Option Geom)) (hl : a.length = fs.length)
    (hf : ∀ (t : Nat) (f : Option Geom), fs[t]? = some f → FeatureAt g d k a t f) (ps : Int → CppP) :
    (∀ dst : Dims, cppGenericVertices dst.cppT v ps = some (.visited ⟨(fs.filterMap id).flatMap (Geom.verticesAs dst), none⟩)) ∧
    cppGenericEdges v ps = some (.visited ⟨(fs.filterMap id).flatMap (Geom.edgesAs d), none⟩) := by
  have hp := viewOf_parts (validParts_of hg d k) rfl hv
  have hpv := hp.of_fixed (keeps_setArray a v0 v (by rw [hs]; rfl))
  have ht : v.schema.type = nativeId g d k := hpv.type
  have hdp : cppDispatch v.schema.type = some (.native g d.code) := by rw [ht]; exact (C79_picks _ _).mpr (.native g d k hg.1 hg.2)
  obtain ⟨arr, h1, h2⟩ := C71_vertices g d k hg v0 v hv a hs fs hl hf
  obtain ⟨arr', h1', h3⟩ := C71_edges g d k hg v0 v hv a hs fs hl hf
  rw [h1] at h1'
  cases h1'
  have hlen : arr.value.length = fs.length := by
    obtain ⟨h4, h5⟩ := native_elements hg hv hs hl hf (Nat.le_refl d.n)
    rw [h1] at h4
    cases h4
    exact h5.1
  have hall : arr.slice 0 (fs.length : Int) = arr := by rw [← hlen]; exact whole_slice arr
  obtain ⟨t1, t2⟩ := traitCoord_dims d
  refine ⟨fun dst => ?_, ?_⟩
  · have := h2 dst 0 fs.length (by omega)
    rw [Int.natCast_zero, hall, List.drop_zero, List.take_length] at this
    unfold cppGenericVertices
    rw [hdp]
    simp only [cppClassVertices, t1, t2, h1, this, Option.map_some]
  · have := h3 0 fs.length (by omega)
    rw [Int.natCast_zero, hall, List.drop_zero, List.take_length] at this
    unfold cppGenericEdges
    rw [hdp]
    simp only [cppClassEdges, t1, t2, h1, this, Option.map_some]

/-- The same of an array of WKB. -/
theorem C79_wkb (v0 v : AView) (hv : ViewOf 100001 v0) (a : AArray) (hs : arrayViewSetArray a v0 = .ok () v) (es : List (Option (List Byte)))
    (hl : a.length = es.length) (h0 : 0 ≤ a.offset) (he : ∀ (t : Nat) e, es[t]? = some e → ElementAt .offsets32 a t e) (fs : List (Option Geom))
    (hg : EncodedAs es fs) (ps : Int → CppP) :
    (∀ dst : Dims, cppGenericVertices dst.cppT v ps = some (.visited ⟨(fs.filterMap id).flatMap (Geom.verticesAs dst), none⟩)) ∧
    cppGenericEdges v ps = some (.visited ⟨(fs.filterMap id).flatMap (Geom.edgesAs .xyzm), none⟩) := by
  have ht : v.schema.type = 100001 := viewOf_serialized (.setArray hv (by rw [hs]; rfl))
  have hdp : cppDispatch v.schema.type = some (.wkb false) := by rw [ht]; rfl
  obtain ⟨-, h1⟩ := C71_wkb v0 v hv a hs es hl h0 he
  refine ⟨fun dst => ?_, ?_⟩
  · unfold cppGenericVertices
    rw [hdp]
    simp only [cppClassVertices, (h1 fs hg ps dst).1, Option.map_some]
  · unfold cppGenericEdges
    rw [hdp]
    have : (⟨true, true⟩ : CppCoordT) = Dims.xyzm.cppT := rfl
    simp only [cppClassEdges, this, (h1 fs hg ps .xyzm).2, Option.map_some]

/-- Generic code does not see in which of the supported forms the features are stored: any native type that fits them, any kind of coordinates, or WKB in
any byte order. -/
theorem C79_same_in_every_form (fs : List (Option Geom)) (g : Int) (d : Dims) (k : CoordKind) (hg : 1 ≤ g ∧ g ≤ 6) (v0 v : AView)
    (hv : ViewOf (nativeId g d k) v0) (a : AArray) (hs : arrayViewSetArray a v0 = .ok () v) (hl : a.length = fs.length)
    (hf : ∀ (t : Nat) (f : Option Geom), fs[t]? = some f → FeatureAt g d k a t f) (w0 w : AView) (hw : ViewOf 100001 w0) (b : AArray)
    (hb : arrayViewSetArray b w0 = .ok () w) (es : List (Option (List Byte))) (hbl : b.length = es.length) (h0 : 0 ≤ b.offset)
    (he : ∀ (t : Nat) e, es[t]? = some e → ElementAt .offsets32 b t e) (hen : EncodedAs es fs) (dst : Dims) (ps qs : Int → CppP) :
    ∃ r, cppGenericVertices dst.cppT v ps = some r ∧ cppGenericVertices dst.cppT w qs = some r :=
  ⟨_, (C79_native g d k hg v0 v hv a hs fs hl hf ps).1 dst, (C79_wkb w0 w hw b hb es hbl h0 he fs hen qs).1 dst⟩

/-- For views of any other type nothing is visited. -/
theorem C79_throws (v : AView) (h : ¬ ∃ c, StandsFor v.schema.type c) (dst : CppCoordT) (ps : Int → CppP) :
    (match cppGenericVertices dst v ps with | some .threw => True | _ => False) ∧ (match cppGenericEdges v ps with | some .threw => True | _ => False) := by
  have : cppDispatch v.schema.type = none := by
    cases hc : cppDispatch v.schema.type with
    | none => rfl
    | some c => exact absurd ⟨c, (C79_picks _ _).mp hc⟩ h
  unfold cppGenericVertices cppGenericEdges
  rw [this]
  exact ⟨trivial, trivial⟩

/-! ## Examples -/

-- dispatch with run-time values: a multipolygon of interleaved XYM coordinates, WKB, a box
example : cppDispatch 12006 = some (.native 6 3) := by decide
example : cppDispatch 100001 = some (.wkb false) := by decide
example : cppDispatch 990 = none ∧ cppDispatch 100002 = none ∧ cppDispatch 20001 = none ∧ cppDispatch (-5) = none := by decide
example : StandsFor 12006 (.native 6 3) := .native 6 .xym .interleaved (by decide) (by decide)
example : ¬ ∃ c, StandsFor 990 c := by
  rintro ⟨c, h⟩
  have := (C79_picks 990 c).mpr h
  exact absurd this (by have : cppDispatch 990 = none := by decide
                        rw [this]; exact fun h => nomatch h)

/-- LINESTRING (3 1, 2 2) and null, stored natively (`exLineArr`) and as big-endian WKB. -/
def exLineFeatures : List (Option Geom) := [some (.linestring .xy [[dbl3, dbl1], [dbl2, dbl2]]), none]
def exLineBlob : List Byte := [0, 0, 0, 0, 2] ++ wkbU32 true 2 ++ wkbCoords true [[dbl3, dbl1], [dbl2, dbl2]]
def exLineWkbArr : AArray := .mk 2 1 0 [some [0b1#8], some ([0, 41, 41].flatMap (leBytes 4)), some exLineBlob] []

example (ps qs : Int → CppP) : ∃ v w0 w r, arrayViewSetArray exLineArr exLineView = .ok () v ∧ ViewOf 100001 w0 ∧
    arrayViewSetArray exLineWkbArr w0 = .ok () w ∧ cppGenericVertices Dims.xyz.cppT v ps = some r ∧ cppGenericVertices Dims.xyz.cppT w qs = some r := by
  obtain ⟨v, hv⟩ := exLine_set
  obtain ⟨w0, h1, -, h2⟩ := C55_serialized_buffers_unchecked
  obtain ⟨w, h3⟩ := h2 2 1 0 (some [0b1#8]) (some ([0, 41, 41].flatMap (leBytes 4))) (some exLineBlob) []
  obtain ⟨r, hr, hr'⟩ := C79_same_in_every_form exLineFeatures 2 .xy .interleaved (by decide) exLineView v exLineView_of exLineArr hv rfl
    (fun t f h => by have := exLine_features t f h; rwa [Nat.zero_add] at this) w0 w h1 exLineWkbArr h3 [some exLineBlob, none] rfl (by decide)
    (fun t e h => by
      match t, h with
      | 0, rfl =>
        exact ⟨.inr ⟨_, rfl, by decide, by decide +kernel⟩, _, 0, 41, rfl, by decide +kernel, by decide +kernel,
          .inl ⟨_, rfl, by decide, by decide +kernel, by decide +kernel⟩⟩
      | 1, rfl => exact ⟨_, rfl, by decide, by decide +kernel⟩)
    ⟨_, _, rfl, ⟨true, [0, 0, 0, 0, 2], by decide, by decide, .inl (by decide +kernel), rfl⟩, by decide, _, rfl, rfl⟩ .xyz ps qs
  exact ⟨v, w0, w, r, hv, h1, h3, hr, hr'⟩

end Verif
