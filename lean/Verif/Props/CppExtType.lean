import Verif.Spec.CppExtType
import Verif.Props.CppDataType
import Verif.Props.CppReader
/-!
# C80: extension types of Arrow C++ say what their storage is
-/
namespace Verif
open Spec

attribute [local irreducible] crsWgs84

variable {T : Type}

/-! ## Names -/

theorem names_with_prefix : ∀ t ∈ nativeTypes ++ serializedTypes, ∀ nm, extensionNameFromType t = some nm →
    nm ∈ ["geoarrow.wkb", "geoarrow.wkt", "geoarrow.box", "geoarrow.point", "geoarrow.linestring", "geoarrow.polygon", "geoarrow.multipoint",
      "geoarrow.multilinestring", "geoarrow.multipolygon"] := by
  intro t ht nm h
  have : ∀ t ∈ nativeTypes ++ serializedTypes, ((extensionNameFromType t).all fun nm => nm ∈ ["geoarrow.wkb", "geoarrow.wkt", "geoarrow.box",
      "geoarrow.point", "geoarrow.linestring", "geoarrow.polygon", "geoarrow.multipoint", "geoarrow.multilinestring", "geoarrow.multipolygon"]) = true := by
    decide +kernel
  have h2 := this t ht
  rw [h] at h2
  exact of_decide_eq_true h2

theorem wkb_prefix {name x : List Byte} (h : IsExtensionName name) (e : name = str "geoarrow.wkb" ++ x) : x = [] := by
  obtain ⟨t, nm, ht, hn, rfl⟩ := h
  have hm := names_with_prefix t ht nm hn
  have key : ∀ nm ∈ ["geoarrow.wkb", "geoarrow.wkt", "geoarrow.box", "geoarrow.point", "geoarrow.linestring", "geoarrow.polygon",
      "geoarrow.multipoint", "geoarrow.multilinestring", "geoarrow.multipolygon"], (str nm).take 12 = str "geoarrow.wkb" → (str nm).drop 12 = [] := by
    decide +kernel
  have h12 : (str "geoarrow.wkb").length = 12 := by decide +kernel
  have h1 := key nm hm (by rw [e, ← h12, List.take_left])
  rw [e, ← h12, List.drop_left] at h1
  exact h1

theorem describes_name {name : List Byte} {s : ASchema} {v : SView} (hn : IsExtensionName name) (h : Describes name s v) :
    (extensionNameFromType v.type).map str = some name := by
  obtain ⟨p1, p2, p3, p4⟩ := describes_parts h
  obtain ⟨-, -, -, hd⟩ := h
  rcases hd with ⟨d, h1, h2, h3⟩ | ⟨-, h2, h3, h4, h5⟩
  · have big : ∀ t ∈ serializedTypes, geometryTypeFromType t = 0 := by decide +kernel
    have byPart : ∀ t ∈ nativeTypes ++ serializedTypes, (geometryTypeFromType t = 1 → extensionNameFromType t = some "geoarrow.point") ∧
        (geometryTypeFromType t = 2 → extensionNameFromType t = some "geoarrow.linestring") ∧
        (geometryTypeFromType t = 3 → extensionNameFromType t = some "geoarrow.polygon") ∧
        (geometryTypeFromType t = 4 → extensionNameFromType t = some "geoarrow.multipoint") ∧
        (geometryTypeFromType t = 5 → extensionNameFromType t = some "geoarrow.multilinestring") ∧
        (geometryTypeFromType t = 6 → extensionNameFromType t = some "geoarrow.multipolygon") ∧
        (geometryTypeFromType t = 990 → extensionNameFromType t = some "geoarrow.box") := by decide +kernel
    obtain ⟨b1, b2, b3, b4, b5, b6, b7⟩ := byPart _ p1
    rw [← p2] at b1 b2 b3 b4 b5 b6 b7
    generalize v.geometryType = g at *
    generalize v.coordType = c at *
    cases h2
    · rw [b1 rfl]; rfl
    · rw [b2 rfl]; rfl
    · rw [b3 rfl]; rfl
    · rw [b4 rfl]; rfl
    · rw [b5 rfl]; rfl
    · rw [b6 rfl]; rfl
    · rw [b7 rfl]; rfl
  · generalize v.type = t at h2
    cases h2 with
    | wkt _ => rfl
    | largeWkt _ => rfl
    | wktView _ => rfl
    | wkb _ => rw [wkb_prefix hn rfl, List.append_nil]; rfl
    | largeWkb _ => rw [wkb_prefix hn rfl, List.append_nil]; rfl
    | wkbView _ => rw [wkb_prefix hn rfl, List.append_nil]; rfl

/-! ## What all of them have in common -/

structure ExtSound (L : ArrowLib T) (e : ExtType T) : Prop where
  obtained : Obtained e.type
  documented : e.type.type ∈ nativeTypes ++ serializedTypes
  name : dtExtensionName e.type = .ok e.name
  storage : ∃ v, schemaViewInitFromStorage (L.exportType e.storage) e.name svZero = .ok () v ∧ v.type = e.type.type ∧
    v.geometryType = e.type.geometryType ∧ v.dimensions = e.type.dimensions ∧ v.coordType = e.type.coordType

theorem caught_ok {α : Type} {r : CppRes α} {a : α} (h : ExtRes.caught r = .ok a) : r = .ok a := by
  cases r with
  | ok b => cases h; rfl
  | _ => cases h

theorem uncaught_ok {α : Type} {r : CppRes α} {a : α} (h : ExtRes.uncaught r = .ok a) : r = .ok a := by
  cases r with
  | ok b => cases h; rfl
  | _ => cases h

theorem extBind_ok {α β : Type} {r : ExtRes α} {f : α → ExtRes β} {b : β} (h : r.bind f = .ok b) : ∃ a, r = .ok a ∧ f a = .ok b := by
  cases r with
  | ok a => exact ⟨a, rfl, h⟩
  | _ => cases h

theorem fromStorage_ok {x : T} {d : DType} {e : ExtType T} (h : extFromStorageAndType x d = .ok e) :
    e.storage = x ∧ e.type = d ∧ dtExtensionName d = .ok e.name := by
  obtain ⟨name, hn, h⟩ := bind_ok_inv h
  cases h
  exact ⟨rfl, rfl, hn⟩

theorem madeType_type {n : Nat} {t : TypeId} {text : List Byte} {d : DType} (h : dtMakeType n t text = .ok d) : d.type = t := by
  unfold dtMakeType at h
  split at h
  · cases h
  · next h0 =>
    by_cases hn : extensionNameFromType t = none
    · rw [fromType_none h0 hn] at h; cases h
    obtain ⟨nm, e⟩ := fromType_ok h0 hn
    rw [e] at h
    obtain ⟨w, hw, h⟩ := bind_ok_inv (α := MdView) h
    cases h
    rfl

theorem makeData_sound {L : ArrowLib T} (hL : Faithful L) {n : Nat} {d : DType} {metadata : List Byte} {e : ExtType T}
    (h : extMakeData L n d metadata = .ok e) : ExtSound L e ∧ e.type.type = d.type := by
  obtain ⟨d', hd', h⟩ := extBind_ok h
  obtain ⟨s, hs, h⟩ := extBind_ok h
  have hd' := caught_ok hd'
  have hs := caught_ok hs
  cases hi : L.importType s with
  | none => rw [hi] at h; cases h
  | some x =>
    rw [hi] at h
    obtain ⟨e1, e2, e3⟩ := fromStorage_ok (caught_ok h)
    have hO : Obtained d' := .type hd'
    have hS := obtained_sound hO
    have hs' : schemaInit d'.type = .ok s := by
      unfold dtInitStorageSchema at hs
      split at hs
      · cases hs
      · rename_i s' hs'
        cases hs
        exact hs'
    obtain ⟨nm, hnm, hv⟩ := C03_storage_view_of_created d'.type s hs' svZero
    have hname : e.name = str nm := by
      unfold dtExtensionName at e3
      rw [hnm] at e3
      exact (CppRes.ok.inj e3).symm
    have ht : d'.type = d.type := madeType_type hd'
    refine ⟨⟨by rw [e2]; exact hO, ?_, by rw [e2]; exact e3, ?_⟩, by rw [e2]; exact ht⟩
    · rw [e2]
      refine (C03_created_types _).mp ?_
      unfold schemaInitExtension
      rw [hnm, hs']
      exact ⟨_, rfl⟩
    · rw [e1, e2, hname, hL.kept hi, hv]
      exact ⟨_, rfl, rfl, hS.geometry.symm, hS.dims.symm, hS.coord.symm⟩

theorem extObtained_sound {L : ArrowLib T} (hL : Faithful L) {e : ExtType T} (h : ExtObtained L e) : ExtSound L e := by
  induction h with
  | data h => exact (makeData_sound hL h).1
  | type h =>
    obtain ⟨d, -, h⟩ := extBind_ok h
    exact (makeData_sound hL h).1
  | parts h =>
    obtain ⟨d, -, h⟩ := extBind_ok h
    exact (makeData_sound hL h).1
  | @deserialize n name x metadata e hn hf hz h =>
    obtain ⟨d, hd, h⟩ := bind_ok_inv (caught_ok h)
    obtain ⟨e1, e2, e3⟩ := fromStorage_ok h
    obtain ⟨v, hv, h⟩ := bind_ok_inv hd
    obtain ⟨w, hw, h⟩ := bind_ok_inv h
    have hv := ofView_ok hv
    cases h
    rcases C04_storage_view_exact_partial _ name hf hz svZero with ⟨w', hdd, he⟩ | ⟨-, w', he⟩
    · rw [he] at hv
      cases hv
      have hnm := describes_name hn hdd
      have hname : e.name = name := by
        unfold dtExtensionName DType.new at e3
        dsimp only at e3
        cases hx : extensionNameFromType v.type with
        | none => rw [hx] at hnm; cases hnm
        | some nm =>
          rw [hx] at hnm e3
          exact (CppRes.ok.inj e3).symm.trans (Option.some.inj hnm)
      refine ⟨by rw [e2]; exact .storage hf hz hd, by rw [e2]; exact (describes_parts hdd).1, by rw [e2]; exact e3, ?_⟩
      rw [e1, e2, hname, he]
      exact ⟨_, rfl, rfl, rfl, rfl, rfl⟩
    · rw [he] at hv; cases hv
  | @withEdgeType e edge e' _ hr h ih =>
    obtain ⟨e1, e2, e3⟩ := fromStorage_ok (uncaught_ok h)
    obtain ⟨i1, i2, i3, i4⟩ := ih
    have hname : e'.name = e.name := by
      have : dtExtensionName (dtWithEdgeType edge e.type) = dtExtensionName e.type := rfl
      rw [this, i3] at e3
      exact (CppRes.ok.inj e3).symm
    exact ⟨by rw [e2]; exact .withEdgeType i1 hr, by rw [e2]; exact i2, by rw [e2]; exact e3, by rw [e1, e2, hname]; exact i4⟩
  | @withCrs e crs t e' _ hc hr h ih =>
    obtain ⟨e1, e2, e3⟩ := fromStorage_ok (uncaught_ok h)
    obtain ⟨i1, i2, i3, i4⟩ := ih
    have hname : e'.name = e.name := by
      have : dtExtensionName (dtWithCrs crs t e.type) = dtExtensionName e.type := rfl
      rw [this, i3] at e3
      exact (CppRes.ok.inj e3).symm
    exact ⟨by rw [e2]; exact .withCrs i1 hc hr, by rw [e2]; exact i2, by rw [e2]; exact e3, by rw [e1, e2, hname]; exact i4⟩

theorem mdBytes_stored (w : MdView) : mdBytes (storedView w) = mdBytes w := by
  unfold mdBytes storedView
  dsimp only
  by_cases h : w.crsType = 0
  · simp only [h, ne_eq, not_true_eq_false, if_false]
  · rw [if_neg h]
    cases hn : needsEscape w.crs with
    | true =>
      have : needsEscape ([34] ++ escapeQuotes w.crs ++ [34]) = false := rfl
      simp only [if_true, this, Bool.false_eq_true, if_false]
    | false => simp only [Bool.false_eq_true, if_false, hn]

/-! ## Making them -/

/-- C80: an extension type made from a type identifier, from parts or from a data type has that type, the storage type that Arrow C++ imports
from the storage schema of the type, the name of the type, and the edge type and CRS that the metadata text says. -/
theorem C80_made {L : ArrowLib T} {t : TypeId} {s : ASchema} {x : T} {text : List Byte} {w : MdView} (hs : schemaInit t = .ok s)
    (hi : L.importType s = some x) (hv : Views text w) :
    ∃ e : ExtType T, ExtGives (fun n => extMakeType L n t text) e ∧ (∀ d : DType, d.type = t → ExtGives (fun n => extMakeData L n d text) e) ∧
      (∀ g dims c, ValidParts g dims c → t = (dims - 1) * 1000 + (c - 1) * 10000 + g → ExtGives (fun n => extMakeParts L n g dims c text) e) ∧
      e.storage = x ∧ e.type.type = t ∧ (extensionNameFromType t).map str = some e.name ∧ e.type.md = w := by
  obtain ⟨nm, hnm, -⟩ := C03_storage_view_of_created t s hs svZero
  have hdoc : t ∈ nativeTypes ++ serializedTypes := by
    refine (C03_created_types _).mp ?_
    unfold schemaInitExtension
    rw [hnm, hs]
    exact ⟨_, rfl⟩
  obtain ⟨q1, q2⟩ := documented_named _ hdoc
  obtain ⟨n0, hg⟩ := makeType_gives q1 q2 hv
  have hempty : Views [] ⟨0, 0, []⟩ := ⟨0, fun n _ after => rfl⟩
  obtain ⟨n1, hg1⟩ := makeType_gives q1 q2 hempty
  have hdata : ∀ d : DType, d.type = t → ∀ n, n0 ≤ n → extMakeData L n d text =
      .ok ⟨x, ⟨t, geometryTypeFromType t, dimensionsFromType t, coordTypeFromType t, w⟩, str nm⟩ := by
    intro d hd n hn
    have := hg n hn
    dsimp only at this
    unfold extMakeData
    rw [hd, this]
    simp only [ExtRes.caught, ExtRes.bind, dtInitStorageSchema, hs, hi, extFromStorageAndType, dtExtensionName, hnm, CppRes.bind]
  refine ⟨_, ⟨max n0 n1, fun n hn => ?_⟩, fun d hd => ⟨n0, hdata d hd⟩, fun g dims c hp ht => ⟨n0, fun n hn => ?_⟩, rfl, rfl, by rw [hnm]; rfl, rfl⟩
  · have := hg1 n (by omega)
    dsimp only at this ⊢
    unfold extMakeType
    rw [this]
    exact hdata _ rfl n (by omega)
  · have ht' : makeType g dims c = t := (typeNumber hp).trans ht.symm
    have := hg n hn
    dsimp only at this ⊢
    unfold extMakeParts dtMakeParts
    dsimp only
    rw [ht', if_neg q1, this]
    exact hdata _ rfl n hn

/-- C80: `Make` returns a failure for identifiers that are not documented and for metadata that is rejected; it throws nothing. -/
theorem C80_make_fails (L : ArrowLib T) (n : Nat) (d : DType) (t : TypeId) (g dims c : Int) (text : List Byte) :
    extMakeData L n d text ≠ .throws ∧ extMakeType L n t text ≠ .throws ∧ extMakeParts L n g dims c text ≠ .throws ∧
    (d.type ∉ nativeTypes ++ serializedTypes → ∀ e, extMakeData L n d text ≠ .ok e) ∧
    (Rejects text → t ≠ 0 → extensionNameFromType t ≠ none → ∃ n0, ∀ n, n0 ≤ n → extMakeType L n t text = .fails) := by
  have hc : ∀ {α : Type} (r : CppRes α), ExtRes.caught r ≠ .throws := by
    intro α r h
    cases r <;> cases h
  have hb : ∀ {α β : Type} (r : ExtRes α) (f : α → ExtRes β), r ≠ .throws → (∀ a, f a ≠ .throws) → r.bind f ≠ .throws := by
    intro α β r f h1 h2 h
    cases r with
    | ok a => exact h2 a h
    | throws => exact h1 rfl
    | _ => cases h
  have hd : ∀ d : DType, extMakeData L n d text ≠ .throws := by
    intro d
    refine hb _ _ (hc _) fun d' => hb _ _ (hc _) fun s => ?_
    split
    · intro h; cases h
    · exact hc _
  refine ⟨hd d, hb _ _ (hc _) fun _ => hd _, hb _ _ (hc _) fun _ => hd _, fun hn e h => ?_, fun hr h0 hx => ?_⟩
  · obtain ⟨d', hd', h⟩ := extBind_ok h
    obtain ⟨s, hs, h⟩ := extBind_ok h
    have hd' := caught_ok hd'
    have hs := caught_ok hs
    have ht : d'.type = d.type := madeType_type hd'
    unfold dtInitStorageSchema at hs
    split at hs
    · cases hs
    · rename_i s' hs'
      rw [ht] at hs'
      obtain ⟨nm, hnm, -⟩ := C03_storage_view_of_created d.type s' hs' svZero
      refine hn ((C03_created_types _).mp ?_)
      unfold schemaInitExtension
      rw [hnm, hs']
      exact ⟨_, rfl⟩
  · obtain ⟨n0, hr⟩ := hr
    have hempty : Views [] ⟨0, 0, []⟩ := ⟨0, fun n _ after => rfl⟩
    obtain ⟨n1, hg1⟩ := makeType_gives h0 hx hempty
    refine ⟨max n0 n1, fun n hn => ?_⟩
    have := hg1 n (by omega)
    dsimp only at this
    unfold extMakeType
    rw [this]
    show extMakeData L n _ text = _
    unfold extMakeData dtMakeType
    obtain ⟨nm, e⟩ := fromType_ok h0 hx
    dsimp only
    rw [if_neg h0, e]
    simp only [CppRes.bind, hr n (by omega) (some 0), CppRes.ofParse]
    rfl

/-- C80: every extension type has the storage of the type it says it is of. -/
theorem C80_stored_as_said {L : ArrowLib T} (hL : Faithful L) {e : ExtType T} (h : ExtObtained L e) : StoredAsSaid L e := by
  obtain ⟨v, hv, ht, -⟩ := (extObtained_sound hL h).storage
  exact ⟨v, hv, ht⟩

/-! ## Storing and loading them -/

/-- C80: what `Serialize` returns gives, together with the storage type and the name, an extension type of the same storage type, name, type,
edge type, CRS type and CRS, which is equal to it. -/
theorem C80_round_trip {L : ArrowLib T} (hL : Faithful L) {e : ExtType T} (h : ExtObtained L e) (heap : Nat → Byte) :
    ∃ text e', extSerialize heap e = .ok text ∧ ExtGives (fun n => extDeserialize L n e.name e.storage text) e' ∧
      e'.storage = e.storage ∧ e'.name = e.name ∧ HasParts e'.type e.type.type e.type.geometryType e.type.dimensions e.type.coordType ∧
      SameMetadata e.type e'.type ∧ extEquals L heap e e' = .ok true := by
  obtain ⟨hO, hdoc, hname, v, hv, v1, v2, v3, v4⟩ := extObtained_sound hL h
  have hS := obtained_sound hO
  obtain ⟨n0, hw⟩ := hS.views.2
  have hname' : dtExtensionName ⟨e.type.type, e.type.geometryType, e.type.dimensions, e.type.coordType, storedView e.type.md⟩ = .ok e.name := hname
  have hS' : DType.Sound ⟨e.type.type, e.type.geometryType, e.type.dimensions, e.type.coordType, storedView e.type.md⟩ := by
    obtain ⟨k1, k2, k3⟩ := read_keeps (hw n0 (Nat.le_refl _) none)
    exact ⟨hS.nonzero, hS.named, hS.geometry, hS.dims, hS.coord, k1, k2, k3⟩
  refine ⟨mdBytes e.type.md, ⟨e.storage, ⟨e.type.type, e.type.geometryType, e.type.dimensions, e.type.coordType, storedView e.type.md⟩, e.name⟩,
    extensionMetadata_ok hS heap, ⟨n0, fun n hn => ?_⟩, rfl, rfl, ⟨rfl, rfl, rfl, rfl⟩, hS.same rfl, ?_⟩
  · dsimp only
    unfold extDeserialize dtMakeStorage
    rw [hv]
    simp only [CppRes.ofView, CppRes.bind, hw n hn (some 0), CppRes.ofParse, DType.new, v1, v2, v3, v4, extFromStorageAndType, hname']
    rfl
  · unfold extEquals extSerialize
    dsimp only
    rw [if_pos rfl, extensionMetadata_ok hS, extensionMetadata_ok hS']
    simp only [CppRes.bind, mdBytes_stored, decide_true, Bool.true_and, hL.refl]

/-- C80: extension types that are equal have the same name, type, edge type and CRS type and, if there is one, the same CRS. -/
theorem C80_equal_means_same {L : ArrowLib T} (hL : Faithful L) {e e' : ExtType T} (h : ExtObtained L e) (h' : ExtObtained L e') (heap : Nat → Byte)
    (he : extEquals L heap e e' = .ok true) : e'.name = e.name ∧
      HasParts e'.type e.type.type e.type.geometryType e.type.dimensions e.type.coordType ∧ SameMetadata e.type e'.type := by
  obtain ⟨hO, -, -, v, hv, v1, v2, v3, v4⟩ := extObtained_sound hL h
  obtain ⟨hO', -, -, v', hv', w1, w2, w3, w4⟩ := extObtained_sound hL h'
  have hS := obtained_sound hO
  have hS' := obtained_sound hO'
  unfold extEquals at he
  split at he
  · next hn =>
    unfold extSerialize at he
    rw [extensionMetadata_ok hS, extensionMetadata_ok hS'] at he
    simp only [CppRes.bind, CppRes.ok.injEq, Bool.and_eq_true, decide_eq_true_eq] at he
    obtain ⟨hb, hx⟩ := he
    rw [hL.alike hx, hn, hv'] at hv
    cases hv
    refine ⟨hn.symm, ⟨by rw [← w1, v1], by rw [← w2, v2], by rw [← w3, v3], by rw [← w4, v4]⟩, ?_⟩
    obtain ⟨n0, a⟩ := hS.views.2
    obtain ⟨n1, b⟩ := hS'.views.2
    have a := a (max n0 n1) (by omega) none
    have b := b (max n0 n1) (by omega) none
    rw [hb, b] at a
    have hst : storedView e'.type.md = storedView e.type.md := (PRes.ok.inj a).1
    have hE : e'.type.md.edge = e.type.md.edge := by
      have := congrArg MdView.edge hst
      exact this
    have hT : e'.type.md.crsType = e.type.md.crsType := by
      have := congrArg MdView.crsType hst
      exact this
    refine ⟨hE, hT, fun h0 => ?_⟩
    obtain ⟨t1, a1, a2, -⟩ := (hS.crs h0).hasText
    obtain ⟨t2, b1, b2, -⟩ := (hS'.crs (by rw [hT]; exact h0)).hasText
    have hC := congrArg MdView.crs hst
    unfold storedView at hC
    dsimp only at hC
    rw [hT, if_neg h0, if_neg h0] at hC
    rw [hC] at b2
    have e1 := HasText.crsIs (d := ⟨0, 0, 0, 0, ⟨0, 0, _⟩⟩) a2 heap
    have e2 := HasText.crsIs (d := ⟨0, 0, 0, 0, ⟨0, 0, _⟩⟩) b2 heap
    rw [e1] at e2
    cases e2
    exact ⟨t1, a1.crsIs, b1.crsIs⟩
  · cases he

/-! ## Changing them -/

/-- C80: `WithEdgeType` and `WithCrs` return an extension type that differs in the edge type or in the CRS and its type only. -/
theorem C80_with_metadata {L : ArrowLib T} (hL : Faithful L) {e : ExtType T} (h : ExtObtained L e) (edge t : Int) (crs : List Byte) :
    (∃ e', extWithEdgeType edge e = .ok e' ∧ e'.storage = e.storage ∧ e'.name = e.name ∧ e'.type = { e.type with md := { e.type.md with edge := edge } }) ∧
    (∃ e', extWithCrs crs t e = .ok e' ∧ e'.storage = e.storage ∧ e'.name = e.name ∧
      e'.type = { e.type with md := { e.type.md with crs := crs, crsType := t } }) := by
  obtain ⟨-, -, hname, -⟩ := extObtained_sound hL h
  constructor
  · refine ⟨⟨e.storage, dtWithEdgeType edge e.type, e.name⟩, ?_, rfl, rfl, rfl⟩
    unfold extWithEdgeType extFromStorageAndType
    rw [show dtExtensionName (dtWithEdgeType edge e.type) = .ok e.name from hname]
    rfl
  · refine ⟨⟨e.storage, dtWithCrs crs t e.type, e.name⟩, ?_, rfl, rfl, rfl⟩
    unfold extWithCrs extFromStorageAndType
    rw [show dtExtensionName (dtWithCrs crs t e.type) = .ok e.name from hname]
    rfl

theorem extWith {x : T} {call : Nat → CppRes DType} {d' : DType} (hg : Gives call d') (hO : Obtained d') :
    ∃ e', ExtGives (fun n => ExtRes.uncaught ((call n).bind fun d => extFromStorageAndType x d)) e' ∧ e'.storage = x ∧ e'.type = d' ∧
      dtExtensionName d' = .ok e'.name := by
  obtain ⟨n0, hg⟩ := hg
  have hS := obtained_sound hO
  cases hn : extensionNameFromType d'.type with
  | none => exact absurd hn hS.named
  | some nm =>
    refine ⟨⟨x, d', str nm⟩, ⟨n0, fun n h => ?_⟩, rfl, rfl, ?_⟩
    · dsimp only
      rw [hg n h]
      simp only [CppRes.bind, extFromStorageAndType, dtExtensionName, hn, ExtRes.uncaught]
    · unfold dtExtensionName
      rw [hn]

theorem extWith_throws {x : T} {call : Nat → CppRes DType} (h : Throws call) :
    ∃ n0, ∀ n, n0 ≤ n → ExtRes.uncaught ((call n).bind fun d => extFromStorageAndType x d) = .throws := by
  obtain ⟨n0, h⟩ := h
  exact ⟨n0, fun n hn => by rw [h n hn]; rfl⟩

/-- C80: `WithGeometryType`, `WithCoordType` and `WithDimensions` with constants of the enumerations: if there is a type of these parts, an
extension type that says it is of that type, with the edge type and CRS unchanged, and with the storage type unchanged too; otherwise an
exception, although the functions return failures as values. -/
theorem C80_with_parts {L : ArrowLib T} (hL : Faithful L) {e : ExtType T} (h : ExtObtained L e) (heap : Nat → Byte) :
    (∀ g, 0 ≤ g ∧ g ≤ 7 ∨ g = 990 →
      (ValidParts g e.type.dimensions e.type.coordType → ∃ e', ExtGives (fun n => extWithGeometryType heap n g e) e' ∧ e'.storage = e.storage ∧
        HasParts e'.type ((e.type.dimensions - 1) * 1000 + (e.type.coordType - 1) * 10000 + g) g e.type.dimensions e.type.coordType ∧
        SameMetadata e.type e'.type) ∧
      (¬ ValidParts g e.type.dimensions e.type.coordType → ∃ n0, ∀ n, n0 ≤ n → extWithGeometryType heap n g e = .throws)) ∧
    (∀ c, 0 ≤ c ∧ c ≤ 2 →
      (ValidParts e.type.geometryType e.type.dimensions c → ∃ e', ExtGives (fun n => extWithCoordType heap n c e) e' ∧ e'.storage = e.storage ∧
        HasParts e'.type ((e.type.dimensions - 1) * 1000 + (c - 1) * 10000 + e.type.geometryType) e.type.geometryType e.type.dimensions c ∧
        SameMetadata e.type e'.type) ∧
      (¬ ValidParts e.type.geometryType e.type.dimensions c → ∃ n0, ∀ n, n0 ≤ n → extWithCoordType heap n c e = .throws)) ∧
    (∀ dims, 0 ≤ dims ∧ dims ≤ 4 →
      (ValidParts e.type.geometryType dims e.type.coordType → ∃ e', ExtGives (fun n => extWithDimensions heap n dims e) e' ∧ e'.storage = e.storage ∧
        HasParts e'.type ((dims - 1) * 1000 + (e.type.coordType - 1) * 10000 + e.type.geometryType) e.type.geometryType dims e.type.coordType ∧
        SameMetadata e.type e'.type) ∧
      (¬ ValidParts e.type.geometryType dims e.type.coordType → ∃ n0, ∀ n, n0 ≤ n → extWithDimensions heap n dims e = .throws)) := by
  have hO := (extObtained_sound hL h).obtained
  refine ⟨fun g hg => ?_, fun c hc => ?_, fun dims hd => ?_⟩
  · obtain ⟨k1, k2⟩ := C67_with_geometry_type hO g hg heap
    refine ⟨fun hv => ?_, fun hv => extWith_throws (k2 hv)⟩
    obtain ⟨d', a, b, c, m⟩ := k1 hv
    obtain ⟨e', p, q, r, -⟩ := extWith (x := e.storage) a b
    exact ⟨e', p, q, by rw [r]; exact c, by rw [r]; exact m⟩
  · obtain ⟨k1, k2⟩ := C67_with_coord_type hO c hc heap
    refine ⟨fun hv => ?_, fun hv => extWith_throws (k2 hv)⟩
    obtain ⟨d', a, b, c, m⟩ := k1 hv
    obtain ⟨e', p, q, r, -⟩ := extWith (x := e.storage) a b
    exact ⟨e', p, q, by rw [r]; exact c, by rw [r]; exact m⟩
  · obtain ⟨k1, k2⟩ := C67_with_dimensions hO dims hd heap
    refine ⟨fun hv => ?_, fun hv => extWith_throws (k2 hv)⟩
    obtain ⟨d', a, b, c, m⟩ := k1 hv
    obtain ⟨e', p, q, r, -⟩ := extWith (x := e.storage) a b
    exact ⟨e', p, q, by rw [r]; exact c, by rw [r]; exact m⟩

theorem sameName_ofParts {g dims c dims' c' : Int} (h : ValidParts g dims c) (h' : ValidParts g dims' c') :
    extensionNameFromType ((dims - 1) * 1000 + (c - 1) * 10000 + g) = extensionNameFromType ((dims' - 1) * 1000 + (c' - 1) * 10000 + g) := by
  have key : ∀ {g dims c : Int}, ValidParts g dims c → extensionNameFromType ((dims - 1) * 1000 + (c - 1) * 10000 + g) =
      (if g = GT.box then some "geoarrow.box"
      else if g = GT.point then some "geoarrow.point"
      else if g = GT.linestring then some "geoarrow.linestring"
      else if g = GT.polygon then some "geoarrow.polygon"
      else if g = GT.multipoint then some "geoarrow.multipoint"
      else if g = GT.multilinestring then some "geoarrow.multilinestring"
      else if g = GT.multipolygon then some "geoarrow.multipolygon" else none) := by
    intro g dims c h
    obtain ⟨-, h1, -⟩ := C02_make_then_split g dims c h
    rw [typeNumber h] at h1
    unfold extensionNameFromType
    dsimp only
    rw [h1]
    obtain ⟨a, b, hp⟩ := h
    have hx : (dims - 1) * 1000 + (c - 1) * 10000 + g < 100000 := by omega
    have hno : ∀ x : Int, x < 100000 → ¬ (x = 100001 ∨ x = 100002 ∨ x = 100005) ∧ ¬ (x = 100003 ∨ x = 100004 ∨ x = 100006) := by
      intro x hx
      omega
    rw [if_neg (hno _ hx).1, if_neg (hno _ hx).2]
  rw [key h, key h']

/-- C80 is false of what `WithCoordType` and `WithDimensions` return: whatever the extension type, if they change it, the storage type is not
that of the type it says it is of, and storing and loading it gives the type from before. -/
theorem C80_with_parts_refuted {L : ArrowLib T} (hL : Faithful L) {e : ExtType T} (h : ExtObtained L e) (heap : Nat → Byte) :
    (∀ c, 0 ≤ c ∧ c ≤ 2 → ValidParts e.type.geometryType e.type.dimensions c → ValidParts e.type.geometryType e.type.dimensions e.type.coordType →
      c ≠ e.type.coordType → ∃ e' text e'', ExtGives (fun n => extWithCoordType heap n c e) e' ∧ ¬ StoredAsSaid L e' ∧
        extSerialize heap e' = .ok text ∧ ExtGives (fun n => extDeserialize L n e'.name e'.storage text) e'' ∧
        e''.type.type = e.type.type ∧ e''.type.type ≠ e'.type.type) ∧
    (∀ dims, 0 ≤ dims ∧ dims ≤ 4 → ValidParts e.type.geometryType dims e.type.coordType → ValidParts e.type.geometryType e.type.dimensions e.type.coordType →
      dims ≠ e.type.dimensions → ∃ e' text e'', ExtGives (fun n => extWithDimensions heap n dims e) e' ∧ ¬ StoredAsSaid L e' ∧
        extSerialize heap e' = .ok text ∧ ExtGives (fun n => extDeserialize L n e'.name e'.storage text) e'' ∧
        e''.type.type = e.type.type ∧ e''.type.type ≠ e'.type.type) := by
  obtain ⟨hO, hdoc, hname, v, hv, v1, v2, v3, v4⟩ := extObtained_sound hL h
  have hS := obtained_sound hO
  have main : ∀ {call : Nat → CppRes DType} {d' : DType} (dims c : Int), Gives call d' → Obtained d' →
      HasParts d' ((dims - 1) * 1000 + (c - 1) * 10000 + e.type.geometryType) e.type.geometryType dims c →
      ValidParts e.type.geometryType dims c → ValidParts e.type.geometryType e.type.dimensions e.type.coordType → d'.type ≠ e.type.type →
      ∃ e' text e'', ExtGives (fun n => ExtRes.uncaught ((call n).bind fun d => extFromStorageAndType e.storage d)) e' ∧ ¬ StoredAsSaid L e' ∧
        extSerialize heap e' = .ok text ∧ ExtGives (fun n => extDeserialize L n e'.name e'.storage text) e'' ∧
        e''.type.type = e.type.type ∧ e''.type.type ≠ e'.type.type := by
    intro call d' dims c hg hO' hp hv1 hv2 hne
    have hS' := obtained_sound hO'
    obtain ⟨e', p, q, r, m⟩ := extWith (x := e.storage) hg hO'
    have hnumber : e.type.type = (e.type.dimensions - 1) * 1000 + (e.type.coordType - 1) * 10000 + e.type.geometryType := by
      have hm : e.type.type ∈ nativeTypes := by
        rcases List.mem_append.mp hdoc with h | h
        · exact h
        · have h0 := (C02_serialized_parts _ h).1
          rw [← hS.geometry] at h0
          rw [h0] at hv2
          obtain ⟨-, -, hv2⟩ := hv2
          omega
      have := (C02_split_then_make _ hm).2
      rw [← hS.geometry, ← hS.dims, ← hS.coord, typeNumber hv2] at this
      exact this.symm
    have hn : e'.name = e.name := by
      have h1 := sameName_ofParts hv1 hv2
      rw [← hnumber, ← hp.1] at h1
      unfold dtExtensionName at m hname
      rw [h1] at m
      rw [m] at hname
      exact CppRes.ok.inj hname
    obtain ⟨n0, hw⟩ := hS'.views.2
    refine ⟨e', mdBytes d'.md, ⟨e.storage, ⟨e.type.type, e.type.geometryType, e.type.dimensions, e.type.coordType, storedView d'.md⟩, e.name⟩, p, ?_,
      by unfold extSerialize; rw [r]; exact extensionMetadata_ok hS' heap, ⟨n0, fun n hn0 => ?_⟩, rfl, by rw [r]; exact hne.symm⟩
    · rintro ⟨v', hv', ht'⟩
      rw [q, hn, hv] at hv'
      cases hv'
      rw [r, v1] at ht'
      exact hne ht'.symm
    · have hname' : dtExtensionName ⟨e.type.type, e.type.geometryType, e.type.dimensions, e.type.coordType, storedView d'.md⟩ = .ok e.name := hname
      dsimp only
      unfold extDeserialize dtMakeStorage
      rw [q, hn, hv]
      simp only [CppRes.ofView, CppRes.bind, hw n hn0 (some 0), CppRes.ofParse, DType.new, v1, v2, v3, v4, extFromStorageAndType, hname']
      rfl
  refine ⟨fun c hc hv1 hv2 hne => ?_, fun dims hd hv1 hv2 hne => ?_⟩
  · obtain ⟨d', a, b, p, -⟩ := (C67_with_coord_type hO c hc heap).1 hv1
    refine main e.type.dimensions c a b p hv1 hv2 fun hh => hne ?_
    have := (obtained_sound b).coord
    rw [hh, ← hS.coord, p.2.2.2] at this
    exact this
  · obtain ⟨d', a, b, p, -⟩ := (C67_with_dimensions hO dims hd heap).1 hv1
    refine main dims e.type.coordType a b p hv1 hv2 fun hh => hne ?_
    have := (obtained_sound b).dims
    rw [hh, ← hS.dims, p.2.2.1] at this
    exact this

theorem aux_number {t y g g' : Int} (h : t = y + g) : y + g' = t - g + g' := by omega

/-- Numbers of lists around coordinates. -/
def Spec.listLevels (g : Int) : Nat := if g = 1 then 0 else if g = 2 ∨ g = 4 then 1 else if g = 3 ∨ g = 5 then 2 else 3

theorem changed_geometry : ∀ t ∈ nativeTypes, ∀ g ∈ [(1 : Int), 2, 3, 4, 5, 6], geometryTypeFromType t ≠ 990 →
    (match schemaInit t, extensionNameFromType (t - geometryTypeFromType t + g) with
    | .ok s, some nm =>
      (match schemaViewInitFromStorage s (str nm) svZero with
      | .ok _ v => decide (v.type = t - geometryTypeFromType t + g)
      | _ => false)
    | _, _ => false) = decide (Spec.listLevels g = Spec.listLevels (geometryTypeFromType t)) := by decide +kernel

/-- What `WithGeometryType` returns for a type that was made: it has the storage of the type it says it is of exactly if the two geometry types
have equally many lists around the coordinates. -/
theorem C80_with_geometry_type_refuted {L : ArrowLib T} (hL : Faithful L) {n : Nat} {t : TypeId} {text : List Byte} {e : ExtType T}
    (h : extMakeType L n t text = .ok e) (ht : t ∈ nativeTypes) (hb : e.type.geometryType ≠ 990) (g : Int) (hg : 1 ≤ g ∧ g ≤ 6) (heap : Nat → Byte) :
    ∃ e', ExtGives (fun n => extWithGeometryType heap n g e) e' ∧ e'.type.geometryType = g ∧
      (StoredAsSaid L e' ↔ Spec.listLevels g = Spec.listLevels e.type.geometryType) := by
  have hE : ExtObtained L e := .type h
  obtain ⟨hO, hdoc, hname, v, hv, v1, v2, v3, v4⟩ := extObtained_sound hL hE
  have hS := obtained_sound hO
  obtain ⟨d0, hd0, h⟩ := extBind_ok h
  have hd0 := caught_ok hd0
  have htt : e.type.type = t := by
    rw [(makeData_sound hL h).2]
    exact madeType_type hd0
  obtain ⟨hp, hm⟩ := C02_split_then_make _ ht
  have hp' : ValidParts e.type.geometryType e.type.dimensions e.type.coordType := by rw [hS.geometry, hS.dims, hS.coord, htt]; exact hp
  have hnum : t = (e.type.dimensions - 1) * 1000 + (e.type.coordType - 1) * 10000 + e.type.geometryType := by
    rw [typeNumber hp, ← htt, ← hS.geometry, ← hS.dims, ← hS.coord, htt] at hm
    exact hm.symm
  have hpg : ValidParts g e.type.dimensions e.type.coordType := by
    obtain ⟨a, b, c⟩ := hp'
    exact ⟨a, b, .inl (by omega)⟩
  obtain ⟨d', a, b, p, -⟩ := (C67_with_geometry_type hO g (.inl (by omega)) heap).1 hpg
  obtain ⟨e', q1, q2, q3, q4⟩ := extWith (x := e.storage) a b
  refine ⟨e', q1, by rw [q3]; exact p.2.1, ?_⟩
  have hgg : geometryTypeFromType t = e.type.geometryType := by rw [hS.geometry, htt]
  have hd't : d'.type = t - geometryTypeFromType t + g := by
    rw [p.1, hgg]
    have := hnum
    generalize (e.type.dimensions - 1) * 1000 + (e.type.coordType - 1) * 10000 = y at *
    exact aux_number this
  obtain ⟨d1, hd1, h⟩ := extBind_ok h
  obtain ⟨s, hs, h⟩ := extBind_ok h
  have hs := caught_ok hs
  cases hi : L.importType s with
  | none => rw [hi] at h; cases h
  | some x =>
    rw [hi] at h
    obtain ⟨e1, e2, e3⟩ := fromStorage_ok (caught_ok h)
    have hs' : schemaInit t = .ok s := by
      unfold dtInitStorageSchema at hs
      rw [← e2, htt] at hs
      split at hs
      · cases hs
      · rename_i s' hs'
        cases hs
        exact hs'
    have key := changed_geometry t ht g (by simp only [List.mem_cons, List.not_mem_nil, or_false]; omega) (by rw [hgg]; exact hb)
    unfold dtExtensionName at q4
    rw [hs', ← hd't, hgg] at key
    cases hx : extensionNameFromType d'.type with
    | none => rw [hx] at q4; cases q4
    | some nm =>
      rw [hx] at key q4
      have hnm : str nm = e'.name := CppRes.ok.inj q4
      dsimp only at key
      rw [hnm] at key
      unfold StoredAsSaid
      rw [q2, q3, e1, hL.kept hi]
      cases hvv : schemaViewInitFromStorage s e'.name svZero with
      | ok u v' =>
        rw [hvv] at key
        dsimp only at key
        constructor
        · rintro ⟨w, hw, hwt⟩
          cases hw
          exact of_decide_eq_true (key ▸ decide_eq_true hwt)
        · intro hl
          exact ⟨v', rfl, of_decide_eq_true (key.trans (decide_eq_true hl))⟩
      | err rc v' =>
        rw [hvv] at key
        constructor
        · rintro ⟨w, hw, -⟩
          cases hw
        · intro hl
          exact absurd hl (of_decide_eq_false key.symm)
      | ub =>
        rw [hvv] at key
        constructor
        · rintro ⟨w, hw, -⟩
          cases hw
        · intro hl
          exact absurd hl (of_decide_eq_false key.symm)

/-- An extension type made from a data type does not have the edge type and CRS of the data type: they are those of the text alone, which is
empty if it is left out. -/
theorem C80_make_ignores_metadata_of_data_type (L : ArrowLib T) (n : Nat) (d d' : DType) (h : d.type = d'.type) (text : List Byte) :
    extMakeData L n d text = extMakeData L n d' text := by
  unfold extMakeData
  rw [h]

/-! ## Registering them -/

theorem register_all (names : List (List Byte)) : ∀ registry : List (List Byte), names.Nodup → (∀ x ∈ names, x ∉ registry) →
    extRegister registry names = (registry ++ names, true) := by
  induction names with
  | nil => intro registry _ _; simp [extRegister]
  | cons a names ih =>
    intro registry hn hr
    simp only [extRegister]
    rw [if_neg (hr a (List.mem_cons_self ..)), ih _ (List.nodup_cons.mp hn).2]
    · simp
    · intro x hx hm
      rcases List.mem_append.mp hm with h | h
      · exact hr x (List.mem_cons_of_mem _ hx) h
      · rw [List.mem_singleton] at h
        subst h
        exact (List.nodup_cons.mp hn).1 hx

theorem unregister_all (names : List (List Byte)) : ∀ registry : List (List Byte), names.Nodup → (∀ x ∈ names, x ∈ registry) →
    extUnregister registry names = (registry.filter (fun x => x ∉ names), true) := by
  induction names with
  | nil =>
    intro registry _ _
    simp only [extUnregister, Prod.mk.injEq, and_true]
    exact (List.filter_eq_self.mpr fun x _ => by simp).symm
  | cons a names ih =>
    intro registry hn hr
    simp only [extUnregister]
    rw [if_pos (hr a (List.mem_cons_self ..)), ih _ (List.nodup_cons.mp hn).2]
    · simp only [List.filter_filter, Prod.mk.injEq, and_true]
      refine List.filter_congr fun x _ => ?_
      by_cases h1 : x = a <;> by_cases h2 : x ∈ names <;> simp [h1, h2]
    · intro x hx
      refine List.mem_filter.mpr ⟨hr x (List.mem_cons_of_mem _ hx), ?_⟩
      refine decide_eq_true ?_
      rintro rfl
      exact (List.nodup_cons.mp hn).1 hx

/-- `RegisterAll` in a process where none of the names is registered adds the seven names; `UnregisterAll` takes them away again; other names
are kept. A second `RegisterAll` fails. -/
theorem C80_register (registry : List (List Byte)) (h : ∀ x ∈ extAllNames, x ∉ registry) :
    extRegisterAll registry = (registry ++ extAllNames, true) ∧ extUnregisterAll (registry ++ extAllNames) = (registry, true) ∧
      (extRegisterAll (registry ++ extAllNames)).2 = false := by
  have hn : extAllNames.Nodup := by decide +kernel
  refine ⟨register_all _ _ hn h, ?_, ?_⟩
  · unfold extUnregisterAll
    rw [unregister_all _ _ hn fun x hx => List.mem_append_right _ hx, List.filter_append]
    have h1 : registry.filter (fun x => x ∉ extAllNames) = registry :=
      List.filter_eq_self.mpr fun x hx => decide_eq_true fun hm => h x hm hx
    have h2 : extAllNames.filter (fun x => x ∉ extAllNames) = [] :=
      List.filter_eq_nil_iff.mpr fun x hx => by simp [hx]
    rw [h1, h2, List.append_nil]
  · unfold extRegisterAll
    have : extAllNames = str "geoarrow.wkb" :: extAllNames.tail := rfl
    rw [this]
    simp only [extRegister]
    rw [if_pos (List.mem_append_right _ (List.mem_cons_self ..))]

/-- After `RegisterAll`, what Arrow C++ makes of a field with the name, the storage type and the metadata of an extension type: an equal extension
type, except that fields of WKT and of boxes are taken to be of their storage type. -/
theorem C80_imported {L : ArrowLib T} (hL : Faithful L) {e : ExtType T} (h : ExtObtained L e) (heap : Nat → Byte) (registry : List (List Byte))
    (hr : ∀ x ∈ registry, ¬ IsExtensionName x) :
    ∃ text, extSerialize heap e = .ok text ∧
      (e.name ≠ str "geoarrow.wkt" ∧ e.name ≠ str "geoarrow.box" → ∃ e', ExtGives (fun n => extImport L n (extRegisterAll registry).1 e.storage e.name text)
        (.inr e') ∧ extEquals L heap e e' = .ok true) ∧
      (e.name = str "geoarrow.wkt" ∨ e.name = str "geoarrow.box" →
        ∀ n, extImport L n (extRegisterAll registry).1 e.storage e.name text = .ok (.inl e.storage)) := by
  have hall : ∀ x ∈ extAllNames, IsExtensionName x := by
    intro x hx
    simp only [extAllNames, List.mem_cons, List.not_mem_nil, or_false] at hx
    rcases hx with rfl | rfl | rfl | rfl | rfl | rfl | rfl
    · exact ⟨100001, _, by decide, rfl, rfl⟩
    · exact ⟨1, _, by decide, rfl, rfl⟩
    · exact ⟨2, _, by decide, rfl, rfl⟩
    · exact ⟨3, _, by decide, rfl, rfl⟩
    · exact ⟨4, _, by decide, rfl, rfl⟩
    · exact ⟨5, _, by decide, rfl, rfl⟩
    · exact ⟨6, _, by decide, rfl, rfl⟩
  have hreg := (C80_register registry fun x hx hm => hr x hm (hall x hx)).1
  rw [hreg]
  obtain ⟨-, hdoc, hname, -⟩ := extObtained_sound hL h
  have hen : ∃ nm, extensionNameFromType e.type.type = some nm ∧ e.name = str nm := by
    unfold dtExtensionName at hname
    cases hx : extensionNameFromType e.type.type with
    | none => rw [hx] at hname; cases hname
    | some nm =>
      rw [hx] at hname
      exact ⟨nm, rfl, (CppRes.ok.inj hname).symm⟩
  obtain ⟨nm, hnm, hen⟩ := hen
  obtain ⟨text, e', hs, ⟨n0, hg⟩, -, -, -, -, heq⟩ := C80_round_trip hL h heap
  have hmem := names_with_prefix _ hdoc nm hnm
  refine ⟨text, hs, fun hne => ⟨e', ⟨n0, fun n hn => ?_⟩, heq⟩, fun hw n => ?_⟩
  · have hin : e.name ∈ registry ++ extAllNames := by
      refine List.mem_append_right _ ?_
      rw [hen] at hne ⊢
      have : ∀ nm ∈ ["geoarrow.wkb", "geoarrow.wkt", "geoarrow.box", "geoarrow.point", "geoarrow.linestring", "geoarrow.polygon",
          "geoarrow.multipoint", "geoarrow.multilinestring", "geoarrow.multipolygon"],
          str nm ≠ str "geoarrow.wkt" ∧ str nm ≠ str "geoarrow.box" → str nm ∈ extAllNames := by decide +kernel
      exact this nm hmem hne
    have := hg n hn
    dsimp only at this ⊢
    unfold extImport
    rw [if_pos hin, this]
    rfl
  · have hout : e.name ∉ registry ++ extAllNames := by
      intro hm
      rcases List.mem_append.mp hm with h1 | h1
      · exact hr _ h1 ⟨_, nm, hdoc, hnm, hen⟩
      · have : str "geoarrow.wkt" ∉ extAllNames ∧ str "geoarrow.box" ∉ extAllNames := by decide +kernel
        rcases hw with h2 | h2 <;> rw [h2] at h1
        · exact this.1 h1
        · exact this.2 h1
    unfold extImport
    rw [if_neg hout]

/-! ## Cases -/

/-- Schemas as data types. -/
noncomputable def schemaLib : ArrowLib ASchema := ⟨some, id, fun x y => @decide (x = y) (Classical.propDecidable _)⟩

theorem schemaLib_faithful : Faithful schemaLib :=
  ⟨fun h ext v => by cases h; rfl, fun x => by simp [schemaLib], fun h ext v => by
    have := @of_decide_eq_true _ (Classical.propDecidable _) h
    rw [this]⟩

/-- Points of separate coordinates with a CRS: equal after being stored and loaded; interleaved ones that come from `WithCoordType` are not stored so. -/
example : ∃ e e' e'' : ExtType ASchema, ExtObtained schemaLib e ∧ ExtGives (fun n => extMakeType schemaLib n 1 []) e'' ∧
    extWithCrs (str "EPSG:3857") 1 e'' = .ok e ∧ e.type.md = ⟨0, 1, str "EPSG:3857"⟩ ∧
    ExtGives (fun n => extWithCoordType (fun _ => 0) n 2 e) e' ∧ e'.type.type = 10001 ∧ ¬ StoredAsSaid schemaLib e' := by
  obtain ⟨s, hs⟩ : ∃ s, schemaInit 1 = .ok s := ⟨_, rfl⟩
  obtain ⟨e'', h1, -, -, h2, h3, h4, h5⟩ := C80_made (L := schemaLib) hs rfl (text := []) (w := ⟨0, 0, []⟩) ⟨0, fun n _ after => rfl⟩
  obtain ⟨n0, hn0⟩ := h1
  have hO : ExtObtained schemaLib e'' := .type (hn0 n0 (Nat.le_refl _))
  obtain ⟨-, e, g1, g2, g3, g4⟩ := C80_with_metadata schemaLib_faithful hO 0 1 (str "EPSG:3857")
  have hE : ExtObtained schemaLib e := .withCrs hO (.inr (by decide +kernel)) (by decide) g1
  have hS := obtained_sound (extObtained_sound schemaLib_faithful hE).obtained
  have ht : e.type.type = 1 := by rw [g4]; exact h3
  have a1 : e.type.geometryType = 1 := by rw [hS.geometry, ht]; decide
  have a2 : e.type.dimensions = 1 := by rw [hS.dims, ht]; decide
  have a3 : e.type.coordType = 1 := by rw [hS.coord, ht]; decide
  obtain ⟨e', text, e3, b1, b2, -⟩ := (C80_with_parts_refuted schemaLib_faithful hE (fun _ => 0)).1 2 (by decide) (by rw [a1, a2]; unfold ValidParts; decide)
    (by rw [a1, a2, a3]; unfold ValidParts; decide) (by rw [a3]; decide)
  obtain ⟨e4, c1, -, c2, -⟩ := ((C80_with_parts schemaLib_faithful hE (fun _ => 0)).2.1 2 (by decide)).1 (by rw [a1, a2]; unfold ValidParts; decide)
  have : e4 = e' := by
    obtain ⟨m1, x1⟩ := b1
    obtain ⟨m2, x2⟩ := c1
    have y1 := x1 (max m1 m2) (by omega)
    have y2 := x2 (max m1 m2) (by omega)
    dsimp only at y1 y2
    rw [y1] at y2
    exact (ExtRes.ok.inj y2).symm
  subst this
  exact ⟨e, e4, e'', hE, ⟨n0, hn0⟩, g1, by rw [g4, h5], b1, by rw [c2.1, a1, a2]; decide, b2⟩

end Verif
