import Verif.Spec.CppDataType
import Verif.Proof.MetadataScan
import Verif.Props.Metadata
import Verif.Props.Schema
/-!
# Proofs about the data types of the C++ API
-/
namespace Verif
open Spec

/-! ## Texts of CRSs -/

theorem stringBody_shape : ∀ (s : List Byte) (esc : Bool) (rest : List Byte), stringBody esc s = some rest →
    (esc = false → ∃ w u, s = w ++ 34 :: rest ∧ Unescaped w u) ∧ (esc = true → ∃ c w u, s = c :: (w ++ 34 :: rest) ∧ Unescaped w u)
  | [], _, _, h => by cases h
  | c :: s, esc, rest, h => by
    unfold stringBody at h
    cases esc with
    | false =>
      refine ⟨fun _ => ?_, by simp⟩
      split at h
      next hc =>
        obtain ⟨d, w, u, rfl, hu⟩ := (stringBody_shape s true rest h).2 rfl
        have : c = 92 := by simpa using hc
        subst this
        exact ⟨92 :: d :: w, d :: u, rfl, .escape hu⟩
      next hc =>
        split at h
        next hq =>
          have : c = 34 := by simpa using hq
          subst this
          cases h
          exact ⟨[], [], rfl, .nil⟩
        next hq =>
          obtain ⟨w, u, rfl, hu⟩ := (stringBody_shape s false rest h).1 rfl
          exact ⟨c :: w, c :: u, rfl, .plain (by simpa using hq) (by simpa using hc) hu⟩
    | true =>
      refine ⟨by simp, fun _ => ?_⟩
      simp only [Bool.not_true, Bool.false_and, Bool.false_eq_true, if_false] at h
      obtain ⟨w, u, rfl, hu⟩ := (stringBody_shape s false rest h).1 rfl
      exact ⟨c, w, u, rfl, hu⟩

/-- A string that is found is a text between quotes. -/
theorem scans_shape {v : List Byte} (h : Scans v) (hh : v.head? = some 34) : ∃ w u, v = [34] ++ w ++ [34] ∧ Unescaped w u := by
  obtain ⟨-, h⟩ := h
  obtain ⟨n0, h⟩ := h []
  have h := h n0 (Nat.le_refl _) none
  rw [List.append_nil] at h
  cases v with
  | nil => cases hh
  | cons c s =>
    have : c = 34 := by simpa using hh
    subst this
    have h' : findString none ((34 : Byte) :: s) = .ok (34 :: s) [] := by simpa [findValue] using h
    unfold findString at h'
    simp only [ne_eq, not_true, if_false] at h'
    cases hb : stringBody false s with
    | none => rw [hb] at h'; cases h'
    | some r =>
      rw [hb] at h'
      have hr : r = [] := by
        simp only [PRes.ok.injEq] at h'
        exact h'.2
      subst hr
      obtain ⟨w, u, rfl, hu⟩ := (stringBody_shape s false [] hb).1 rfl
      exact ⟨w, u, rfl, hu⟩

theorem heapBytes_length (heap : Nat → Byte) (n : Nat) : (heapBytes heap n).length = n := by simp [heapBytes]

theorem filled_exact {text out : List Byte} (h : out.length = text.length) : filled text out = text := by
  unfold filled
  rw [if_neg (by omega), h, List.take_length]

/-- The CRS text of a stored CRS. -/
structure HasText (crs text : List Byte) : Prop where
  is : CrsText crs text
  len : unescapeCrs crs none 0 = some (none, (text.length : Int))

theorem hasText_plain {t : List Byte} (h : t.head? ≠ some 34) : HasText t t := by
  refine ⟨unescapeCrs_plain t h, ?_⟩
  cases t with
  | nil => rfl
  | cons c t =>
    have hc : c ≠ 34 := by simpa using h
    rw [unescapeCrs, if_pos hc, if_neg (by simp only [List.length_cons]; omega)]

theorem hasText_quoted {w u : List Byte} (h : Unescaped w u) : HasText ([34] ++ w ++ [34]) u := ⟨unescapeCrs_text h, unescapeCrs_null h⟩

theorem HasText.crsIs {d : DType} {text : List Byte} (h : HasText d.md.crs text) : CrsIs d text := by
  intro heap
  unfold dtCrs
  rw [h.len]
  dsimp only
  rw [Int.toNat_natCast]
  have := h.is (heapBytes heap text.length)
  rw [heapBytes_length] at this
  rw [this]
  dsimp only
  rw [filled_exact (heapBytes_length _ _)]

/-! ## What can be stored -/

/-- A CRS that survives being stored. -/
def KeepsCrs (crs : List Byte) : Prop :=
  (Scans crs ∧ (crs.head? = some 123 ∨ crs.head? = some 34)) ∨ (crs.head? ≠ some 123 ∧ crs.head? ≠ some 34 ∧ (92 : Byte) ∉ crs)

theorem needsEscape_iff (c : List Byte) : needsEscape c = false ↔ c.head? = some 123 ∨ c.head? = some 34 := by
  cases c with
  | nil => simp [needsEscape]
  | cons d r =>
    simp only [needsEscape, List.head?_cons, Option.some.injEq, Bool.and_eq_false_iff, decide_eq_false_iff_not, ne_eq, Decidable.not_not]

theorem KeepsCrs.hasText {crs : List Byte} (h : KeepsCrs crs) :
    ∃ text, HasText crs text ∧ HasText (if needsEscape crs then [34] ++ escapeQuotes crs ++ [34] else crs) text ∧
      Scans (if needsEscape crs then [34] ++ escapeQuotes crs ++ [34] else crs) := by
  rcases h with ⟨hs, hh⟩ | ⟨h1, h2, h3⟩
  · have hn := (needsEscape_iff crs).mpr hh
    rw [hn]
    simp only [Bool.false_eq_true, if_false]
    by_cases h34 : crs.head? = some 34
    · obtain ⟨w, u, rfl, hu⟩ := scans_shape hs h34
      exact ⟨u, hasText_quoted hu, hasText_quoted hu, hs⟩
    · exact ⟨crs, hasText_plain h34, hasText_plain h34, hs⟩
  · have hn : needsEscape crs = true := by
      cases hc : needsEscape crs with
      | true => rfl
      | false => rcases (needsEscape_iff crs).mp hc with h | h <;> contradiction
    rw [if_pos hn]
    have hu := unescaped_escapeQuotes h3
    exact ⟨crs, hasText_plain h2, hasText_quoted hu, scans_string (unescaped_stringText hu)⟩

theorem KeepsCrs.noBackslashes {w : MdView} (h : w.crsType ≠ 0 → KeepsCrs w.crs) : countBackslashes w = 0 := by
  unfold countBackslashes
  by_cases hc : w.crsType ≠ 0 ∧ needsEscape w.crs = true
  · rw [if_pos hc]
    rcases h hc.1 with ⟨_, hh⟩ | ⟨_, _, h3⟩
    · rw [(needsEscape_iff _).mpr hh] at hc; cases hc.2
    · exact List.count_eq_zero.mpr h3
  · rw [if_neg hc]

/-- The view that is read back. -/
def storedView (w : MdView) : MdView :=
  ⟨w.edge, w.crsType, if w.crsType = 0 then [] else if needsEscape w.crs then [34] ++ escapeQuotes w.crs ++ [34] else w.crs⟩

/-- What all data types have in common. -/
structure DType.Sound (d : DType) : Prop where
  nonzero : d.type ≠ 0
  named : extensionNameFromType d.type ≠ none
  geometry : d.geometryType = geometryTypeFromType d.type
  dims : d.dimensions = dimensionsFromType d.type
  coord : d.coordType = coordTypeFromType d.type
  edge : 0 ≤ d.md.edge ∧ d.md.edge ≤ 5
  type : 0 ≤ d.md.crsType ∧ d.md.crsType ≤ 5
  crs : d.md.crsType ≠ 0 → KeepsCrs d.md.crs

theorem DType.Sound.views {d : DType} (h : d.Sound) : MdSerialized d.md (mdBytes d.md) ∧ Views (mdBytes d.md) (storedView d.md) := by
  refine ⟨serialized_bytes d.md (KeepsCrs.noBackslashes h.crs), views_written d.md h.edge h.type fun ht => ?_⟩
  obtain ⟨_, _, _, hs⟩ := (h.crs ht).hasText
  exact hs

theorem DType.Sound.same {d d' : DType} (h : d.Sound) (e : d'.md = storedView d.md) : SameMetadata d d' := by
  refine ⟨by rw [e]; rfl, by rw [e]; rfl, fun ht => ?_⟩
  obtain ⟨text, h1, h2, _⟩ := (h.crs ht).hasText
  refine ⟨text, h1.crsIs, HasText.crsIs ?_⟩
  rw [e]
  unfold storedView
  dsimp only
  rw [if_neg ht]
  exact h2

theorem keeps_of_storable {crs : List Byte} (h : StorableCrs crs) : KeepsCrs crs := by
  rcases h with ⟨hh, hj⟩ | h
  · exact .inl ⟨scans_json hj (.inr (hh.imp id .inl)), hh⟩
  · exact .inr h

theorem keeps_found {crs : List Byte} (h : crs.head? = some 123) (hf : findValue none 100 crs = .ok crs []) : KeepsCrs crs :=
  .inl ⟨findValue_local hf, .inl h⟩

theorem lonlat_head : crsWgs84.head? = some 123 := by decide +kernel

theorem lonlat_found : (findValue none 100 crsWgs84 == .ok crsWgs84 []) = true := by decide +kernel

theorem keeps_of_bool {crs : List Byte} (h : crs.head? = some 123) (hf : (findValue none 100 crs == .ok crs []) = true) : KeepsCrs crs :=
  keeps_found h (by simpa using hf)

attribute [local irreducible] crsWgs84

theorem keeps_lonlat : KeepsCrs crsWgs84 := keeps_of_bool lonlat_head lonlat_found

theorem dtWithCrsLonLat_md (d : DType) : (dtWithCrsLonLat d).md = metadataSetLonLat d.md := rfl

theorem lonlat_range (d : DType) : (0 ≤ (dtWithCrsLonLat d).md.crsType ∧ (dtWithCrsLonLat d).md.crsType ≤ 5) ∧ (dtWithCrsLonLat d).md.crs = crsWgs84 ∧
    (dtWithCrsLonLat d).md.edge = d.md.edge := by
  unfold dtWithCrsLonLat metadataSetLonLat
  exact ⟨by dsimp only; omega, rfl, rfl⟩

/-- Views of texts. -/
theorem read_keeps {after : Option Byte} {n : Nat} {text : List Byte} {w : MdView} {rest : List Byte}
    (h : metadataViewInit after n text = .ok w rest) :
    (0 ≤ w.edge ∧ w.edge ≤ 5) ∧ (0 ≤ w.crsType ∧ w.crsType ≤ 5) ∧ (w.crsType ≠ 0 → KeepsCrs w.crs) := by
  have hr := metadata_read h
  refine ⟨hr.edge, hr.type, fun ht => ?_⟩
  rcases hr.crs with h' | h'
  · exact absurd h' (viewed_type h ht)
  · exact .inl h'

theorem ofParse_ok {r : PRes MdView} {w : MdView} (h : CppRes.ofParse r = .ok w) : ∃ rest, r = .ok w rest := by
  cases r with
  | ok w' rest => cases h; exact ⟨rest, rfl⟩
  | err => cases h
  | oob => cases h
  | stuck => cases h

theorem ofView_ok {r : Res SView Unit} {v : SView} (h : CppRes.ofView r = .ok v) : r = .ok () v := by
  cases r with
  | ok a v' => cases h; rfl
  | err => cases h
  | ub => cases h

theorem bind_ok_inv {α β : Type} {r : CppRes α} {f : α → CppRes β} {b : β} (h : r.bind f = .ok b) : ∃ a, r = .ok a ∧ f a = .ok b := by
  cases r with
  | ok a => exact ⟨a, rfl, h⟩
  | throws => cases h
  | hangs => cases h
  | ub => cases h

/-- The parts that a storage has. -/
theorem describes_parts {ext : List Byte} {s : ASchema} {v : SView} (h : Describes ext s v) :
    v.type ∈ nativeTypes ++ serializedTypes ∧ v.geometryType = geometryTypeFromType v.type ∧ v.dimensions = dimensionsFromType v.type ∧
      v.coordType = coordTypeFromType v.type := by
  obtain ⟨-, hx, -, hd⟩ := h
  rcases hd with ⟨d, h1, h2, h3⟩ | ⟨-, h2, h3, h4, h5⟩
  · have hv : ValidParts v.geometryType v.dimensions v.coordType := by
      have hd : 1 ≤ v.dimensions ∧ v.dimensions ≤ 4 := by rw [h1]; cases d <;> decide
      refine ⟨hd.1, hd.2, ?_⟩
      have key : ∀ g c, Native ext g d c s → (1 ≤ g ∧ g ≤ 6 ∧ 1 ≤ c ∧ c ≤ 2) ∨ (g = 990 ∧ c = 1) := by
        intro g c hN
        have lk : ∀ n, Lists d c n s → 1 ≤ c ∧ c ≤ 2 := fun n h => by have := h.ct; omega
        cases hN with
        | point h => exact .inl ⟨by decide, by decide, lk _ h⟩
        | linestring h => exact .inl ⟨by decide, by decide, lk _ h⟩
        | polygon h => exact .inl ⟨by decide, by decide, lk _ h⟩
        | multipoint h => exact .inl ⟨by decide, by decide, lk _ h⟩
        | multilinestring h => exact .inl ⟨by decide, by decide, lk _ h⟩
        | multipolygon h => exact .inl ⟨by decide, by decide, lk _ h⟩
        | box h => exact .inr ⟨rfl, rfl⟩
      exact key _ _ h2
    have hm : makeType v.geometryType v.dimensions v.coordType = v.type := by
      obtain ⟨a, b, c⟩ := hv
      unfold makeType GT.geometry GT.box
      rw [h3, if_neg (by omega), if_neg (by omega), if_neg (by omega), if_neg (by omega), Int.mul_comm 1000, Int.mul_comm 10000]
    have := C02_make_then_split _ _ _ hv
    rw [hm] at this
    exact ⟨List.mem_append_left _ this.1, this.2.1.symm, this.2.2.1.symm, this.2.2.2.symm⟩
  · have ht : v.type ∈ serializedTypes := by
      generalize v.type = t at h2
      cases h2 <;> decide
    have := C02_serialized_parts v.type ht
    exact ⟨List.mem_append_right _ ht, h3.trans this.1.symm, h4.trans this.2.1.symm, h5.trans this.2.2.symm⟩

theorem documented_named : ∀ t ∈ nativeTypes ++ serializedTypes, t ≠ 0 ∧ extensionNameFromType t ≠ none := by decide +kernel

theorem fromType_ok {type : TypeId} (h0 : type ≠ 0) (hn : extensionNameFromType type ≠ none) :
    ∃ n, CppRes.ofView (schemaViewInitFromType type svZero) =
      .ok ⟨n, none, type, geometryTypeFromType type, dimensionsFromType type, coordTypeFromType type⟩ := by
  unfold schemaViewInitFromType
  cases he : extensionNameFromType type with
  | none => exact absurd he hn
  | some n =>
    refine ⟨some (str n), ?_⟩
    rw [if_neg h0]
    rfl

theorem fromType_none {type : TypeId} (h0 : type ≠ 0) (hn : extensionNameFromType type = none) :
    CppRes.ofView (schemaViewInitFromType type svZero) = .throws := by
  unfold schemaViewInitFromType
  rw [hn, if_neg h0]
  rfl

theorem obtained_sound {d : DType} (h : Obtained d) : d.Sound := by
  induction h with
  | @type n type metadata d h =>
    unfold dtMakeType at h
    by_cases h0 : type = 0
    · rw [if_pos h0] at h; cases h
    rw [if_neg h0] at h
    by_cases hn : extensionNameFromType type = none
    · rw [fromType_none h0 hn] at h; cases h
    obtain ⟨nm, e⟩ := fromType_ok h0 hn
    rw [e] at h
    obtain ⟨w, hw, h⟩ := bind_ok_inv (α := MdView) h
    obtain ⟨rest, hw⟩ := ofParse_ok hw
    cases h
    obtain ⟨k1, k2, k3⟩ := read_keeps hw
    exact ⟨h0, hn, rfl, rfl, rfl, k1, k2, k3⟩
  | @schema after n s d hf hz h =>
    obtain ⟨v, hv, h⟩ := bind_ok_inv h
    obtain ⟨w, hw, h⟩ := bind_ok_inv h
    obtain ⟨rest, hw⟩ := ofParse_ok hw
    have hv := ofView_ok hv
    cases h
    obtain ⟨k1, k2, k3⟩ := read_keeps hw
    rcases C04_view_exact_partial s hf hz svZero with ⟨ext, w', -, hd, he⟩ | ⟨-, w', he⟩
    · rw [he] at hv
      cases hv
      obtain ⟨p1, p2, p3, p4⟩ := describes_parts hd
      obtain ⟨q1, q2⟩ := documented_named _ p1
      exact ⟨q1, q2, p2, p3, p4, k1, k2, k3⟩
    · rw [he] at hv; cases hv
  | @storage n s ext metadata d hf hz h =>
    obtain ⟨v, hv, h⟩ := bind_ok_inv h
    obtain ⟨w, hw, h⟩ := bind_ok_inv h
    obtain ⟨rest, hw⟩ := ofParse_ok hw
    have hv := ofView_ok hv
    cases h
    obtain ⟨k1, k2, k3⟩ := read_keeps hw
    rcases C04_storage_view_exact_partial s ext hf hz svZero with ⟨w', hd, he⟩ | ⟨-, w', he⟩
    · rw [he] at hv
      cases hv
      obtain ⟨p1, p2, p3, p4⟩ := describes_parts hd
      obtain ⟨q1, q2⟩ := documented_named _ p1
      exact ⟨q1, q2, p2, p3, p4, k1, k2, k3⟩
    · rw [he] at hv; cases hv
  | withEdgeType _ he ih => exact ⟨ih.nonzero, ih.named, ih.geometry, ih.dims, ih.coord, he, ih.type, ih.crs⟩
  | withCrs _ hc ht ih => exact ⟨ih.nonzero, ih.named, ih.geometry, ih.dims, ih.coord, ih.edge, ht, fun _ => keeps_of_storable hc⟩
  | withCrsLonLat _ ih =>
    next d' _ =>
      obtain ⟨h1, h2, h3⟩ := lonlat_range d'
      exact ⟨ih.nonzero, ih.named, ih.geometry, ih.dims, ih.coord, by rw [h3]; exact ih.edge, h1, fun _ => by rw [h2]; exact keeps_lonlat⟩

/-! ## Making data types from parts -/

theorem extensionMetadata_ok {d : DType} (h : d.Sound) (heap : Nat → Byte) : dtExtensionMetadata heap d = .ok (mdBytes d.md) := by
  obtain ⟨hs, -⟩ := h.views
  unfold dtExtensionMetadata
  have h0 := hs []
  rw [List.length_nil] at h0
  rw [show (0 : Int) = ((0 : Nat) : Int) from rfl, h0]
  dsimp only
  rw [Int.toNat_natCast]
  have h1 := hs (heapBytes heap (mdBytes d.md).length)
  rw [heapBytes_length] at h1
  rw [h1]
  dsimp only
  rw [if_pos (Nat.le_refl _), filled_exact (heapBytes_length _ _)]

theorem makeType_gives {type : TypeId} (h0 : type ≠ 0) (hn : extensionNameFromType type ≠ none) {text : List Byte} {w : MdView} (hv : Views text w) :
    Gives (fun n => dtMakeType n type text) ⟨type, geometryTypeFromType type, dimensionsFromType type, coordTypeFromType type, w⟩ := by
  obtain ⟨n0, hv⟩ := hv
  refine ⟨n0, fun n hn0 => ?_⟩
  unfold dtMakeType
  obtain ⟨nm, e⟩ := fromType_ok h0 hn
  dsimp only
  rw [if_neg h0, e]
  simp only [CppRes.bind, hv n hn0 (some 0), CppRes.ofParse]
  rfl

theorem parts_range (t : TypeId) : (0 ≤ geometryTypeFromType t ∧ geometryTypeFromType t ≤ 7 ∨ geometryTypeFromType t = 990) ∧
    (0 ≤ dimensionsFromType t ∧ dimensionsFromType t ≤ 4) ∧ (0 ≤ coordTypeFromType t ∧ coordTypeFromType t ≤ 2) := by
  refine ⟨?_, ?_, ?_⟩
  · unfold geometryTypeFromType GT.geometry GT.box
    dsimp only
    generalize Int.tmod _ 1000 = g
    repeat' split
    all_goals omega
  · unfold dimensionsFromType
    dsimp only
    generalize Int.tdiv _ 1000 = q
    repeat' split
    all_goals omega
  · unfold coordTypeFromType
    repeat' split
    all_goals omega

/-- The constants of the three enumerations. -/
def Enumerated (g dims c : Int) : Prop := (0 ≤ g ∧ g ≤ 7 ∨ g = 990) ∧ (0 ≤ dims ∧ dims ≤ 4) ∧ (0 ≤ c ∧ c ≤ 2)

theorem makeParts_invalid {g dims c : Int} (h : Enumerated g dims c) (hv : ¬ ValidParts g dims c) (n : Nat) (text : List Byte) :
    dtMakeParts n g dims c text = .throws := by
  unfold dtMakeParts
  dsimp only
  by_cases h0 : makeType g dims c = 0
  · rw [if_pos h0]
  rw [if_neg h0]
  unfold dtMakeType
  rw [if_neg h0]
  have hn : extensionNameFromType (makeType g dims c) = none := by
    obtain ⟨hg, hd, hc⟩ := h
    have hd0 : dims ≠ 0 := fun e => h0 (C02_unspecified_parts g dims c (.inr (.inl e)))
    have hc0 : c ≠ 0 := fun e => h0 (C02_unspecified_parts g dims c (.inr (.inr (.inl e))))
    have hg0 : g ≠ 0 := fun e => h0 (C02_unspecified_parts g dims c (.inl e))
    have hb : ¬ (g = 990 ∧ c ≠ 1) := fun e => h0 (C02_unspecified_parts g dims c (.inr (.inr (.inr e))))
    have hg7 : g = 7 := by
      unfold ValidParts at hv
      omega
    subst hg7
    have hd' : dims = 1 ∨ dims = 2 ∨ dims = 3 ∨ dims = 4 := by omega
    have hc' : c = 1 ∨ c = 2 := by omega
    rcases hd' with rfl | rfl | rfl | rfl <;> rcases hc' with rfl | rfl <;> decide +kernel
  rw [fromType_none h0 hn]
  rfl

theorem makeParts_valid {g dims c : Int} (hv : ValidParts g dims c) {text : List Byte} {w : MdView} (ht : Views text w) :
    Gives (fun n => dtMakeParts n g dims c text) ⟨makeType g dims c, g, dims, c, w⟩ := by
  obtain ⟨hm, h1, h2, h3⟩ := C02_make_then_split g dims c hv
  obtain ⟨q1, q2⟩ := documented_named _ (List.mem_append_left _ hm)
  obtain ⟨n0, h⟩ := makeType_gives q1 q2 ht
  refine ⟨n0, fun n hn => ?_⟩
  have := h n hn
  rw [h1, h2, h3] at this
  unfold dtMakeParts
  dsimp only at this ⊢
  rw [if_neg q1, this]

/-- Making a data type of other parts and the metadata of this one. -/
theorem withParts {d : DType} (h : d.Sound) {g dims c : Int} (hE : Enumerated g dims c) (heap : Nat → Byte) :
    (ValidParts g dims c → ∃ d', Gives (fun n => (dtExtensionMetadata heap d).bind fun m => dtMakeParts n g dims c m) d' ∧
      HasParts d' (makeType g dims c) g dims c ∧ SameMetadata d d') ∧
    (¬ ValidParts g dims c → Throws (fun n => (dtExtensionMetadata heap d).bind fun m => dtMakeParts n g dims c m)) := by
  rw [extensionMetadata_ok h]
  refine ⟨fun hv => ?_, fun hv => ⟨0, fun n _ => makeParts_invalid hE hv n _⟩⟩
  exact ⟨_, makeParts_valid hv h.views.2, ⟨rfl, rfl, rfl, rfl⟩, h.same rfl⟩

/-! ## Metadata of schemas -/

theorem metadataGet_set (key value : List Byte) (md : List (List Byte × List Byte)) : metadataGet key (metadataSet key value md) = some value := by
  unfold metadataSet
  cases h : metadataGet key md with
  | none =>
    dsimp only
    induction md with
    | nil => simp [metadataGet]
    | cons kv md ih =>
      obtain ⟨k, v⟩ := kv
      unfold metadataGet at h
      split at h
      · cases h
      next hk => rw [List.cons_append, metadataGet, if_neg hk]; exact ih h
  | some v0 =>
    dsimp only
    induction md with
    | nil => cases h
    | cons kv md ih =>
      obtain ⟨k, v⟩ := kv
      unfold metadataReplace
      by_cases hk : k = key
      · rw [if_pos hk]; simp [metadataGet]
      · rw [if_neg hk, metadataGet, if_neg hk]
        rw [metadataGet, if_neg hk] at h
        exact ih h

theorem metadataReplace_filter (key : List Byte) : ∀ (v : Option (List Byte)) (md : List (List Byte × List Byte)),
    (metadataReplace key v md).filter (fun kv => kv.1 ≠ key) = md.filter (fun kv => kv.1 ≠ key)
  | _, [] => by simp [metadataReplace]
  | v, (k, x) :: rest => by
    unfold metadataReplace
    by_cases hk : k = key
    · rw [if_pos hk]
      cases v with
      | none => simp only; rw [metadataReplace_filter key none rest]; simp [hk]
      | some v => simp only; rw [List.filter_cons, if_neg (by simp), metadataReplace_filter key none rest]; simp [hk]
    · rw [if_neg hk, List.filter_cons, List.filter_cons, metadataReplace_filter key v rest]

theorem metadataSet_filter (key value : List Byte) (md : List (List Byte × List Byte)) :
    (metadataSet key value md).filter (fun kv => kv.1 ≠ key) = md.filter (fun kv => kv.1 ≠ key) := by
  unfold metadataSet
  split
  · simp [List.filter_append]
  · exact metadataReplace_filter _ _ _

theorem metadataReplace_none (key : List Byte) : ∀ (md : List (List Byte × List Byte)),
    (metadataReplace key none md).filter (fun kv => kv.1 = key) = []
  | [] => rfl
  | (k, x) :: rest => by
    unfold metadataReplace
    by_cases hk : k = key
    · rw [if_pos hk]; exact metadataReplace_none key rest
    · rw [if_neg hk, List.filter_cons, if_neg (by simpa using hk)]; exact metadataReplace_none key rest

theorem metadataSet_one (key value : List Byte) (md : List (List Byte × List Byte)) :
    (metadataSet key value md).filter (fun kv => kv.1 = key) = [(key, value)] := by
  unfold metadataSet
  cases h : metadataGet key md with
  | none =>
    dsimp only
    induction md with
    | nil => simp
    | cons kv md ih =>
      obtain ⟨k, v⟩ := kv
      unfold metadataGet at h
      split at h
      · cases h
      next hk => rw [List.cons_append, List.filter_cons, if_neg (by simpa using hk)]; exact ih h
  | some v0 =>
    dsimp only
    induction md with
    | nil => cases h
    | cons kv md ih =>
      obtain ⟨k, v⟩ := kv
      unfold metadataReplace
      by_cases hk : k = key
      · rw [if_pos hk]; simp [metadataReplace_none]
      · rw [if_neg hk, List.filter_cons, if_neg (by simpa using hk)]
        rw [metadataGet, if_neg hk] at h
        exact ih h

/-- The memory is filled. -/
theorem mdAlloc_ok {w : MdView} (h : countBackslashes w = 0) (heap : Nat → Byte) : mdAlloc heap w = some (mdBytes w) := by
  unfold mdAlloc writeAt
  have := mdSize_bytes w
  rw [h] at this
  rw [heapBytes_length, if_pos (by omega)]
  congr 1
  rw [List.take_zero, List.nil_append, List.drop_of_length_le (by rw [heapBytes_length]; omega), List.append_nil]

/-- The memory is not overrun. -/
theorem mdAlloc_some (w : MdView) (heap : Nat → Byte) : ∃ text, mdAlloc heap w = some text := by
  unfold mdAlloc writeAt
  have := mdSize_bytes w
  rw [heapBytes_length, if_pos (by omega)]
  exact ⟨_, rfl⟩

theorem naInit_setMetadata (s : ASchema) (md : List (List Byte × List Byte)) :
    naInit (s.setMetadata md) = (naInit s).map fun na =>
      ⟨na.type, na.fixedSize, metadataGet (str "ARROW:extension:name") md, metadataGet (str "ARROW:extension:metadata") md⟩ := by
  have h1 : (s.setMetadata md).format = s.format := by cases s; rfl
  have h2 : (s.setMetadata md).dictionary = s.dictionary := by cases s; rfl
  have h3 : (s.setMetadata md).children = s.children := by cases s; rfl
  have h4 : (s.setMetadata md).flags = s.flags := by cases s; rfl
  have h5 : (s.setMetadata md).metadata = md := by cases s; rfl
  unfold naInit
  rw [h1, h2, h3, h4, h5]
  cases s.format with
  | none => rfl
  | some f =>
    dsimp only
    cases naParse f with
    | none => rfl
    | some t =>
      dsimp only
      repeat' split
      all_goals rfl

theorem svFixedSizeList_setMetadata (s : ASchema) (md : List (List Byte × List Byte)) : svFixedSizeList (s.setMetadata md) = svFixedSizeList s := by
  have hn := naInit_setMetadata s md
  obtain ⟨f, n, m, fl, c, d⟩ := s
  unfold svFixedSizeList
  simp only [ASchema.setMetadata, ASchema.children] at hn ⊢
  split
  · unfold svNa
    rw [hn]
    generalize naInit (ASchema.mk f n m fl _ d) = r
    cases r <;> rfl
  · rfl

theorem svNested_setMetadata (k : Nat) (s : ASchema) (md : List (List Byte × List Byte)) : svNested k (s.setMetadata md) = svNested k s := by
  have hs := svFixedSizeList_setMetadata s md
  obtain ⟨f, n, m, fl, c, d⟩ := s
  cases k with
  | zero =>
    unfold svNested
    simp only [ASchema.setMetadata, ASchema.format] at hs ⊢
    rw [hs]
    rfl
  | succ k => rfl

theorem svByName_setMetadata (s : ASchema) (md : List (List Byte × List Byte)) (na na' : NaView) (h : na'.type = na.type) (ext : List Byte) :
    svByName (s.setMetadata md) na' ext = svByName s na ext := by
  unfold svByName
  rw [show svBox (s.setMetadata md) = svBox s by cases s; rfl, h]
  simp only [svNested_setMetadata]

/-- Metadata of the root other than the extension name only change the metadata in the view. -/
theorem view_setMetadata {s : ASchema} {md : List (List Byte × List Byte)} {v w : SView}
    (hn : metadataGet (str "ARROW:extension:name") md = metadataGet (str "ARROW:extension:name") s.metadata) (h : schemaViewInit s v = .ok () w) :
    schemaViewInit (s.setMetadata md) v = .ok () { w with extMetadata := metadataGet (str "ARROW:extension:metadata") md } := by
  unfold schemaViewInit at h ⊢
  have hi := naInit_setMetadata s md
  cases hna : naInit s with
  | none =>
    rw [M.bind_err (m := svNa s) (by unfold svNa; rw [hna]; rfl)] at h
    cases h
  | some na =>
    rw [hna, Option.map_some] at hi
    rw [M.bind_ok (m := svNa s) (by unfold svNa; rw [hna]; rfl)] at h
    rw [M.bind_ok (m := svNa (s.setMetadata md)) (by unfold svNa; rw [hi]; rfl)]
    have hname : na.extName = metadataGet (str "ARROW:extension:name") s.metadata := by
      unfold naInit at hna
      repeat' split at hna
      all_goals first | (cases hna; rfl) | cases hna
    dsimp only
    rw [hn, ← hname]
    cases he : na.extName with
    | none => rw [he] at h; cases h
    | some ext =>
      rw [he] at h
      dsimp only at h ⊢
      unfold svInternal at h ⊢
      rw [svByName_setMetadata s md na ⟨na.type, na.fixedSize, some ext, metadataGet (str "ARROW:extension:metadata") md⟩ rfl]
      cases hb : svByName s na ext v with
      | ok a v' =>
        rw [M.bind_ok hb] at h ⊢
        cases h
        rfl
      | err rc v' => rw [M.bind_err hb] at h; cases h
      | ub => rw [show (svByName s na ext >>= _) v = .ub from M.bind_ub hb] at h; cases h

theorem metadataGet_other {key key' : List Byte} (hk : key' ≠ key) (value : List Byte) (md : List (List Byte × List Byte)) :
    metadataGet key' (metadataSet key value md) = metadataGet key' md := by
  have rep : ∀ (v : Option (List Byte)) (md : List (List Byte × List Byte)), metadataGet key' (metadataReplace key v md) = metadataGet key' md := by
    intro v md
    induction md generalizing v with
    | nil => rfl
    | cons kv md ih =>
      obtain ⟨k, x⟩ := kv
      unfold metadataReplace
      by_cases h : k = key
      · rw [if_pos h]
        have h2 : k ≠ key' := fun e => hk (e.symm.trans h)
        rw [metadataGet, if_neg h2]
        cases v with
        | none => exact ih none
        | some v => simp only; rw [metadataGet, if_neg (Ne.symm hk)]; exact ih none
      · rw [if_neg h, metadataGet, metadataGet, ih v]
  unfold metadataSet
  split
  · clear rep
    induction md with
    | nil => simp [metadataGet, Ne.symm hk]
    | cons kv md ih =>
      obtain ⟨k, x⟩ := kv
      rw [List.cons_append, metadataGet, metadataGet]
      split
      · rfl
      · apply ih
        next h _ =>
          unfold metadataGet at h
          split at h
          · cases h
          · exact h
  · exact rep _ _

theorem stored_view {t : TypeId} (h : t ∈ nativeTypes ++ serializedTypes) (text : List Byte) (v : SView) :
    ∃ s, schemaInitExtension t = .ok s ∧ schemaViewInit (s.setMetadata (metadataSet (str "ARROW:extension:metadata") text s.metadata)) v =
      .ok () ⟨(extensionNameFromType t).map str, some text, t, geometryTypeFromType t, dimensionsFromType t, coordTypeFromType t⟩ := by
  obtain ⟨s, hs⟩ := (C03_created_types t).mpr h
  refine ⟨s, hs, ?_⟩
  have := view_setMetadata (md := metadataSet (str "ARROW:extension:metadata") text s.metadata)
    (metadataGet_other (by decide) _ _) (C03_view_of_created t s hs v)
  rw [this, metadataGet_set]

theorem initSchema_ok {d : DType} (h : d.Sound) (ht : d.type ∈ nativeTypes ++ serializedTypes) (heap : Nat → Byte) :
    ∃ s, dtInitSchema heap d = .ok s ∧ ∀ after, ∃ d', Gives (fun n => dtMakeSchema after n s) d' ∧
      HasParts d' d.type d.geometryType d.dimensions d.coordType ∧ SameMetadata d d' := by
  obtain ⟨s, hs, hv⟩ := stored_view ht (mdBytes d.md) svZero
  refine ⟨_, by unfold dtInitSchema schemaSetMetadata; rw [hs, mdAlloc_ok (KeepsCrs.noBackslashes h.crs)]; rfl, fun after => ?_⟩
  obtain ⟨n0, hw⟩ := h.views.2
  refine ⟨⟨d.type, d.geometryType, d.dimensions, d.coordType, storedView d.md⟩, ⟨n0, fun n hn => ?_⟩, ⟨rfl, rfl, rfl, rfl⟩, h.same rfl⟩
  unfold dtMakeSchema
  rw [hv]
  simp only [CppRes.ofView, CppRes.bind, Option.getD_some, hw n hn after, CppRes.ofParse, DType.new]
  rw [h.geometry, h.dims, h.coord]

end Verif
