import Verif.Proof.Schema
import Verif.Props.Types
/-!
# C03, C04: schemas
-/
namespace Verif
open Spec

/-! ## C04 -/

/-- Viewing a schema succeeds exactly when the storage has the layout of a type with its extension name, and then reports
that type. Everything else is `EINVAL`, and nothing is read that is not there. Partial: it is assumed that every column has
a format and that declared list sizes are 32-bit numbers. -/
theorem C04_view_exact_partial (s : ASchema) (hf : HasFormats s) (hz : SizesFit s) (v : SView) :
    (∃ ext v', firstValue "ARROW:extension:name" s = some ext ∧ Describes ext s v' ∧ schemaViewInit s v = .ok () v') ∨
    ((¬ ∃ ext v', firstValue "ARROW:extension:name" s = some ext ∧ Describes ext s v') ∧
      ∃ v', schemaViewInit s v = .err EINVAL v') := by
  unfold schemaViewInit
  cases hna : naInit s with
  | none =>
    refine .inr ⟨?_, v, ?_⟩
    · rintro ⟨ext, v', _, hd⟩
      obtain ⟨na, h⟩ := naInit_of_describes hd
      rw [hna] at h
      cases h
    · exact M.bind_err (m := svNa s) (by unfold svNa; rw [hna]; rfl)
  | some na =>
    rw [M.bind_ok (m := svNa s) (by unfold svNa; rw [hna]; rfl)]
    obtain ⟨-, -, -, -, -, hx, -⟩ := naInit_inv hna
    rw [metadataGet_first] at hx
    cases he : na.extName with
    | none =>
      refine .inr ⟨?_, v, rfl⟩
      rintro ⟨ext, v', h, -⟩
      rw [← hx, he] at h
      cases h
    | some ext =>
      rw [he] at hx
      have hp := svInternal_inv hf hz hna ext v
      cases hr : svInternal s na ext v with
      | ub => rw [hr] at hp; exact hp.elim
      | ok a v' => rw [hr] at hp; exact .inl ⟨ext, v', hx.symm, hp, hr⟩
      | err rc v' =>
        rw [hr] at hp
        refine .inr ⟨?_, v', ?_⟩
        · rintro ⟨ext', w, h', hd⟩
          rw [← hx] at h'
          cases h'
          rw [svInternal_ok hna hd v] at hr
          cases hr
        · exact hr.trans (congrArg (Res.err · v') hp)

/-- The same when the extension name is given apart from the schema. -/
theorem C04_storage_view_exact_partial (s : ASchema) (ext : List Byte) (hf : HasFormats s) (hz : SizesFit s) (v : SView) :
    (∃ v', Describes ext s v' ∧ schemaViewInitFromStorage s ext v = .ok () v') ∨
    ((¬ ∃ v', Describes ext s v') ∧ ∃ v', schemaViewInitFromStorage s ext v = .err EINVAL v') := by
  unfold schemaViewInitFromStorage
  cases hna : naInit s with
  | none =>
    refine .inr ⟨?_, v, ?_⟩
    · rintro ⟨v', hd⟩
      obtain ⟨na, h⟩ := naInit_of_describes hd
      rw [hna] at h
      cases h
    · exact M.bind_err (m := svNa s) (by unfold svNa; rw [hna]; rfl)
  | some na =>
    rw [M.bind_ok (m := svNa s) (by unfold svNa; rw [hna]; rfl)]
    have hp := svInternal_inv hf hz hna ext v
    cases hr : svInternal s na ext v with
    | ub => rw [hr] at hp; exact hp.elim
    | ok a v' => rw [hr] at hp; exact .inl ⟨v', hp, rfl⟩
    | err rc v' =>
      rw [hr] at hp
      refine .inr ⟨?_, v', congrArg (Res.err · v') hp⟩
      rintro ⟨w, hd⟩
      rw [svInternal_ok hna hd v] at hr
      cases hr

/-- A native type that is reported: the storage has its layout, and the type is made of the reported parts. -/
theorem C04_accepted_layout_partial (s : ASchema) (hf : HasFormats s) (hz : SizesFit s) (v v' : SView)
    (h : schemaViewInit s v = .ok () v') (hn : v'.type ∈ nativeTypes) :
    ∃ d : Dims, v'.dimensions = d.code ∧ (∃ ext, v'.extName = some ext ∧ Native ext v'.geometryType d v'.coordType s) ∧
      v'.geometryType = geometryTypeFromType v'.type ∧ v'.dimensions = dimensionsFromType v'.type ∧
      v'.coordType = coordTypeFromType v'.type := by
  rcases C04_view_exact_partial s hf hz v with ⟨ext, w, -, hd, he⟩ | ⟨-, w, he⟩
  · rw [he] at h
    cases h
    obtain ⟨-, hx, -, hd⟩ := hd
    rcases hd with ⟨d, h1, h2, h3⟩ | ⟨-, h2, -⟩
    · refine ⟨d, h1, ⟨ext, hx, h2⟩, ?_⟩
      have hv : ValidParts v'.geometryType v'.dimensions v'.coordType := by
        have hd : 1 ≤ v'.dimensions ∧ v'.dimensions ≤ 4 := by rw [h1]; cases d <;> decide
        refine ⟨hd.1, hd.2, ?_⟩
        have key : ∀ g c, Native ext g d c s → (1 ≤ g ∧ g ≤ 6 ∧ 1 ≤ c ∧ c ≤ 2) ∨ (g = 990 ∧ c = 1) := by
          intro g c hN
          have lk : ∀ n, Lists d c n s → 1 ≤ c ∧ c ≤ 2 := fun n h => by have := h.ct; omega
          cases hN with
          | point h => exact .inl ⟨by decide, by decide, lk _ h⟩
          | linestring h => exact .inl ⟨by decide, by decide, lk _ h⟩
          | polygon h => exact .inl ⟨by decide, by decide, lk _ h⟩
          | multipoint h => exact .inl ⟨by decide, by decide, lk _ h⟩
          | multilinestring h => exact .inl ⟨by decide, by decide, lk _ h⟩
          | multipolygon h => exact .inl ⟨by decide, by decide, lk _ h⟩
          | box h => exact .inr ⟨rfl, rfl⟩
        exact key _ _ h2
      have hm : makeType v'.geometryType v'.dimensions v'.coordType = v'.type := by
        obtain ⟨a, b, c⟩ := hv
        unfold makeType GT.geometry GT.box
        rw [h3, if_neg (by omega), if_neg (by omega), if_neg (by omega), if_neg (by omega), Int.mul_comm 1000, Int.mul_comm 10000]
      have := C02_make_then_split _ _ _ hv
      rw [hm] at this
      exact ⟨this.2.1.symm, this.2.2.1.symm, this.2.2.2.symm⟩
    · generalize v'.type = t at hn h2
      cases h2 <;> exact absurd hn (by decide)
  · rw [he] at h
    cases h

/-- A linestring of interleaved XYZ coordinates. -/
def exSchema : ASchema :=
  .mk (some (str "+l")) none [(str "ARROW:extension:name", str "geoarrow.linestring")] 2
    [.mk (some (str "+w:3")) (some (str "vertices")) [] 0 [.mk (some (str "g")) (some (str "xyz")) [] 0 [] false] false] false

theorem exSchema_within {t : ASchema} (h : Within t exSchema) : ∃ f, t.format = some f ∧ (f = str "+l" ∨ f = str "+w:3" ∨ f = str "g") := by
  unfold exSchema at h
  generalize he : ASchema.mk _ _ _ _ _ _ = s at h
  cases h with
  | self => subst he; exact ⟨_, rfl, .inl rfl⟩
  | child hc h =>
    subst he
    simp only [ASchema.children, List.mem_singleton] at hc
    generalize he : ASchema.mk _ _ _ _ _ _ = s at hc
    subst hc
    cases h with
    | self => subst he; exact ⟨_, rfl, .inr (.inl rfl)⟩
    | child hc h =>
      subst he
      simp only [ASchema.children, List.mem_singleton] at hc
      generalize he : ASchema.mk _ _ _ _ _ _ = s at hc
      subst hc
      cases h with
      | self => subst he; exact ⟨_, rfl, .inr (.inr rfl)⟩
      | child hc h => subst he; simp [ASchema.children] at hc

theorem exSchema_formats : HasFormats exSchema := by
  intro t ht
  obtain ⟨f, hf, -⟩ := exSchema_within ht
  simp [hf]

theorem exSchema_fits : SizesFit exSchema := by
  intro t ht text n hf hn
  obtain ⟨f, hf', h⟩ := exSchema_within ht
  rw [hf'] at hf
  cases hf
  have h1 := strtol_of_text hn
  rcases h with h | h | h
  · simp [str] at h
  · have : text = str "3" := by simpa [str] using h
    rw [this] at h1
    have h2 : clampLong n = 3 := by
      have h3 : strtol (str "3") = (3, []) := by decide
      rw [h3] at h1
      exact (congrArg Prod.fst h1).symm
    unfold clampLong at h2
    split at h2
    · omega
    · split at h2 <;> omega
  · simp [str] at h

def exSView : SView :=
  { extName := none, extMetadata := none, type := 0, geometryType := 0, dimensions := 0, coordType := 0 }

example : HasFormats exSchema ∧ SizesFit exSchema ∧
    schemaViewInit exSchema exSView =
      .ok () { extName := some (str "geoarrow.linestring"), extMetadata := none, type := 11002, geometryType := 2, dimensions := 2, coordType := 2 } :=
  ⟨exSchema_formats, exSchema_fits, by decide +kernel⟩

/-- The full claim fails: a list declared to have 4294967298 doubles is accepted as a list of two. -/
theorem C04_size_wraps :
    let s : ASchema := .mk (some (str "+w:4294967298")) none [(str "ARROW:extension:name", str "geoarrow.point")] 2
      [.mk (some (str "g")) (some (str "xy")) [] 0 [] false] false
    ∃ v', schemaViewInit s exSView = .ok () v' ∧ v'.type = 10001 ∧ NumberText (str "4294967298") 4294967298 := by
  refine ⟨{ extName := some (str "geoarrow.point"), extMetadata := none, type := 10001, geometryType := 1, dimensions := 1, coordType := 2 },
    by decide +kernel, rfl, [], [], str "4294967298", rfl, by simp, by decide, ?_, .inl ⟨.inl rfl, by decide +kernel⟩⟩
  show ∀ c ∈ str "4294967298", 48 ≤ c.toNat ∧ c.toNat ≤ 57
  decide

/-- A child without a format is undefined behaviour, not an error. -/
theorem C04_missing_format :
    schemaViewInit (.mk (some (str "+l")) none [(str "ARROW:extension:name", str "geoarrow.linestring")] 2
      [.mk none (some (str "vertices")) [] 0 [] false] false) exSView = .ub := by
  decide +kernel

/-- Only the names of WKB are compared by prefix. -/
theorem C04_wkb_name_prefix :
    (schemaViewInit (.mk (some (str "z")) none [(str "ARROW:extension:name", str "geoarrow.wkbfoo")] 2 [] false) exSView).code? = some 0 ∧
    (schemaViewInit (.mk (some (str "u")) none [(str "ARROW:extension:name", str "geoarrow.wktfoo")] 2 [] false) exSView).code? = some EINVAL := by
  decide +kernel

/-! ## C03 -/

/-- An identifier whose parts are valid is made of them. -/
theorem made_of_parts {t : Int} (h : ValidParts (geometryTypeFromType t) (dimensionsFromType t) (coordTypeFromType t)) :
    makeType (geometryTypeFromType t) (dimensionsFromType t) (coordTypeFromType t) = t := by
  obtain ⟨hd1, hd4, hp⟩ := h
  have hco : coordTypeFromType t = (if t ≥ 100001 then (0 : Int) else if t ≥ 10001 then 2 else if t ≥ 1 then 1 else 0) := rfl
  have hs : ¬ isUninitOrSerialized t = true := by
    intro hs
    simp only [dimensionsFromType, hs, if_true] at hd1
    omega
  have hc : 1 ≤ coordTypeFromType t := by omega
  have hg : geometryTypeFromType t ≠ 0 := by omega
  have hlow : 1 ≤ t ∧ t < 100001 := by
    rw [hco] at hc
    split at hc
    · omega
    split at hc
    · omega
    split at hc
    · omega
    omega
  have key : ∀ u : Int, 1 ≤ u → (if u / 1000 = 0 then (1 : Int) else if u / 1000 = 1 then 2 else if u / 1000 = 2 then 3 else if u / 1000 = 3 then 4 else 0) = dimensionsFromType t →
      (if u % 1000 = 990 then (990 : Int) else if u % 1000 ≤ 6 ∧ u % 1000 ≥ 1 then u % 1000 else 0) = geometryTypeFromType t →
      u = (dimensionsFromType t - 1) * 1000 + geometryTypeFromType t := by
    intro u hu h1 h2
    have hq : u / 1000 = dimensionsFromType t - 1 := by
      split at h1
      · omega
      split at h1
      · omega
      split at h1
      · omega
      split at h1
      · omega
      omega
    have hr : u % 1000 = geometryTypeFromType t := by
      split at h2
      · omega
      split at h2
      · omega
      omega
    omega
  unfold makeType GT.geometry
  rw [if_neg hg, if_neg (by omega), if_neg (by omega), if_neg (by simp only [GT.box]; omega)]
  by_cases hb : t ≥ 10001
  · have hct : coordTypeFromType t = 2 := by
      rw [hco, if_neg (by omega), if_pos hb]
    have := key (t - 10000) (by omega)
      (by unfold dimensionsFromType; rw [if_neg hs]; simp only [if_pos hb]; rw [Int.tdiv_eq_ediv_of_nonneg (by omega)])
      (by unfold geometryTypeFromType; rw [if_neg hs]; simp only [if_pos hb]; rw [Int.tmod_eq_emod_of_nonneg (by omega)]; rfl)
    rw [hct]
    show (_ : Int) = (t : Int)
    omega
  · have hct : coordTypeFromType t = 1 := by
      rw [hco, if_neg (by omega), if_neg hb, if_pos (by omega)]
    have := key t (by omega)
      (by unfold dimensionsFromType; rw [if_neg hs]; simp only [if_neg hb]; rw [Int.tdiv_eq_ediv_of_nonneg (by omega)])
      (by unfold geometryTypeFromType; rw [if_neg hs]; simp only [if_neg hb]; rw [Int.tmod_eq_emod_of_nonneg (by omega)]; rfl)
    rw [hct]
    show (_ : Int) = (t : Int)
    omega

theorem created_parts (t : TypeId) (s : ASchema) (h : schemaInit t = .ok s) : t ∈ nativeTypes ++ serializedTypes := by
  rw [List.mem_append]
  unfold schemaInit at h
  by_cases h1 : t = 100001
  · subst h1; exact .inr (by decide)
  rw [if_neg h1] at h
  by_cases h2 : t = 100002
  · subst h2; exact .inr (by decide)
  rw [if_neg h2] at h
  by_cases h3 : t = 100005
  · subst h3; exact .inr (by decide)
  rw [if_neg h3] at h
  by_cases h4 : t = 100003
  · subst h4; exact .inr (by decide)
  rw [if_neg h4] at h
  by_cases h5 : t = 100004
  · subst h5; exact .inr (by decide)
  rw [if_neg h5] at h
  by_cases h6 : t = 100006
  · subst h6; exact .inr (by decide)
  rw [if_neg h6] at h
  refine .inl ?_
  cases hd : schemaDims (dimensionsFromType t) with
  | none => rw [hd] at h; cases h
  | some dims =>
    rw [hd] at h
    simp only at h
    have hD : 1 ≤ dimensionsFromType t ∧ dimensionsFromType t ≤ 4 := by
      unfold schemaDims at hd
      split at hd
      · omega
      split at hd
      · omega
      split at hd
      · omega
      split at hd
      · omega
      cases hd
    have hC : ∀ names, schemaListOf (coordTypeFromType t) dims names = .ok s → coordTypeFromType t = 1 ∨ coordTypeFromType t = 2 := by
      intro names
      generalize s = s
      induction names generalizing s with
      | nil =>
        intro hl
        unfold schemaListOf at hl
        split at hl
        · omega
        split at hl
        · omega
        cases hl
      | cons n ns ih =>
        intro hl
        unfold schemaListOf at hl
        cases hr : schemaListOf (coordTypeFromType t) dims ns with
        | error rc => rw [hr] at hl; cases hl
        | ok c => exact ih c hr
    have hP : (1 ≤ geometryTypeFromType t ∧ geometryTypeFromType t ≤ 6 ∧ 1 ≤ coordTypeFromType t ∧ coordTypeFromType t ≤ 2) ∨
        (geometryTypeFromType t = 990 ∧ coordTypeFromType t = 1) := by
      unfold schemaNative GT.box GT.point GT.linestring GT.multipoint GT.polygon GT.multilinestring GT.multipolygon at h
      split at h
      · split at h
        · exact .inr ⟨by assumption, by assumption⟩
        · cases h
      split at h
      · have := hC _ h; exact .inl (by omega)
      split at h
      · have := hC _ h; exact .inl (by omega)
      split at h
      · have := hC _ h; exact .inl (by omega)
      split at h
      · have := hC _ h; exact .inl (by omega)
      split at h
      · have := hC _ h; exact .inl (by omega)
      split at h
      · have := hC _ h; exact .inl (by omega)
      cases h
    have hV : ValidParts (geometryTypeFromType t) (dimensionsFromType t) (coordTypeFromType t) := ⟨hD.1, hD.2, hP⟩
    have ht : makeType (geometryTypeFromType t) (dimensionsFromType t) (coordTypeFromType t) = t := by
      exact made_of_parts hV
    have := (C02_make_then_split _ _ _ hV).1
    rw [ht] at this
    exact this

/-- A schema can be created for exactly the documented types. -/
theorem C03_created_types (t : TypeId) : (∃ s, schemaInitExtension t = .ok s) ↔ t ∈ nativeTypes ++ serializedTypes := by
  constructor
  · rintro ⟨s, h⟩
    unfold schemaInitExtension at h
    cases hn : extensionNameFromType t with
    | none => rw [hn] at h; cases h
    | some n =>
      rw [hn] at h
      simp only at h
      cases hs : schemaInit t with
      | error rc => rw [hs] at h; cases h
      | ok s' => exact created_parts t s' hs
  · have key : ∀ t ∈ nativeTypes ++ serializedTypes, (schemaInitExtension t).isOk = true := by decide +kernel
    intro h
    have := key t h
    cases hs : schemaInitExtension t with
    | error rc => rw [hs] at this; cases this
    | ok s => exact ⟨s, rfl⟩

/-- Viewing a created schema reports its type, the parts and the extension name of that type, whatever the view held before. -/
theorem C03_view_of_created (t : TypeId) (s : ASchema) (h : schemaInitExtension t = .ok s) (v : SView) :
    schemaViewInit s v =
      .ok () { extName := (extensionNameFromType t).map str, extMetadata := some (str "{}"), type := t, geometryType := geometryTypeFromType t, dimensions := dimensionsFromType t, coordType := coordTypeFromType t } := by
  have hm := (C03_created_types t).1 ⟨s, h⟩
  cases v
  simp only [nativeTypes, serializedTypes, List.cons_append, List.nil_append, List.mem_cons, List.not_mem_nil, or_false] at hm
  repeat' rcases hm with rfl | hm
  all_goals (cases h; rfl)

/-- The same from the storage alone and the extension name of the type. -/
theorem C03_storage_view_of_created (t : TypeId) (s : ASchema) (h : schemaInit t = .ok s) (v : SView) :
    ∃ n, extensionNameFromType t = some n ∧ schemaViewInitFromStorage s (str n) v =
      .ok () { extName := some (str n), extMetadata := none, type := t, geometryType := geometryTypeFromType t, dimensions := dimensionsFromType t, coordType := coordTypeFromType t } := by
  have hm := created_parts t s h
  cases v
  simp only [nativeTypes, serializedTypes, List.cons_append, List.nil_append, List.mem_cons, List.not_mem_nil, or_false] at hm
  repeat' rcases hm with rfl | hm
  all_goals (cases h; exact ⟨_, rfl, rfl⟩)

/-- A view made from a type agrees with the view of the schema created for it. -/
theorem C03_view_from_type (t : TypeId) (s : ASchema) (h : schemaInitExtension t = .ok s) (v w : SView) :
    ∃ v', schemaViewInit s v = .ok () v' ∧ schemaViewInitFromType t w = .ok () { v' with extMetadata := none } := by
  refine ⟨_, C03_view_of_created t s h v, ?_⟩
  have hm := (C03_created_types t).1 ⟨s, h⟩
  cases w
  simp only [nativeTypes, serializedTypes, List.cons_append, List.nil_append, List.mem_cons, List.not_mem_nil, or_false] at hm
  repeat' rcases hm with rfl | hm
  all_goals rfl

example : ∃ s, schemaInitExtension 13006 = .ok s := ⟨_, rfl⟩
example : schemaInitExtension 10990 = .error EINVAL := rfl

end Verif
