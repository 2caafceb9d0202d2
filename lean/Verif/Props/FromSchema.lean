import Verif.Model.FromSchema
import Verif.Props.CppReader
/-!
# C32, C64: initialised from a schema

`Describes ext s v` (Spec/Schema.lean) says what a schema is.
-/
namespace Verif
open Spec

theorem describes_type {ext : List Byte} {s : ASchema} {v : SView} (h : Describes ext s v) : v.type ∈ nativeTypes ++ serializedTypes ∧ v.coordType = coordTypeFromType v.type := by
  obtain ⟨-, -, -, h⟩ := h
  rcases h with ⟨d, h1, h2, h3⟩ | ⟨-, h2, -, -, h3⟩
  · have key : ∀ g c, Native ext g d c s → (1 ≤ g ∧ g ≤ 6 ∧ 1 ≤ c ∧ c ≤ 2) ∨ (g = 990 ∧ c = 1) := by
      intro g c hN
      have lk : ∀ n, Lists d c n s → 1 ≤ c ∧ c ≤ 2 := fun n h => by have := h.ct; omega
      cases hN with
      | point h => exact .inl ⟨by decide, by decide, lk _ h⟩
      | linestring h => exact .inl ⟨by decide, by decide, lk _ h⟩
      | polygon h => exact .inl ⟨by decide, by decide, lk _ h⟩
      | multipoint h => exact .inl ⟨by decide, by decide, lk _ h⟩
      | multilinestring h => exact .inl ⟨by decide, by decide, lk _ h⟩
      | multipolygon h => exact .inl ⟨by decide, by decide, lk _ h⟩
      | box h => exact .inr ⟨rfl, rfl⟩
    have hk := key _ _ h2
    have hd : 1 ≤ v.dimensions ∧ v.dimensions ≤ 4 := by rw [h1]; cases d <;> decide
    have hv : ValidParts v.geometryType v.dimensions v.coordType := ⟨hd.1, hd.2, hk⟩
    have hm : makeType v.geometryType v.dimensions v.coordType = v.type := by
      unfold makeType GT.geometry GT.box
      rw [h3, if_neg (by omega), if_neg (by omega), if_neg (by omega), if_neg (by omega), Int.mul_comm 1000, Int.mul_comm 10000]
    have := C02_make_then_split _ _ _ hv
    rw [hm] at this
    exact ⟨List.mem_append_left _ this.1, this.2.2.2.symm⟩
  · rw [h3]
    generalize v.type = t at h2
    cases h2 <;> decide

theorem fromType_internal {t : TypeId} (h : t ∈ nativeTypes ++ serializedTypes) : ∃ s : SView, builderInitFromType t = builderInitInternal s ∧ s.type = t ∧
    s.coordType = coordTypeFromType t := by
  have hn : ∀ t ∈ nativeTypes ++ serializedTypes, t ≠ 0 ∧ (extensionNameFromType t).isSome = true := by decide
  obtain ⟨h0, h1⟩ := hn t h
  obtain ⟨n, hn⟩ := Option.isSome_iff_exists.mp h1
  refine ⟨{ extName := some (str n), extMetadata := none, type := t, geometryType := geometryTypeFromType t,
            dimensions := dimensionsFromType t, coordType := coordTypeFromType t }, ?_, rfl, rfl⟩
  unfold builderInitFromType schemaViewInitFromType
  rw [M.bind_run, if_neg h0, hn]
  rfl

theorem init_same {s s' : SView} (ht : s.type = s'.type) (hc : s.coordType = s'.coordType) :
    (builderInitInternal s).map (fun b => { b with schema := s' }) = builderInitInternal s' := by
  unfold builderInitInternal
  rw [ht, hc]
  split
  · rfl
  · split
    · rename_i v _ _
      cases schemaInit s'.type with
      | error rc => rfl
      | ok schema =>
        dsimp only
        cases treeOf schema with
        | none => rfl
        | some tree =>
          dsimp only
          generalize 1 + v.nOffsets + (if s'.coordType = 1 then v.nValues.toNat else 1) = n
          split
          · rename_i ha
            exact (if_pos ha).symm
          · rename_i ha
            exact (if_neg ha).symm
    · rfl
    · rfl

/-- A builder initialised from a schema that names an extension type and has its layout is that initialised from its type, except that it also knows the
name and metadata of the extension. Any other schema is `EINVAL`. -/
theorem C32_from_schema (schema : ASchema) (hf : HasFormats schema) (hz : SizesFit schema) :
    (∀ ext v, firstValue "ARROW:extension:name" schema = some ext → Describes ext schema v →
      builderInitFromSchema schema = some ((builderInitFromType v.type).map fun b => { b with schema := v })) ∧
    ((¬ ∃ ext v, firstValue "ARROW:extension:name" schema = some ext ∧ Describes ext schema v) →
      builderInitFromSchema schema = some (.error EINVAL)) := by
  have key := C04_view_exact_partial schema hf hz { extName := none, extMetadata := none, type := 0, geometryType := 0, dimensions := 0, coordType := 0 }
  unfold builderInitFromSchema
  constructor
  · intro ext v he hd
    rcases key with ⟨ext', v', he', hd', hv⟩ | ⟨hno, -⟩
    · rw [he, Option.some.injEq] at he'
      subst he'
      rw [hv, describes_unique hd' hd]
      obtain ⟨h1, h2⟩ := describes_type hd
      obtain ⟨s, h3, h4, h5⟩ := fromType_internal h1
      rw [h3]
      exact congrArg some (init_same h4 (h5.trans h2.symm)).symm
    · exact absurd ⟨ext, v, he, hd⟩ hno
  · intro hno
    rcases key with ⟨ext', v', he', hd', -⟩ | ⟨-, v', hv⟩
    · exact absurd ⟨ext', v', he', hd'⟩ hno
    · rw [hv]

/-- A schema made for a type gives the builder of the type. -/
theorem C32_from_made_schema (t : TypeId) (s : ASchema) (h : schemaInitExtension t = .ok s) :
    ∃ v, builderInitFromSchema s = some ((builderInitFromType t).map fun b => { b with schema := v }) := by
  unfold builderInitFromSchema
  rw [C03_view_of_created t s h]
  obtain ⟨s, h3, h4, h5⟩ := fromType_internal ((C03_created_types t).1 ⟨s, h⟩)
  rw [h3]
  exact ⟨_, congrArg some (init_same h4 h5).symm⟩

/-- An array writer initialised from a schema is that initialised from the type the schema is one of, whatever was in the memory of the view. Any other
schema is `EINVAL`. -/
theorem C64_from_schema (junk : Nat → Byte) (rawT : WktW) (rawB : WkbW) (rawS : SView) (schema : ASchema) (hf : HasFormats schema) (hz : SizesFit schema) :
    (∀ ext v, firstValue "ARROW:extension:name" schema = some ext → Describes ext schema v →
      arrayWriterInitFromSchema junk rawT rawB rawS schema = some (arrayWriterInit junk rawT rawB v.type)) ∧
    ((¬ ∃ ext v, firstValue "ARROW:extension:name" schema = some ext ∧ Describes ext schema v) →
      arrayWriterInitFromSchema junk rawT rawB rawS schema = some (.error EINVAL)) := by
  have key := C04_view_exact_partial schema hf hz rawS
  unfold arrayWriterInitFromSchema
  constructor
  · intro ext v he hd
    rcases key with ⟨ext', v', he', hd', hv⟩ | ⟨hno, -⟩
    · rw [he, Option.some.injEq] at he'
      subst he'
      rw [hv, describes_unique hd' hd]
    · exact absurd ⟨ext, v, he, hd⟩ hno
  · intro hno
    rcases key with ⟨ext', v', he', hd', -⟩ | ⟨-, v', hv⟩
    · exact absurd ⟨ext', v', he', hd'⟩ hno
    · rw [hv]

/-- A schema made for a type gives the array writer of the type. -/
theorem C64_from_made_schema (junk : Nat → Byte) (rawT : WktW) (rawB : WkbW) (rawS : SView) (t : TypeId) (s : ASchema) (h : schemaInitExtension t = .ok s) :
    arrayWriterInitFromSchema junk rawT rawB rawS s = some (arrayWriterInit junk rawT rawB t) := by
  unfold arrayWriterInitFromSchema
  rw [C03_view_of_created t s h]

-- a builder of linestrings with interleaved XYZ coordinates
example : (match builderInitFromSchema exSchema with | some (.ok b) => (b.schema.type, b.nBuffers, b.nValues, b.schema.extName) | _ => (0, 0, 0, none)) =
    (11002, 3, 3, some (str "geoarrow.linestring")) := by decide +kernel

end Verif
