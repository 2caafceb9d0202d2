import Verif.Model.TypeInline
import Verif.Proof.Bytes
import Verif.Spec.TypeIds
/-!
# C01, C02: byte swapping and type identifiers
-/
namespace Verif

/-! ## C01 -/

/-- In-memory bytes of the swapped 32-bit word are the reversed bytes, for every word. -/
theorem C01_bswap32_reverses (x : BitVec 32) :
    leBytes 4 (bswap32 x).toNat = (leBytes 4 x.toNat).reverse := by
  rw [leBytes_eq_extract, leBytes_eq_extract]
  simp only [List.range_eq_range', List.range', List.map_cons, List.map_nil, List.reverse_cons, List.reverse_nil, List.nil_append, List.cons_append, List.cons.injEq, and_true]
  refine ⟨?_,?_,?_,?_⟩ <;>
  · ext i hi
    have : i = 0 ∨ i = 1 ∨ i = 2 ∨ i = 3 ∨ i = 4 ∨ i = 5 ∨ i = 6 ∨ i = 7 := by omega
    rcases this with h|h|h|h|h|h|h|h <;> subst h <;> simp [bswap32]

/-- The same for 64-bit words. -/
theorem C01_bswap64_reverses (x : BitVec 64) :
    leBytes 8 (bswap64 x).toNat = (leBytes 8 x.toNat).reverse := by
  rw [leBytes_eq_extract, leBytes_eq_extract]
  simp only [List.range_eq_range', List.range', List.map_cons, List.map_nil, List.reverse_cons, List.reverse_nil, List.nil_append, List.cons_append, List.cons.injEq, and_true]
  refine ⟨?_,?_,?_,?_,?_,?_,?_,?_⟩ <;>
  · ext i hi
    have : i = 0 ∨ i = 1 ∨ i = 2 ∨ i = 3 ∨ i = 4 ∨ i = 5 ∨ i = 6 ∨ i = 7 := by omega
    rcases this with h|h|h|h|h|h|h|h <;> subst h <;> simp [bswap64]

/-- Swapping twice is the identity. -/
theorem C01_bswap32_involutive (x : BitVec 32) : bswap32 (bswap32 x) = x := by
  apply BitVec.eq_of_toNat_eq
  apply leBytes_inj (k := 4) (by simpa using BitVec.isLt _) (by simpa using BitVec.isLt _)
  rw [C01_bswap32_reverses, C01_bswap32_reverses, List.reverse_reverse]

theorem C01_bswap64_involutive (x : BitVec 64) : bswap64 (bswap64 x) = x := by
  apply BitVec.eq_of_toNat_eq
  apply leBytes_inj (k := 8) (by simpa using BitVec.isLt _) (by simpa using BitVec.isLt _)
  rw [C01_bswap64_reverses, C01_bswap64_reverses, List.reverse_reverse]

example : bswap32 0x01020304#32 = 0x04030201#32 := by decide
example : bswap64 0x0102030405060708#64 = 0x0807060504030201#64 := by decide

/-! ## C02 -/

open Spec

/-- Every documented native identifier splits into valid parts which recompose to it. -/
theorem C02_split_then_make :
    ∀ t ∈ nativeTypes,
      ValidParts (geometryTypeFromType t) (dimensionsFromType t) (coordTypeFromType t) ∧
      makeType (geometryTypeFromType t) (dimensionsFromType t) (coordTypeFromType t) = t := by
  unfold ValidParts
  decide +kernel

/-- Every valid part triple makes a documented identifier that reports exactly these parts. -/
theorem C02_make_then_split (g d c : Int) (h : ValidParts g d c) :
    makeType g d c ∈ nativeTypes ∧
    geometryTypeFromType (makeType g d c) = g ∧
    dimensionsFromType (makeType g d c) = d ∧
    coordTypeFromType (makeType g d c) = c := by
  obtain ⟨hd1, hd4, h⟩ := h
  have hd : d = 1 ∨ d = 2 ∨ d = 3 ∨ d = 4 := by omega
  rcases h with ⟨hg1, hg6, hc1, hc2⟩ | ⟨hg, hc⟩
  · have hg : g = 1 ∨ g = 2 ∨ g = 3 ∨ g = 4 ∨ g = 5 ∨ g = 6 := by omega
    have hc : c = 1 ∨ c = 2 := by omega
    rcases hd with rfl | rfl | rfl | rfl <;> rcases hc with rfl | rfl <;>
      rcases hg with rfl | rfl | rfl | rfl | rfl | rfl <;> decide +kernel
  · subst hg hc
    rcases hd with rfl | rfl | rfl | rfl <;> decide +kernel

/-- Different valid part triples never make the same identifier. -/
theorem C02_make_injective (g d c g' d' c' : Int) (h : ValidParts g d c) (h' : ValidParts g' d' c')
    (e : makeType g d c = makeType g' d' c') : g = g' ∧ d = d' ∧ c = c' := by
  have a := C02_make_then_split g d c h
  have b := C02_make_then_split g' d' c' h'
  rw [e] at a
  exact ⟨a.2.1.symm.trans b.2.1, a.2.2.1.symm.trans b.2.2.1, a.2.2.2.symm.trans b.2.2.2⟩

/-- Parts that are unspecified, or an interleaved box, make the uninitialised type, and serialized types have no
parts; so no part triple ever makes a serialized identifier from in-range parts. -/
theorem C02_unspecified_parts (g d c : Int)
    (h : g = 0 ∨ d = 0 ∨ c = 0 ∨ (g = 990 ∧ c ≠ 1)) : makeType g d c = 0 := by
  unfold makeType GT.geometry GT.box
  by_cases h1 : g = 0
  · rw [if_pos h1]
  rw [if_neg h1]
  by_cases h2 : d = 0
  · rw [if_pos h2]
  rw [if_neg h2]
  by_cases h3 : c = 0
  · rw [if_pos h3]
  rw [if_neg h3, if_pos (by omega)]

theorem C02_serialized_parts :
    ∀ t ∈ serializedTypes, geometryTypeFromType t = 0 ∧ dimensionsFromType t = 0 ∧ coordTypeFromType t = 0 := by
  decide +kernel

/-- Every native identifier has an extension name, which depends only on its geometry type and determines it. -/
theorem C02_extension_name :
    ∀ t ∈ nativeTypes, ∀ t' ∈ nativeTypes,
      (extensionNameFromType t).isSome ∧
      (extensionNameFromType t = extensionNameFromType t' ↔
        geometryTypeFromType t = geometryTypeFromType t') := by
  decide +kernel

example : ValidParts 6 4 2 ∧ makeType 6 4 2 = 13006 := by
  refine ⟨by unfold ValidParts; omega, by decide⟩

/-- Outside the documented parts the code does not validate: a GEOMETRYCOLLECTION makes the undocumented
identifier 7, which then reports geometry type GEOMETRY. -/
theorem C02_collection_makes_undocumented_type :
    makeType GT.collection 1 1 = 7 ∧ (7 : Int) ∉ nativeTypes ∧ geometryTypeFromType 7 = GT.geometry := by
  decide

end Verif
