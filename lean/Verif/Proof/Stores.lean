import Verif.Proof.FormatWkt
/-! # Arrays of the serialising writers in memory; sizes of well-known binary -/
namespace Verif
open Spec

section
variable {a : AArray} {b : BinArray} {es : List (Option (List Byte))}

theorem stores_bytes (hr : Represents b es) (hs : Stores a b) {i : Nat} {e : Option (List Byte)} (he : es[i]? = some e) :
    BytesAt .offsets32 a i (e.getD []) := by
  obtain ⟨v, o, d, h1, h2, h3, h4⟩ := hs.buffers
  obtain ⟨lo, hi, h5, h6, h7, h8, h9⟩ := hr.element i e he
  have e1 : a.offset + (i : Int) = (i : Int) := by rw [hs.offset]; omega
  refine ⟨o, lo, hi, by rw [h1]; rfl, ?_, ?_, ?_⟩
  · rw [e1]; exact h3 i _ h5
  · rw [e1, show (i : Int) + 1 = ((i + 1 : Nat) : Int) by omega]; exact h3 (i + 1) _ h6
  · rw [h1]
    rcases h2 with rfl | ⟨rfl, h2⟩
    · exact .inl ⟨b.data, rfl, h7, h8, h9.symm⟩
    · rw [h2] at h8 h9
      have : hi = 0 := by simpa using h8
      refine .inr ⟨rfl, by omega, this, ?_⟩
      rw [← h9]; simp

theorem stores_valid (hr : Represents b es) (hs : Stores a b) {i : Nat} {e : Option (List Byte)} (he : es[i]? = some e) :
    match e with
    | none => NullAt a i
    | some _ => ValidAt a i := by
  obtain ⟨v, o, d, h1, -, -, h4⟩ := hs.buffers
  have h5 := hr.validity
  have hi : (a.offset + (i : Int)).toNat = i := by rw [hs.offset]; omega
  have h0 : a.buffers[0]? = some v := by rw [h1]; rfl
  cases hv : b.validity with
  | none =>
    rw [hv] at h4 h5
    dsimp only at h4 h5
    have := h5 e (List.mem_of_getElem? he)
    cases e with
    | none => simp at this
    | some x => exact .inl (by rw [h0, h4])
  | some l =>
    rw [hv] at h4 h5
    dsimp only at h4 h5
    obtain ⟨bits, rfl, h6⟩ := h4
    have h7 : bitGet bits i = some e.isSome := h6 i _ (by rw [h5, List.getElem?_map, he]; rfl)
    cases e with
    | none => exact ⟨bits, h0, by rw [hs.offset]; decide, by rw [hi]; exact h7⟩
    | some x => exact .inr ⟨bits, h0, by rw [hs.offset]; decide, by rw [hi]; exact h7⟩

/-- What is in memory has the elements represented. -/
theorem stores_elements (hr : Represents b es) (hs : Stores a b) : Elements .offsets32 a es := by
  refine ⟨by rw [hs.length, hr.length], fun i e he => ?_⟩
  have h1 := stores_bytes hr hs he
  have h2 := stores_valid hr hs he
  cases e with
  | none => exact h2
  | some x => exact ⟨h2, h1⟩

theorem stores_ok (hr : Represents b es) (hs : Stores a b) (hl : a.length < 2 ^ 63) : BinArrayOk .offsets32 a := by
  obtain ⟨v, o, d, h1, -, -, h4⟩ := hs.buffers
  refine ⟨hs.children, by rw [if_neg (by decide), h1]; rfl, ⟨?_, ?_, ?_⟩, fun _ => hs.offset, ?_, ?_⟩
  · rw [hs.offset]; decide
  · rw [hs.length, hr.length]; omega
  · rw [hs.offset]; omega
  · intro h
    have h : v = none := by rw [h1] at h; simpa using h
    have h5 := hr.validity
    rw [hs.nullCount, hr.nulls]
    cases hv : b.validity with
    | none =>
      rw [hv] at h5
      rw [List.filter_eq_nil_iff.mpr (fun e he => by have := h5 e he; cases e with | none => simp at this | some x => simp)]
      rfl
    | some l =>
      rw [hv] at h4
      obtain ⟨bits, h6, -⟩ := h4
      rw [h] at h6; cases h6
  · intro i hi
    rw [hs.length, hr.length] at hi
    obtain ⟨e, he⟩ : ∃ e, es[i]? = some e := ⟨es[i]'(by omega), List.getElem?_eq_getElem (by omega)⟩
    exact ⟨_, stores_bytes hr hs he⟩
end

/-! ## There is such an array -/

def packByte (f : Nat → Bool) : Byte :=
  BitVec.ofNat 8 ((f 0).toNat + 2 * (f 1).toNat + 4 * (f 2).toNat + 8 * (f 3).toNat + 16 * (f 4).toNat + 32 * (f 5).toNat + 64 * (f 6).toNat + 128 * (f 7).toNat)

theorem packByte_bits : ∀ b0 b1 b2 b3 b4 b5 b6 b7 : Bool, ∀ k : Fin 8,
    (((BitVec.ofNat 8 (b0.toNat + 2 * b1.toNat + 4 * b2.toNat + 8 * b3.toNat + 16 * b4.toNat + 32 * b5.toNat + 64 * b6.toNat + 128 * b7.toNat) : Byte) >>> k.val) &&& 1 != 0)
      = [b0, b1, b2, b3, b4, b5, b6, b7][k.val]! := by decide +kernel

theorem packByte_get (f : Nat → Bool) (k : Nat) (hk : k < 8) : ((packByte f >>> k) &&& 1 != 0) = f k := by
  have := packByte_bits (f 0) (f 1) (f 2) (f 3) (f 4) (f 5) (f 6) (f 7) ⟨k, hk⟩
  refine this.trans ?_
  match k, hk with
  | 0, _ => rfl
  | 1, _ => rfl
  | 2, _ => rfl
  | 3, _ => rfl
  | 4, _ => rfl
  | 5, _ => rfl
  | 6, _ => rfl
  | 7, _ => rfl

def packBits (l : List Bool) : List Byte := (List.range (l.length / 8 + 1)).map fun j => packByte fun k => (l[8 * j + k]?).getD false

theorem bitGet_packBits {l : List Bool} {i : Nat} {x : Bool} (h : l[i]? = some x) : bitGet (packBits l) i = some x := by
  have hi : i < l.length := (List.getElem?_eq_some_iff.mp h).1
  unfold bitGet packBits
  rw [List.getElem?_map, List.getElem?_range (by omega)]
  show some ((packByte _ >>> (i % 8)) &&& 1 != 0) = some x
  rw [packByte_get _ _ (by omega), show 8 * (i / 8) + i % 8 = i by omega, h]
  rfl

theorem stores_exists {b : BinArray} {es : List (Option (List Byte))} (hr : Represents b es) (hd : b.data.length ≤ 2147483647) :
    ∃ a, Stores a b := by
  refine ⟨.mk b.length b.nullCount 0 [b.validity.map packBits, some (i32Bytes b.offsets), some b.data] [], rfl, rfl, rfl, rfl, _, _, _, rfl, .inl rfl, ?_, ?_⟩
  · intro i x hx
    refine i32At_i32Bytes hx ?_
    have hi : i < es.length + 1 := by rw [← hr.offsetsLength]; exact (List.getElem?_eq_some_iff.mp hx).1
    by_cases h : i < es.length
    · obtain ⟨lo, hi', h5, -, h7, h8, -⟩ := hr.element i _ (List.getElem?_eq_getElem h)
      rw [hx] at h5; cases h5
      omega
    · have : i = es.length := by omega
      subst this
      rw [hr.last] at hx; cases hx
      omega
  · cases b.validity with
    | none => rfl
    | some l => exact ⟨_, rfl, fun i x => bitGet_packBits⟩

/-! ## Sizes -/

theorem rings_bytes {n : Nat} (hn : 2 ≤ n) : ∀ (rs : List (List Coord)), (∀ r ∈ rs, ∀ c ∈ r, c.length = n) →
    16 * rs.flatten.length ≤ (wkbRings false rs).length
  | [], _ => Nat.le_refl _
  | r :: rs, h => by
    have h1 := rings_bytes hn rs (fun r hr => h r (by simp [hr]))
    have h2 := length_isoCoords (h r (by simp))
    have h3 : 2 * r.length ≤ n * r.length := Nat.mul_le_mul_right _ hn
    simp only [wkbRings, List.length_append, List.flatten_cons, h2]
    omega

mutual
/-- A coordinate takes at least sixteen bytes. -/
theorem coords_bytes : ∀ (g : Geom), g.WF → 16 * g.allCoords.length ≤ (isoWkb g).length
  | .point d cs, hw => by
    have h3 : 2 * cs.length ≤ d.n * cs.length := Nat.mul_le_mul_right _ (dims_n_pos d)
    by_cases h0 : cs = []
    · subst h0; simp [Geom.allCoords]
    · simp only [isoWkb, if_neg h0, List.length_append, length_isoHeader, length_isoCoords hw, Geom.allCoords, List.length_map]
      omega
  | .linestring d cs, hw => by
    have h3 : 2 * cs.length ≤ d.n * cs.length := Nat.mul_le_mul_right _ (dims_n_pos d)
    simp only [isoWkb, List.length_append, length_isoHeader, length_isoCoords hw, Geom.allCoords, List.length_map]
    omega
  | .polygon d rs, hw => by
    have := rings_bytes (dims_n_pos d) rs hw
    simp only [isoWkb, List.length_append, Geom.allCoords, List.length_map]
    omega
  | .multi k d ps, hw => by
    have := coords_bytesL ps hw
    simp only [isoWkb, List.length_append, Geom.allCoords]
    omega
theorem coords_bytesL : ∀ (gs : List Geom), Geom.WFL gs → 16 * (Geom.allCoordsL gs).length ≤ (isoWkbL gs).length
  | [], _ => Nat.le_refl _
  | g :: gs, hw => by
    have h1 := coords_bytes g hw.1
    have h2 := coords_bytesL gs hw.2
    simp only [isoWkbL, List.length_append, Geom.allCoordsL]
    omega
end

theorem numCoords_bytes : ∀ (fs : List (Option Geom)), (∀ g, some g ∈ fs → g.WF) → 16 * numCoords fs ≤ (elemBytes (encodings fs)).length
  | [], _ => Nat.le_refl _
  | none :: fs, h => by
    have h1 := numCoords_bytes fs (fun g hg => h g (by simp [hg]))
    have e1 : numCoords (none :: fs) = numCoords fs := by
      unfold numCoords; rw [List.map_cons, List.sum_cons]; simp
    have e2 : encodings (none :: fs) = none :: encodings fs := rfl
    rw [e1, e2, elemBytes_cons, List.length_append]
    omega
  | some x :: fs, h => by
    have h1 := numCoords_bytes fs (fun g hg => h g (by simp [hg]))
    have e1 : numCoords (some x :: fs) = x.allCoords.length + numCoords fs := by
      unfold numCoords; rw [List.map_cons, List.sum_cons]
    have e2 : encodings (some x :: fs) = some (isoWkb x) :: encodings fs := rfl
    have := coords_bytes x (h x (by simp))
    rw [e1, e2, elemBytes_cons, List.length_append, Option.getD_some]
    omega

/-! ## Geometries of one type -/

theorem hasType_facts {g : Int} {d : Dims} {x : Geom} (h : HasType g x) :
    x.SinglePoints ∧ x.height ≤ 2 ∧ x.Typed ∧ (x.NoEmptyParts d → x.NoEmptyPoints) := by
  unfold HasType at h
  split at h
  · exact ⟨h, by simp [Geom.height], by simp [Geom.Typed], fun h => h.2⟩
  · exact ⟨trivial, by simp [Geom.height], by simp [Geom.Typed], fun _ => trivial⟩
  · exact ⟨trivial, by simp [Geom.height], by simp [Geom.Typed], fun _ => trivial⟩
  · rename_i ps
    show Geom.SinglePointsL ps ∧ 1 + Geom.heightL ps ≤ 2 ∧ Geom.TypedL .multipoint ps ∧ (_ ∧ Geom.NoEmptyPartsL d ps → Geom.NoEmptyPointsL ps)
    induction ps with
    | nil => exact ⟨trivial, by decide, trivial, fun _ => trivial⟩
    | cons p ps ih =>
      obtain ⟨i1, i2, i3, i4⟩ := ih fun q hq => h q (by simp [hq])
      obtain ⟨s, cs, rfl, h1⟩ := h p (by simp)
      exact ⟨⟨h1, i1⟩, by simp only [Geom.heightL, Geom.height]; omega, ⟨trivial, by simp [Geom.Typed], i3⟩, fun hx => ⟨hx.2.2.1.2, i4 ⟨hx.1, hx.2.2.2⟩⟩⟩
  · rename_i ps
    show Geom.SinglePointsL ps ∧ 1 + Geom.heightL ps ≤ 2 ∧ Geom.TypedL .multilinestring ps ∧ (_ ∧ Geom.NoEmptyPartsL d ps → Geom.NoEmptyPointsL ps)
    induction ps with
    | nil => exact ⟨trivial, by decide, trivial, fun _ => trivial⟩
    | cons p ps ih =>
      obtain ⟨i1, i2, i3, i4⟩ := ih fun q hq => h q (by simp [hq])
      obtain ⟨s, cs, rfl⟩ := h p (by simp)
      exact ⟨⟨trivial, i1⟩, by simp only [Geom.heightL, Geom.height]; omega, ⟨trivial, by simp [Geom.Typed], i3⟩, fun hx => ⟨trivial, i4 ⟨hx.1, hx.2.2.2⟩⟩⟩
  · rename_i ps
    show Geom.SinglePointsL ps ∧ 1 + Geom.heightL ps ≤ 2 ∧ Geom.TypedL .multipolygon ps ∧ (_ ∧ Geom.NoEmptyPartsL d ps → Geom.NoEmptyPointsL ps)
    induction ps with
    | nil => exact ⟨trivial, by decide, trivial, fun _ => trivial⟩
    | cons p ps ih =>
      obtain ⟨i1, i2, i3, i4⟩ := ih fun q hq => h q (by simp [hq])
      obtain ⟨s, rs, rfl⟩ := h p (by simp)
      exact ⟨⟨trivial, i1⟩, by simp only [Geom.heightL, Geom.height]; omega, ⟨trivial, by simp [Geom.Typed], i3⟩, fun hx => ⟨trivial, i4 ⟨hx.1, hx.2.2.2⟩⟩⟩
  · exact h.elim

theorem element_bytes {es : List (Option (List Byte))} {b : List Byte} (h : some b ∈ es) : b.length ≤ (elemBytes es).length := by
  induction es with
  | nil => simp at h
  | cons e es ih =>
    rw [elemBytes_cons, List.length_append]
    rcases List.mem_cons.mp h with rfl | h
    · simp
    · have := ih h; omega

/-- The features of an array whose elements are the encodings. -/
theorem encodings_features {parse : List Byte → Option Dbl} {k : BinLayout} {a : AArray} {fs : List (Option Geom)} (he : Elements k a (encodings fs))
    (hfs : ∀ x, some x ∈ fs → x.WF ∧ x.SinglePoints ∧ x.NoEmptyPoints ∧ x.height ≤ 255) (hn : (elemBytes (encodings fs)).length < 2 ^ 34) :
    (ArrayKind.wkb k).Features parse a fs := by
  have e1 : ∀ (i : Nat) f, fs[i]? = some f → (encodings fs)[i]? = some (f.map isoWkb) := by
    intro i f hf
    unfold encodings
    rw [List.getElem?_map, hf]; rfl
  refine ⟨by rw [he.1]; simp [encodings], fun i f hf => ?_⟩
  have h1 := he.2 i _ (e1 i f hf)
  cases f with
  | none => exact h1
  | some x =>
    obtain ⟨w1, w2, w3, w4⟩ := hfs x (List.mem_of_getElem? hf)
    have hb := element_bytes (List.mem_of_getElem? (e1 i _ hf))
    have hc := (small_of_bytes x w1 (by omega)).2 w2
    have := iso_enc x w1 hc
    rw [nanEmpty_id x w3] at this
    exact ⟨w4, _, this, by omega, h1⟩

end Verif
