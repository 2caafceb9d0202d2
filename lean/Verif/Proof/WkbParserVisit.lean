import Verif.Proof.WkbParserCut
/-! Iterating over reported sequences; sizes of encodings. -/
namespace Verif
open Spec

theorem mapM_range_exists' {α} {f : Nat → Option α} : ∀ (n k : Nat), (∀ i, i < n → ∃ a, f (k + i) = some a) →
    ∃ l, (List.range' k n).mapM f = some l ∧ l.length = n ∧ ∀ i, i < n → f (k + i) = l[i]?
  | 0, k, _ => ⟨[], rfl, rfl, by omega⟩
  | n + 1, k, h => by
    obtain ⟨a, ha⟩ := h 0 (by omega)
    obtain ⟨l, hl, hn, hg⟩ := mapM_range_exists' (f := f) n (k + 1) (fun i hi => by
      obtain ⟨a, ha⟩ := h (i + 1) (by omega)
      exact ⟨a, by rw [← ha]; congr 1; omega⟩)
    refine ⟨a :: l, ?_, by simp [hn], ?_⟩
    · simp only [Nat.add_zero] at ha
      rw [List.range'_succ, List.mapM_cons, ha, hl]; rfl
    · intro i hi
      cases i with
      | zero => simpa using ha
      | succ i =>
        have := hg i (by omega)
        rw [List.getElem?_cons_succ, ← this]; congr 1; omega

theorem mapM_range_exists {α} {f : Nat → Option α} {n : Nat} (h : ∀ i, i < n → ∃ a, f i = some a) :
    ∃ l, (List.range n).mapM f = some l ∧ l.length = n ∧ ∀ i, i < n → f i = l[i]? := by
  rw [List.range_eq_range']
  obtain ⟨l, h1, h2, h3⟩ := mapM_range_exists' (f := f) n 0 (fun i hi => by rw [Nat.zero_add]; exact h i hi)
  exact ⟨l, h1, h2, fun i hi => by rw [← h3 i hi, Nat.zero_add]⟩

theorem seqInside_visit {blob : List Byte} {size : Nat} {q : CppSeq} (hs : size ≤ blob.length) (h : SeqInside size q) :
    ∃ cs, cppSeqVertices blob q = some cs ∧ cs.length = q.length := by
  obtain ⟨d, hd, hst, hin⟩ := h
  unfold cppSeqVertices
  simp only [hd, cppCoordSize_code]
  obtain ⟨l, h1, h2, _⟩ := mapM_range_exists (f := fun i => cppSeqCoord blob q d.n i) (n := q.length) (by
    intro i hi
    unfold cppSeqCoord
    obtain ⟨l, hl, _, _⟩ := mapM_range_exists (n := d.n) (f := fun j => 
        (cppLoadAs blob q.endian (q.pos + j * 8 + i * (q.stride * 8)) 8).map (BitVec.ofNat 64)) (by
      intro j hj
      have hb1 : d.n * (i + 1) ≤ d.n * q.length := Nat.mul_le_mul_left _ (by omega)
      rw [Nat.mul_succ] at hb1
      have e : i * (q.stride * 8) = 8 * (d.n * i) := by
        rw [hst, Nat.mul_comm d.n 8, ← Nat.mul_assoc, Nat.mul_comm i 8, Nat.mul_assoc, Nat.mul_comm i]
      simp only [cppLoadAs]
      rw [cppLoad_some (by omega)]
      exact ⟨_, rfl⟩)
    exact ⟨l, hl⟩)
  exact ⟨l, h1, h2⟩

theorem isHeader_len {big base d h} (hh : IsHeader big base d h) : 5 ≤ h.length := by
  rcases hh with rfl | rfl | ⟨_, _, rfl⟩ <;> simp

mutual
theorem enc_height : ∀ (g : Geom) (b : List Byte), WkbEnc g b → g.height < b.length
  | .point d cs, b, he => by
    obtain ⟨big, h, c, rfl, hc, hh, rfl⟩ := he
    have := isHeader_len hh
    simp only [Geom.height, List.length_append]; omega
  | .linestring d cs, b, he => by
    obtain ⟨big, h, hcl, hc, hh, rfl⟩ := he
    have := isHeader_len hh
    simp only [Geom.height, List.length_append]; omega
  | .polygon d rs, b, he => by
    obtain ⟨big, h, hrl, hr, hh, rfl⟩ := he
    have := isHeader_len hh
    simp only [Geom.height, List.length_append]; omega
  | .multi k d ps, b, he => by
    obtain ⟨big, h, b', hpl, hh, he', rfl⟩ := he
    have := isHeader_len hh
    have := enc_heightL ps b' he'
    simp only [Geom.height, List.length_append]; omega
theorem enc_heightL : ∀ (gs : List Geom) (b : List Byte), WkbEncL gs b → Geom.heightL gs ≤ b.length
  | [], b, he => Nat.zero_le _
  | g :: gs, b, he => by
    obtain ⟨b1, b2, he1, he2, rfl⟩ := he
    have := enc_height g b1 he1
    have := enc_heightL gs b2 he2
    simp only [Geom.heightL, List.length_append]; omega
end

end Verif
