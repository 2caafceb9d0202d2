import Verif.Proof.WkbAppend
/-!
# Facts about the little-endian ISO encoding
-/
namespace Verif
open Spec

mutual
theorem iso_enc : ∀ (g : Geom), g.WF → g.Countable → WkbEnc g.nanEmpty (isoWkb g)
  | .point d cs, hw, hc => by
    simp only [Geom.Countable] at hc
    match cs, hc with
    | [], _ =>
      exact ⟨false, _, List.replicate d.n Dbl.nan, rfl, by simp, Or.inl rfl, rfl⟩
    | [c], _ => exact ⟨false, _, c, by simp, hw c (by simp), Or.inl rfl, by simp [isoWkb, isoHeader]⟩
  | .linestring d cs, hw, hc => ⟨false, _, hc, hw, Or.inl rfl, rfl⟩
  | .polygon d rs, hw, hc => ⟨false, _, hc.1, fun r hr => ⟨hc.2 r hr, hw r hr⟩, Or.inl rfl, rfl⟩
  | .multi k d ps, hw, hc =>
    ⟨false, _, _, by rw [length_nanEmptyL]; exact hc.1, Or.inl rfl, iso_encL ps hw hc.2, by rw [length_nanEmptyL]; rfl⟩
theorem iso_encL : ∀ (gs : List Geom), Geom.WFL gs → Geom.CountableL gs → WkbEncL (Geom.nanEmptyL gs) (isoWkbL gs)
  | [], _, _ => rfl
  | g :: gs, hw, hc => ⟨_, _, iso_enc g hw.1 hc.1, iso_encL gs hw.2 hc.2, rfl⟩
theorem length_nanEmptyL : ∀ (gs : List Geom), (Geom.nanEmptyL gs).length = gs.length
  | [] => rfl
  | g :: gs => by simp only [Geom.nanEmptyL, List.length_cons, length_nanEmptyL gs]
end

mutual
theorem nanEmpty_height : ∀ (g : Geom), g.nanEmpty.height = g.height
  | .point d cs => rfl
  | .linestring d cs => rfl
  | .polygon d rs => rfl
  | .multi k d ps => by simp only [Geom.nanEmpty, Geom.height, nanEmpty_heightL ps]
theorem nanEmpty_heightL : ∀ (gs : List Geom), Geom.heightL (Geom.nanEmptyL gs) = Geom.heightL gs
  | [] => rfl
  | g :: gs => by simp only [Geom.nanEmptyL, Geom.heightL, nanEmpty_height g, nanEmpty_heightL gs]
end

theorem length_isoCoords {cs : List Coord} {n : Nat} (h : ∀ c ∈ cs, c.length = n) :
    (wkbCoords false cs).length = 8 * (n * cs.length) := by
  have := length_interleaved h
  rw [interleaved_eq] at this
  rw [this, Nat.mul_assoc]

theorem length_isoHeader (k d) : (isoHeader k d).length = 5 := by simp [isoHeader, wkbU32, inOrder, leBytes]
theorem length_wkbU32' (n) : (wkbU32 false n).length = 4 := by simp [wkbU32, inOrder, leBytes]

theorem length_wkbRings : ∀ (rs : List (List Coord)), 4 * rs.length ≤ (wkbRings false rs).length
  | [] => Nat.le_refl _
  | r :: rs => by
    have := length_wkbRings rs
    simp only [wkbRings, List.length_append, length_wkbU32', List.length_cons]; omega

theorem length_mem_wkbRings {n : Nat} : ∀ (rs : List (List Coord)), (∀ r ∈ rs, ∀ c ∈ r, c.length = n) →
    ∀ r ∈ rs, 8 * (n * r.length) ≤ (wkbRings false rs).length
  | r0 :: rs, h, r, hr => by
    simp only [wkbRings, List.length_append, length_wkbU32']
    rcases List.mem_cons.mp hr with rfl | hr
    · rw [length_isoCoords (h r (by simp))]; omega
    · have := length_mem_wkbRings rs (fun r hr => h r (by simp [hr])) r hr
      omega

mutual
theorem length_iso_pos : ∀ (g : Geom), 5 ≤ (isoWkb g).length
  | .point d cs => by simp only [isoWkb, List.length_append, length_isoHeader]; omega
  | .linestring d cs => by simp only [isoWkb, List.length_append, length_isoHeader]; omega
  | .polygon d rs => by simp only [isoWkb, List.length_append, length_isoHeader]; omega
  | .multi k d ps => by simp only [isoWkb, List.length_append, length_isoHeader]; omega
theorem length_isoL : ∀ (gs : List Geom), 5 * gs.length ≤ (isoWkbL gs).length
  | [] => Nat.le_refl _
  | g :: gs => by
    have := length_isoL gs
    have := length_iso_pos g
    simp only [isoWkbL, List.length_append, List.length_cons]; omega
end

theorem dims_n_pos (d : Dims) : 2 ≤ d.n := by cases d <;> decide

theorem seq_small {d : Dims} {k total : Nat} (h : 8 * (d.n * k) ≤ total) (ht : total < 2 ^ 34) : k < 2 ^ 32 ∧ d.n * k < 2 ^ 32 := by
  have := dims_n_pos d
  have : 1 * k ≤ d.n * k := Nat.mul_le_mul_right _ (by omega)
  omega

mutual
/-- An encoding below 4 GiB implies that all counts fit. -/
theorem small_of_bytes : ∀ (g : Geom), g.WF → (isoWkb g).length < 2 ^ 34 →
    g.SmallSeqs ∧ (Geom.SinglePoints g → g.Countable)
  | .point d cs, hw, hl => by
    refine ⟨?_, fun h => h⟩
    simp only [Geom.SmallSeqs]
    by_cases h0 : cs = []
    · subst h0; simp
    · simp only [isoWkb, if_neg h0, List.length_append, length_isoHeader, length_isoCoords hw] at hl
      omega
  | .linestring d cs, hw, hl => by
    simp only [isoWkb, List.length_append, length_isoHeader, length_isoCoords hw, length_wkbU32'] at hl
    have := seq_small (d := d) (k := cs.length) (Nat.le_refl _) (by omega)
    exact ⟨this.2, fun _ => this.1⟩
  | .polygon d rs, hw, hl => by
    simp only [isoWkb, List.length_append, length_isoHeader, length_wkbU32'] at hl
    have h1 := length_wkbRings rs
    have h2 : ∀ r ∈ rs, r.length < 2 ^ 32 ∧ d.n * r.length < 2 ^ 32 := fun r hr =>
      seq_small (length_mem_wkbRings rs hw r hr) (by omega)
    exact ⟨fun r hr => (h2 r hr).2, fun _ => ⟨by omega, fun r hr => (h2 r hr).1⟩⟩
  | .multi k d ps, hw, hl => by
    simp only [isoWkb, List.length_append, length_isoHeader, length_wkbU32'] at hl
    have h1 := length_isoL ps
    have := small_of_bytesL ps hw (by omega)
    exact ⟨this.1, fun h => ⟨by omega, this.2 h⟩⟩
theorem small_of_bytesL : ∀ (gs : List Geom), Geom.WFL gs → (isoWkbL gs).length < 2 ^ 34 →
    Geom.SmallSeqsL gs ∧ (Geom.SinglePointsL gs → Geom.CountableL gs)
  | [], _, _ => ⟨trivial, fun _ => trivial⟩
  | g :: gs, hw, hl => by
    simp only [isoWkbL, List.length_append] at hl
    have h1 := small_of_bytes g hw.1 (by omega)
    have h2 := small_of_bytesL gs hw.2 (by omega)
    exact ⟨⟨h1.1, h2.1⟩, fun h => ⟨h1.2 h.1, h2.2 h.2⟩⟩
end

theorem rings_wf {m : Mem} {d : Dims} : ∀ (rs : List (List Coord)) (ns : List Node), RingsDenote m d rs ns →
    ∀ r ∈ rs, ∀ c ∈ r, c.length = d.n
  | [], _, _, r, hr => by simp at hr
  | r0 :: rs, ns, ⟨n, ns', _, _, h1, h2⟩, r, hr => by
    rcases List.mem_cons.mp hr with rfl | hr
    · exact h1.2.2.2.1
    · exact rings_wf rs ns' h2 r hr

mutual
theorem denoted_wf {m : Mem} : ∀ (g : Geom) (ns : List Node), g.Denoted m ns → g.WF
  | .point d cs, ns, ⟨n, _, _, h⟩ => h.2.2.2.1
  | .linestring d cs, ns, ⟨n, _, _, h⟩ => h.2.2.2.1
  | .polygon d rs, ns, ⟨n, ns', _, _, _, _, _, h⟩ => rings_wf rs ns' h
  | .multi k d ps, ns, ⟨n, ns', _, _, _, _, _, h⟩ => denotedL_wf ps ns' h
theorem denotedL_wf {m : Mem} : ∀ (gs : List Geom) (ns : List Node), Geom.DenotedL m gs ns → Geom.WFL gs
  | [], _, _ => trivial
  | g :: gs, ns, ⟨n1, n2, _, h1, h2⟩ => ⟨denoted_wf g n1 h1, denotedL_wf gs n2 h2⟩
end

end Verif
