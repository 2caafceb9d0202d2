import Verif.Proof.WkbWriter
import Verif.Proof.Visit
/-!
# Appending a geometry view to the WKB writer
-/
namespace Verif
open Spec

theorem interleaved_eq (cs : List Coord) : interleaved cs = wkbCoords false cs := rfl

theorem appendSequence_eq {m : Mem} {node : Node} {d : Dims} {cs : List Coord} (h : SeqDenotes m node d cs)
    (hw : d.n * cs.length < 2 ^ 32) (room : Nat) (values : List Byte) :
    wkbAppendSequence m node room values = some (values ++ wkbCoords false cs) := by
  have hlen := length_interleaved h.2.2.2.1
  have big : ∀ k, 8 * d.n * cs.length ≤ k → nodeWriteSequence m node (List.replicate k 0) =
      some (8 * d.n * cs.length, splice (List.replicate k 0) 0 (interleaved cs)) := by
    intro k hk
    exact nodeWriteSequence_eq h hw _ (by simpa using hk)
  have htake : ∀ k, 8 * d.n * cs.length ≤ k →
      (splice (List.replicate k 0) 0 (interleaved cs)).take (8 * d.n * cs.length) = interleaved cs := by
    intro k _
    simp only [splice, List.take_zero, List.nil_append]
    rw [← hlen, List.take_left]
  unfold wkbAppendSequence
  by_cases hr : 8 * d.n * cs.length ≤ room
  · rw [big room hr]
    simp only [hr, if_true]
    rw [htake room hr]
    rfl
  · have hs : nodeWriteSequence m node (List.replicate room 0) = some (8 * d.n * cs.length, List.replicate room 0) := by
      unfold nodeWriteSequence
      rw [h.1, nvals_code, h.2.1]
      have hreq : u32 (d.n * cs.length) * 8 = 8 * d.n * cs.length := by
        rw [u32_of_lt hw, Nat.mul_comm, ← Nat.mul_assoc]
      simp only []
      rw [hreq, if_pos (by simp; omega)]
    rw [hs]
    simp only [hr, if_false]
    rw [big _ (Nat.le_refl _)]
    simp only []
    rw [htake _ (Nat.le_refl _)]
    rfl

theorem header_eq (values : List Byte) {k : Nat} (hk : k ≤ 7) (d : Dims) :
    values ++ [1] ++ leBytes 4 (wkbTypeCode k d.code) = values ++ isoHeader k d := by
  rw [typeCode_eq k hk]
  simp [isoHeader, orderMark, wkbU32, inOrder]

theorem appendRings_run {m : Mem} {room : Nat → Nat} {d : Dims} (rest : List Node) (rs : List (List Coord)) :
    ∀ (ns : List Node) (s : WkbW), RingsDenote m d rs ns → (∀ r ∈ rs, d.n * r.length < 2 ^ 32) →
    wkbAppendNodes m room (ns ++ rest) rs.length s =
      wkbAppendNodes m room rest 0 { s with values := s.values ++ wkbRings false rs } := by
  induction rs with
  | nil => intro ns s h _; simp only [RingsDenote] at h; subst h; simp [wkbRings]
  | cons r rs ih =>
    intro ns s h hs
    obtain ⟨n, ns', rfl, hg, hd, hr⟩ := h
    simp only [List.cons_append, wkbAppendNodes, wkbAppendNode, List.length_cons, Nat.zero_lt_succ, if_true]
    rw [appendSequence_eq hd (hs r (by simp)), hd.2.1]
    simp only [Option.map_some, Nat.add_sub_cancel]
    rw [ih ns' _ hr (fun r hr => hs r (by simp [hr]))]
    simp [wkbRings, wkbU32, inOrder]

mutual
theorem appendGeom_run {m : Mem} {room : Nat → Nat} (rest : List Node) : ∀ (g : Geom) (ns : List Node) (s : WkbW),
    g.Denoted m ns → g.SmallSeqs → wkbAppendNodes m room (ns ++ rest) 0 s =
      wkbAppendNodes m room rest 0 { s with values := s.values ++ isoWkb g }
  | .point d cs, ns, s, h, hs => by
    obtain ⟨n, rfl, hg, hd⟩ := h
    simp only [List.cons_append, List.nil_append, wkbAppendNodes, wkbAppendNode, Nat.lt_irrefl, if_false, hg, if_true]
    rw [hd.1, header_eq _ (by omega), hd.2.1]
    by_cases h0 : cs = []
    · subst h0
      simp only [List.length_nil, if_true, nvals_code, isoWkb]
      rw [empty_eq]; simp
    · rw [if_neg (by simpa using h0), appendSequence_eq hd hs]
      simp only [Option.map_some, isoWkb, h0, if_false]
      simp
  | .linestring d cs, ns, s, h, hs => by
    obtain ⟨n, rfl, hg, hd⟩ := h
    simp only [List.cons_append, List.nil_append, wkbAppendNodes, wkbAppendNode, Nat.lt_irrefl, if_false, hg, if_true,
      Nat.reduceEqDiff]
    rw [hd.1, header_eq _ (by omega), hd.2.1, appendSequence_eq hd hs]
    simp [isoWkb, wkbU32, inOrder]
  | .polygon d rs, ns, s, h, hs => by
    obtain ⟨n, ns', rfl, hg, hdm, hsz, _, hr⟩ := h
    simp only [List.cons_append, wkbAppendNodes, wkbAppendNode, Nat.lt_irrefl, if_false, hg, if_true, Nat.reduceEqDiff]
    rw [hdm, header_eq _ (by omega), hsz, appendRings_run rest rs ns' _ hr hs]
    simp [isoWkb, wkbU32, inOrder]
  | .multi k d ps, ns, s, h, hs => by
    obtain ⟨n, ns', rfl, hg, hdm, hsz, _, hr⟩ := h
    have hk : 4 ≤ k.code ∧ k.code ≤ 7 := by cases k <;> simp [MultiKind.code]
    simp only [List.cons_append, wkbAppendNodes, wkbAppendNode, Nat.lt_irrefl, if_false, hg]
    rw [if_neg (by omega), if_neg (by omega), if_neg (by omega), if_pos hk, hdm, header_eq _ hk.2, hsz]
    simp only []
    rw [appendGeoms_run rest ps ns' _ hr hs]
    simp [isoWkb, wkbU32, inOrder]
theorem appendGeoms_run {m : Mem} {room : Nat → Nat} (rest : List Node) : ∀ (gs : List Geom) (ns : List Node) (s : WkbW),
    Geom.DenotedL m gs ns → Geom.SmallSeqsL gs → wkbAppendNodes m room (ns ++ rest) 0 s =
      wkbAppendNodes m room rest 0 { s with values := s.values ++ isoWkbL gs }
  | [], ns, s, h, _ => by simp only [Geom.DenotedL] at h; subst h; simp [isoWkbL]
  | g :: gs, ns, s, h, hs => by
    obtain ⟨n1, n2, rfl, h1, h2⟩ := h
    rw [List.append_assoc, appendGeom_run (n2 ++ rest) g n1 s h1 hs.1, appendGeoms_run rest gs n2 _ h2 hs.2]
    simp [isoWkbL]
end

theorem appendView_run {m : Mem} {room : Nat → Nat} {v : View} {g : Geom} (h : ViewDenotes m v g) (hs : g.SmallSeqs) (s : WkbW) :
    wkbAppendView m room v s = .ok ()
      { s with offsets := s.offsets ++ [toI32 s.values.length], values := s.values ++ isoWkb g, length := s.length + 1,
               validity := bitsAppendValid s.validity } := by
  simp only [wkbAppendView]
  rw [M.bind_ok (M.modify_run _ _)]
  have := appendGeom_run (room := room) [] g v.nodes { s with offsets := s.offsets ++ [toI32 s.values.length] } h hs
  rw [List.append_nil] at this
  have h2 : wkbAppendNodes m room v.nodes 0 { s with offsets := s.offsets ++ [toI32 s.values.length] } =
      .ok () { s with offsets := s.offsets ++ [toI32 s.values.length], values := s.values ++ isoWkb g } := by
    rw [this]; rfl
  rw [M.bind_ok h2]
  rfl

end Verif
