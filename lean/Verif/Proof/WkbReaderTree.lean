import Verif.Proof.WkbReader
/-! Reading valid encodings: trees. -/
namespace Verif
open Spec

theorem inv_coords {blob : List Byte} {s : WkbR} {k : Nat} (hi : WkbInv blob s) (h : s.pos + k ≤ blob.length) :
    WkbInv blob { s with pos := s.pos + k } := by
  obtain ⟨h1, h2⟩ := hi
  exact ⟨h, by simp only []; omega⟩

theorem push_run (node : Node) (s : WkbR) : wkbPush node s = .ok () { s with nodes := s.nodes ++ [node] } := rfl

theorem readRings_spec {blob : List Byte} {d : Dims} {template : Node} (hb : blob.length < 2 ^ 35)
    (ht1 : template.gt = 2) (ht2 : template.dims = d.code) (rs : List (List Coord)) :
    ∀ (s : WkbR) (rest : List Byte), WkbInv blob s → s.swap = template.swap →
    (∀ r ∈ rs, r.length < 2 ^ 32 ∧ ∀ c ∈ r, c.length = d.n) →
    blob.drop s.pos = wkbRings template.swap rs ++ rest →
    ∃ s' ns, wkbReadRings blob d.n template rs.length s = .ok () s' ∧ WkbInv blob s' ∧
      s'.pos = s.pos + (wkbRings template.swap rs).length ∧ s'.nodes = s.nodes ++ ns ∧
      RingsDenote (wkbMem blob) d rs ns := by
  induction rs with
  | nil =>
    intro s rest hi _ _ _
    exact ⟨s, [], rfl, hi, by simp [wkbRings], by simp, rfl⟩
  | cons r rs ih =>
    intro s rest hi hsw hr hd
    obtain ⟨hrl, hrc⟩ := hr r (by simp)
    simp only [wkbRings, List.append_assoc] at hd
    have hf1 := len_of_drop hd hi.1
    rw [length_wkbU32] at hf1
    have hd1 := drop_add hd
    rw [length_wkbU32] at hd1
    have hi1 := inv_step (sw := s.swap) (ns := s.nodes) hi hf1
    obtain ⟨node', hc, hg, _, hden⟩ := readCoords_spec (s := { s with pos := s.pos + 4, left := s.left - 4 })
      (node := { template with size := r.length }) hi1 hrl hrc hb hd1 rfl ht2
    have hf2 := len_of_drop hd1 hi1.1
    have hi2 := inv_coords hi1 hf2
    have hd2 := drop_add hd1
    simp only [] at hd2 hi2 hc
    obtain ⟨s', ns, h1, h2, h3, h4, h5⟩ := ih
      { s with pos := s.pos + 4 + (wkbCoords template.swap r).length, left := s.left - 4, nodes := s.nodes ++ [node'] }
      rest hi2 hsw (fun r hr' => hr r (by simp [hr'])) hd2
    refine ⟨s', node' :: ns, ?_, h2, ?_, by rw [h4]; simp, ⟨node', ns, rfl, by rw [hg]; exact ht1, hden, h5⟩⟩
    · simp only [List.length_cons, wkbReadRings]
      rw [M.bind_ok (readU32_spec hi (by rw [hsw]; exact hd) hrl), M.bind_ok hc, M.bind_ok (push_run _ _)]
      exact h1
    · rw [h3]
      simp only [wkbRings, List.length_append, length_wkbU32]
      omega

theorem MultiKind.code_range (k : MultiKind) : 4 ≤ k.code ∧ k.code ≤ 7 := by cases k <;> simp [MultiKind.code]

theorem readSize_spec {blob rest : List Byte} {s : WkbR} {n g : Nat} (hg : g ≠ 1) (hi : WkbInv blob s)
    (h : blob.drop s.pos = wkbU32 s.swap n ++ rest) (hn : n < 2 ^ 32) :
    (if g ≠ 1 then wkbReadU32 blob else pure 1) s = .ok n { s with pos := s.pos + 4, left := s.left - 4 } := by
  rw [if_pos hg]
  exact readU32_spec hi h hn

mutual
theorem readNode_spec {blob : List Byte} (hb : blob.length < 2 ^ 35) : ∀ (g : Geom) (b : List Byte), WkbEnc g b →
    ∀ (r level : Nat) (s : WkbR) (rest : List Byte), WkbInv blob s → blob.drop s.pos = b ++ rest → g.height ≤ r →
    ∃ s' ns, wkbReadNode blob r level s = .ok () s' ∧ WkbInv blob s' ∧ s'.pos = s.pos + b.length ∧
      s'.nodes = s.nodes ++ ns ∧ g.Denoted (wkbMem blob) ns
  | .point d cs, b, he, r, level, s, rest, hi, hd, _ => by
    obtain ⟨big, h, c, rfl, hc, hh, rfl⟩ := he
    rw [List.append_assoc] at hd
    have hf1 := len_of_drop hd hi.1
    have hd1 := drop_add hd
    have hi1 := inv_step (sw := big) (ns := s.nodes) hi hf1
    have hhd := readHeader_spec hi (by omega) hh hd
    have key : ∀ child, ∃ s' ns, wkbNodeBody blob level child s = .ok () s' ∧ WkbInv blob s' ∧
        s'.pos = s.pos + (h ++ wkbCoords big [c]).length ∧
        s'.nodes = s.nodes ++ ns ∧ (Geom.point d [c]).Denoted (wkbMem blob) ns := by
      intro child
      obtain ⟨node', hcr, hg, _, hden⟩ := readCoords_spec (d := d) (cs := [c])
        (s := { s with swap := big, pos := s.pos + h.length, left := s.left - h.length })
        (node := { blankNode with gt := 1, dims := d.code, size := 1, swap := big, level := level })
        hi1 (by simp) (by simpa using hc) hb hd1 rfl rfl
      have hi2 := inv_coords hi1 (len_of_drop hd1 hi1.1)
      refine ⟨{ s with swap := big, pos := s.pos + h.length + (wkbCoords big [c]).length, left := s.left - h.length,
                       nodes := s.nodes ++ [node'] }, [node'], ?_, ?_, ?_, rfl, ⟨node', rfl, hg, hden⟩⟩
      · simp only [wkbNodeBody]
        rw [M.bind_ok hhd]
        simp only [ne_eq, not_true_eq_false, if_false, true_or, if_true, wkbDims_code, wkbCoordSize_n]
        rw [M.bind_ok (M.pure_run _ _), M.bind_ok (M.get_run _)]
        exact (M.bind_ok hcr).trans rfl
      · exact hi2
      · simp only [List.length_append]; omega
    cases r with
    | zero => exact key none
    | succ r => exact key (some _)
  | .linestring d cs, b, he, r, level, s, rest, hi, hd, _ => by
    obtain ⟨big, h, hcl, hc, hh, rfl⟩ := he
    rw [List.append_assoc, List.append_assoc] at hd
    have hf1 := len_of_drop hd hi.1
    have hd1 := drop_add hd
    have hi1 := inv_step (sw := big) (ns := s.nodes) hi hf1
    have hhd := readHeader_spec hi (by omega) hh hd
    have hf2 := len_of_drop hd1 hi1.1
    rw [length_wkbU32] at hf2
    have hd2 := drop_add hd1
    rw [length_wkbU32] at hd2
    have hi2 := inv_step (sw := big) (ns := s.nodes) hi1 hf2
    have key : ∀ child, ∃ s' ns, wkbNodeBody blob level child s = .ok () s' ∧ WkbInv blob s' ∧
        s'.pos = s.pos + (h ++ wkbU32 big cs.length ++ wkbCoords big cs).length ∧
        s'.nodes = s.nodes ++ ns ∧ (Geom.linestring d cs).Denoted (wkbMem blob) ns := by
      intro child
      obtain ⟨node', hcr, hg, _, hden⟩ := readCoords_spec (d := d) (cs := cs)
        (s := { s with swap := big, pos := s.pos + h.length + 4, left := s.left - h.length - 4 })
        (node := { blankNode with gt := 2, dims := d.code, size := cs.length, swap := big, level := level })
        hi2 hcl hc hb hd2 rfl rfl
      have hi3 := inv_coords hi2 (len_of_drop hd2 hi2.1)
      refine ⟨{ s with swap := big, pos := s.pos + h.length + 4 + (wkbCoords big cs).length,
                       left := s.left - h.length - 4, nodes := s.nodes ++ [node'] }, [node'], ?_, ?_, ?_, rfl,
        ⟨node', rfl, hg, hden⟩⟩
      · simp only [wkbNodeBody]
        rw [M.bind_ok hhd]
        rw [M.bind_ok (readSize_spec (by simp) hi1 hd1 hcl), M.bind_ok (M.get_run _)]
        simp only [or_true, if_true, wkbDims_code, wkbCoordSize_n]
        exact (M.bind_ok hcr).trans rfl
      · exact hi3
      · simp only [List.length_append, length_wkbU32]; omega
    cases r with
    | zero => exact key none
    | succ r => exact key (some _)
  | .polygon d rs, b, he, r, level, s, rest, hi, hd, hht => by
    obtain ⟨big, h, hcl, hc, hh, rfl⟩ := he
    rw [List.append_assoc, List.append_assoc] at hd
    have hf1 := len_of_drop hd hi.1
    have hd1 := drop_add hd
    have hi1 := inv_step (sw := big) (ns := s.nodes) hi hf1
    have hhd := readHeader_spec hi (by omega) hh hd
    have hf2 := len_of_drop hd1 hi1.1
    rw [length_wkbU32] at hf2
    have hd2 := drop_add hd1
    rw [length_wkbU32] at hd2
    have hi2 := inv_step (sw := big) (ns := s.nodes) hi1 hf2
    cases r with
    | zero => simp [Geom.height] at hht
    | succ r =>
      simp only [wkbReadNode]
      let node : Node :=
        { blankNode with gt := 3 % 256, dims := d.code, size := rs.length, swap := big, level := level }
      obtain ⟨s', ns, h1, h2, h3, h4, h5⟩ := readRings_spec (d := d)
        (template := { node with gt := 2, level := level + 1 }) hb rfl rfl rs
        { s with swap := big, pos := s.pos + h.length + 4, left := s.left - h.length - 4, nodes := s.nodes ++ [node] }
        rest hi2 rfl hc hd2
      refine ⟨s', node :: ns, ?_, h2, ?_, by rw [h4]; simp, ⟨node, ns, rfl, rfl, rfl, rfl, hcl, h5⟩⟩
      · simp only [wkbNodeBody]
        rw [M.bind_ok hhd]
        rw [M.bind_ok (readSize_spec (by simp) hi1 hd1 hcl), M.bind_ok (M.get_run _)]
        simp only [Nat.reduceEqDiff, or_self, if_false, if_true, wkbDims_code, wkbCoordSize_n]
        rw [M.bind_ok (push_run _ _)]
        exact h1
      · rw [h3]
        simp only [List.length_append, length_wkbU32]
        show s.pos + h.length + 4 + (wkbRings big rs).length = _
        omega
  | .multi k d ps, b, he, r, level, s, rest, hi, hd, hht => by
    obtain ⟨big, h, b', hcl, hh, hps, rfl⟩ := he
    rw [List.append_assoc, List.append_assoc] at hd
    have hk := MultiKind.code_range k
    have hf1 := len_of_drop hd hi.1
    have hd1 := drop_add hd
    have hi1 := inv_step (sw := big) (ns := s.nodes) hi hf1
    have hhd := readHeader_spec hi (by omega) hh hd
    have hf2 := len_of_drop hd1 hi1.1
    rw [length_wkbU32] at hf2
    have hd2 := drop_add hd1
    rw [length_wkbU32] at hd2
    have hi2 := inv_step (sw := big) (ns := s.nodes) hi1 hf2
    simp only [Geom.height] at hht
    cases r with
    | zero => omega
    | succ r =>
      simp only [wkbReadNode]
      let node : Node :=
        { blankNode with gt := k.code % 256, dims := d.code, size := ps.length, swap := big, level := level }
      obtain ⟨s', ns, h1, h2, h3, h4, h5⟩ := readNodes_spec hb ps b' hps r (level + 1)
        { s with swap := big, pos := s.pos + h.length + 4, left := s.left - h.length - 4, nodes := s.nodes ++ [node] }
        rest hi2 hd2 (by omega)
      refine ⟨s', node :: ns, ?_, h2, ?_, by rw [h4]; simp,
        ⟨node, ns, rfl, Nat.mod_eq_of_lt (by omega), rfl, rfl, hcl, h5⟩⟩
      · simp only [wkbNodeBody]
        rw [M.bind_ok hhd]
        rw [M.bind_ok (readSize_spec (by simp; omega) hi1 hd1 hcl), M.bind_ok (M.get_run _)]
        simp only []
        rw [if_neg (by omega), if_neg (by omega), if_pos hk]
        simp only [wkbDims_code]
        rw [M.bind_ok (push_run _ _)]
        exact h1
      · rw [h3]
        simp only [List.length_append, length_wkbU32]
        omega
theorem readNodes_spec {blob : List Byte} (hb : blob.length < 2 ^ 35) : ∀ (gs : List Geom) (b : List Byte), WkbEncL gs b →
    ∀ (r level : Nat) (s : WkbR) (rest : List Byte), WkbInv blob s → blob.drop s.pos = b ++ rest → Geom.heightL gs ≤ r →
    ∃ s' ns, wkbReadChildren (wkbReadNode blob r level) gs.length s = .ok () s' ∧ WkbInv blob s' ∧
      s'.pos = s.pos + b.length ∧ s'.nodes = s.nodes ++ ns ∧ Geom.DenotedL (wkbMem blob) gs ns
  | [], b, he, r, level, s, rest, hi, hd, _ => by
    rw [show b = [] from he]
    exact ⟨s, [], rfl, hi, by simp, by simp, rfl⟩
  | g :: gs, b, he, r, level, s, rest, hi, hd, hht => by
    obtain ⟨b1, b2, e1, e2, rfl⟩ := he
    rw [List.append_assoc] at hd
    simp only [Geom.heightL] at hht
    obtain ⟨s1, n1, a1, a2, a3, a4, a5⟩ := readNode_spec hb g b1 e1 r level s _ hi hd (by omega)
    have hd2 := drop_add hd
    rw [← a3] at hd2
    obtain ⟨s2, n2, c1, c2, c3, c4, c5⟩ := readNodes_spec hb gs b2 e2 r level s1 _ a2 hd2 (by omega)
    refine ⟨s2, n1 ++ n2, ?_, c2, ?_, by rw [c4, a4, List.append_assoc], ⟨n1, n2, rfl, a5, c5⟩⟩
    · simp only [List.length_cons, wkbReadChildren]
      rw [M.bind_ok a1]
      exact c1
    · rw [c3, a3, List.length_append]; omega
end

/-- Reading a valid encoding, followed by any bytes. -/
theorem wkbRead_spec {g : Geom} {b rest : List Byte} (he : WkbEnc g b) (hh : g.height ≤ 255)
    (hb : (b ++ rest).length < 2 ^ 35) (r : WkbR) :
    ∃ v s', wkbRead (b ++ rest) r = .ok v s' ∧ ViewDenotes (wkbMem (b ++ rest)) v g := by
  obtain ⟨s', ns, h1, _, _, h4, h5⟩ := readNode_spec hb g b he 255 0
    { r with pos := 0, left := (b ++ rest).length, nodes := [] } rest ⟨Nat.zero_le _, by simp⟩ rfl hh
  refine ⟨⟨s'.nodes⟩, s', ?_, ?_⟩
  · simp only [wkbRead]
    rw [M.bind_ok (M.modify_run _ _), M.bind_ok h1]
    rfl
  · rw [h4]
    exact h5

end Verif
