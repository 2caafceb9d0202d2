import Verif.Proof.WkbParser
import Verif.Proof.WkbReaderTree
/-! The C++ WKB parser on valid encodings. -/
namespace Verif
open Spec

theorem mapM_range' {α} {f : Nat → Option α} : ∀ (l : List α) (k : Nat),
    (∀ i (h : i < l.length), f (k + i) = some l[i]) → (List.range' k l.length).mapM f = some l
  | [], k, _ => rfl
  | x :: xs, k, h => by
    have h0 := h 0 (by simp)
    have ih := mapM_range' (f := f) xs (k + 1) (fun i hi => by
      have := h (i + 1) (by simp; omega)
      rw [show k + 1 + i = k + (i + 1) by omega, this]; simp)
    simp only [Nat.add_zero, List.getElem_cons_zero] at h0
    rw [List.length_cons, List.range'_succ, List.mapM_cons, h0, ih]
    rfl

theorem mapM_range {α} {f : Nat → Option α} (l : List α) (h : ∀ i (h : i < l.length), f i = some l[i]) :
    (List.range l.length).mapM f = some l := by
  rw [List.range_eq_range']
  exact mapM_range' l 0 (fun i hi => by rw [Nat.zero_add]; exact h i hi)

theorem cppCoordSize_code (d : Dims) : cppCoordSize d.code = some d.n := by cases d <;> rfl

theorem orderMark_one (big : Bool) : (orderMark big = 1) = (big = false) := by cases big <;> simp [orderMark]

theorem cppSeq_vertices {blob rest : List Byte} {pos : Nat} {big : Bool} {d : Dims} {cs : List Coord}
    (hp : pos ≤ blob.length) (hc : ∀ c ∈ cs, c.length = d.n) (hd : blob.drop pos = wkbCoords big cs ++ rest) :
    cppSeqVertices blob ⟨pos, cs.length, d.n, d.code, orderMark big⟩ = some cs := by
  unfold cppSeqVertices
  simp only [cppCoordSize_code]
  refine mapM_range cs ?_
  intro i hi
  unfold cppSeqCoord
  have hci := hc cs[i] (List.getElem_mem hi)
  rw [← hci]
  refine mapM_range cs[i] ?_
  intro j hj
  have hat := wkbCoords_at (big := big) hc (List.getElem?_eq_getElem hi) (List.getElem?_eq_getElem hj) rest
  have hl := len_of_drop hd hp
  rw [length_wkbCoords hc] at hl
  have hb1 : 8 * d.n * (i + 1) ≤ 8 * d.n * cs.length := Nat.mul_le_mul_left _ (by omega)
  rw [Nat.mul_succ] at hb1
  have e : pos + j * 8 + i * (cs[i].length * 8) = pos + (8 * d.n * i + 8 * j) := by
    rw [hci, Nat.mul_comm i, Nat.mul_comm d.n 8]; omega
  simp only [cppLoadAs]
  rw [e, cppLoad_some (by omega)]
  simp only [Option.map_some]
  rw [← List.drop_drop, hd, hat]
  have hx := Dbl.ofBytes_bytes (cs[i][j])
  unfold Dbl.ofBytes at hx
  cases big <;> simp [ordBytes, orderMark, hx]

/-- The parser has exactly the bytes of the blob that are left. -/
theorem cinv_step {blob : List Byte} {s : CppP} {k : Nat} {e x y} (hi : CInv blob.length s) (h : s.pos + k ≤ blob.length) :
    CInv blob.length { pos := s.pos + k, remaining := s.remaining - k, endian := e, dims := x, stride := y } := by
  unfold CInv at *
  simp only []; omega

theorem cinv_pos {blob : List Byte} {s : CppP} (hi : CInv blob.length s) : s.pos ≤ blob.length := by
  unfold CInv at hi; omega

theorem cppCheck_run {n : Nat} {s : CppP} (h : n ≤ s.remaining) : cppCheck n s = .ok () s := if_pos h

theorem cppReadU32_run {blob rest : List Byte} {s : CppP} {big : Bool} {n : Nat} (hi : CInv blob.length s)
    (he : s.endian = orderMark big) (h : blob.drop s.pos = wkbU32 big n ++ rest) (hn : n < 2 ^ 32) :
    cppReadU32 blob s = .ok n { s with pos := s.pos + 4, remaining := s.remaining - 4 } := by
  have hl := len_of_drop h (cinv_pos hi)
  rw [length_wkbU32] at hl
  unfold CInv at hi
  unfold cppReadU32
  have hv : cppLoadAs blob s.endian s.pos 4 = some n := by
    rw [cppLoadAs, cppLoad_some hl, h, List.take_append_of_le_length (by simp), List.take_of_length_le (by simp)]
    simp only [Option.map_some, he, wkbU32, inOrder]
    have := leVal_leBytes_of_lt (k := 4) (n := n) (by simpa using hn)
    cases big <;> simp [orderMark, this]
  rw [hv]
  simp only [M.bind_ok (cppAdvance_run (n := 4) (s := s) (by omega))]
  rfl

theorem cppReadEndian_run {blob rest : List Byte} {s : CppP} {big : Bool} (hi : CInv blob.length s)
    (h : blob.drop s.pos = orderMark big :: rest) :
    cppReadEndian blob s = .ok () { s with endian := orderMark big, pos := s.pos + 1, remaining := s.remaining - 1 } := by
  have hl := len_of_drop (b := [orderMark big]) (by simpa using h) (cinv_pos hi)
  simp only [List.length_singleton] at hl
  have hget : blob[s.pos]? = some (orderMark big) := by
    have : (blob.drop s.pos)[0]? = some (orderMark big) := by rw [h]; rfl
    simpa using this
  unfold CInv at hi
  unfold cppReadEndian
  rw [hget]
  simp only []
  rw [if_pos (by cases big <;> simp [orderMark]), cppAdvance_run (by show 1 ≤ s.remaining; omega)]

theorem cppTypeWord_iso (base : Nat) (d : Dims) (h : 1 ≤ base ∧ base ≤ 7) :
    cppTypeWord (base + isoOffset d) = (base, dimZ d, dimM d) := by
  have : base = 1 ∨ base = 2 ∨ base = 3 ∨ base = 4 ∨ base = 5 ∨ base = 6 ∨ base = 7 := by omega
  rcases this with rfl | rfl | rfl | rfl | rfl | rfl | rfl <;> cases d <;> decide
theorem cppTypeWord_ewkb (base : Nat) (d : Dims) (h : 1 ≤ base ∧ base ≤ 7) :
    cppTypeWord (base + ewkbFlags d) = (base, dimZ d, dimM d) := by
  have : base = 1 ∨ base = 2 ∨ base = 3 ∨ base = 4 ∨ base = 5 ∨ base = 6 ∨ base = 7 := by omega
  rcases this with rfl | rfl | rfl | rfl | rfl | rfl | rfl <;> cases d <;> decide
theorem cppTypeWord_srid (base : Nat) (d : Dims) (h : 1 ≤ base ∧ base ≤ 7) :
    cppTypeWord (base + ewkbFlags d + 0x20000000) = (base, dimZ d, dimM d) := by
  have : base = 1 ∨ base = 2 ∨ base = 3 ∨ base = 4 ∨ base = 5 ∨ base = 6 ∨ base = 7 := by omega
  rcases this with rfl | rfl | rfl | rfl | rfl | rfl | rfl <;> cases d <;> decide
theorem sridFlag_srid (base : Nat) (d : Dims) (h : 1 ≤ base ∧ base ≤ 7) :
    ((base + ewkbFlags d + 0x20000000) &&& 0x20000000 != 0) = true := by
  have : base = 1 ∨ base = 2 ∨ base = 3 ∨ base = 4 ∨ base = 5 ∨ base = 6 ∨ base = 7 := by omega
  rcases this with rfl | rfl | rfl | rfl | rfl | rfl | rfl <;> cases d <;> decide

theorem cppDims_code (d : Dims) : cppDims (dimZ d) (dimM d) = d.code := by cases d <;> rfl
theorem cppStride_n (d : Dims) : 2 + (dimZ d).toNat + (dimM d).toNat = d.n := by cases d <;> rfl

/-- State of the parser after a header. -/
def afterHdr (s : CppP) (big : Bool) (d : Dims) (n : Nat) : CppP :=
  { pos := s.pos + n, remaining := s.remaining - n, endian := orderMark big, dims := d.code, stride := d.n }

theorem cppHeader_run {blob h rest : List Byte} {s : CppP} {big : Bool} {base srid : Nat} {d : Dims}
    (hi : CInv blob.length s) (hb : 1 ≤ base ∧ base ≤ 7) (hh : HeaderSrid big base d srid h)
    (hd : blob.drop s.pos = h ++ rest) :
    cppHeader blob s = .ok (srid, base) (afterHdr s big d h.length) := by
  obtain ⟨l1, l2, l3⟩ := typeWord_lt base d hb
  have hlen := len_of_drop hd (cinv_pos hi)
  have simple : ∀ w, w < 2 ^ 32 → h = orderMark big :: wkbU32 big w → srid = 0xffffffff → (w &&& 0x20000000 != 0) = false →
      cppTypeWord w = (base, dimZ d, dimM d) →
      cppHeader blob s = .ok (srid, base) (afterHdr s big d h.length) := by
    intro w hw hhw hsr hs htw
    subst hhw hsr
    simp only [List.length_cons, length_wkbU32] at hlen
    have hi' := hi
    unfold CInv at hi'
    have hd1 : blob.drop (s.pos + 1) = wkbU32 big w ++ rest := by
      have := drop_add (b := [orderMark big]) (by simpa using hd)
      simpa using this
    unfold cppHeader
    rw [M.bind_ok (cppCheck_run (by omega)), M.bind_ok (cppReadEndian_run hi (by simpa using hd))]
    rw [M.bind_ok (cppReadU32_run (s := ⟨s.pos + 1, s.remaining - 1, orderMark big, s.dims, s.stride⟩) (big := big) (n := w)
      (cinv_step hi (by omega)) rfl hd1 hw)]
    simp only [hs, Bool.false_eq_true, if_false, htw]
    rw [M.bind_ok (M.pure_run _ _), M.bind_ok (M.modify_run _ _)]
    simp only [M.pure_run, cppDims_code, cppStride_n, afterHdr, List.length_cons, length_wkbU32]
    congr 1
  rcases hh with ⟨h0, h1⟩ | ⟨h0, h1⟩ | ⟨h0, h1⟩
  · exact simple _ l1 h1 h0 (typeWord_iso base d hb).2 (cppTypeWord_iso base d hb)
  · exact simple _ l2 h1 h0 (typeWord_ewkb base d hb).2 (cppTypeWord_ewkb base d hb)
  · subst h1
    simp only [List.length_append, List.length_cons, length_wkbU32] at hlen
    have hi' := hi
    unfold CInv at hi'
    have hd1 : blob.drop (s.pos + 1) = wkbU32 big (base + ewkbFlags d + 0x20000000) ++ (wkbU32 big srid ++ rest) := by
      have := drop_add (b := [orderMark big]) (by simpa using hd)
      simpa using this
    have hd2 := drop_add hd1
    rw [length_wkbU32] at hd2
    unfold cppHeader
    rw [M.bind_ok (cppCheck_run (by omega)), M.bind_ok (cppReadEndian_run hi (by simpa using hd))]
    rw [M.bind_ok (cppReadU32_run (s := ⟨s.pos + 1, s.remaining - 1, orderMark big, s.dims, s.stride⟩) (big := big)
      (cinv_step hi (by omega)) rfl hd1 l3)]
    simp only [sridFlag_srid base d hb, if_true, cppTypeWord_srid base d hb]
    have hopt : ∀ (s2 : CppP), CInv blob.length s2 → s2.endian = orderMark big → 
        blob.drop s2.pos = wkbU32 big srid ++ rest → 4 ≤ s2.remaining →
        (cppCheck 4 >>= fun _ => cppReadU32 blob : M CppP Nat) s2 =
          .ok srid { s2 with pos := s2.pos + 4, remaining := s2.remaining - 4 } := by
      intro s2 h1 h2 h3 h4
      rw [M.bind_ok (cppCheck_run h4)]
      exact cppReadU32_run h1 h2 h3 h0
    rw [M.bind_ok (hopt _ (by unfold CInv; simp only []; omega) rfl hd2 (by simp only []; omega)),
      M.bind_ok (M.modify_run _ _)]
    simp only [M.pure_run, cppDims_code, cppStride_n, afterHdr, List.length_append, List.length_cons, length_wkbU32]
    congr 1

theorem headerSrid_of {big base d h} (hh : IsHeader big base d h) : ∃ srid, HeaderSrid big base d srid h := by
  rcases hh with h1 | h1 | ⟨srid, h0, h1⟩
  · exact ⟨_, Or.inl ⟨rfl, h1⟩⟩
  · exact ⟨_, Or.inr (Or.inl ⟨rfl, h1⟩)⟩
  · exact ⟨srid, Or.inr (Or.inr ⟨h0, h1⟩)⟩

theorem cppPoint_run {blob rest : List Byte} {s : CppP} {big : Bool} {d : Dims} {c : Coord} (hi : CInv blob.length s)
    (he : s.endian = orderMark big) (hdm : s.dims = d.code) (hst : s.stride = d.n) (hc : c.length = d.n)
    (h : blob.drop s.pos = wkbCoords big [c] ++ rest) :
    cppParsePoint s = .ok ⟨s.pos, 1, d.n, d.code, orderMark big⟩
      { s with pos := s.pos + (wkbCoords big [c]).length, remaining := s.remaining - (wkbCoords big [c]).length } := by
  have hl := len_of_drop h (cinv_pos hi)
  have hn := dims_n_le d
  have hlen : (wkbCoords big [c]).length = d.n * 8 := by
    rw [length_wkbCoords (nv := d.n) (by simpa using hc)]; simp; omega
  have hb : u32 (s.stride * 8) = d.n * 8 := by rw [hst]; exact u32_of_lt (by omega)
  unfold CInv at hi
  unfold cppParsePoint
  rw [M.bind_ok (M.get_run _)]
  simp only [hb]
  rw [M.bind_ok (cppCheck_run (by omega)), M.bind_ok (a := ⟨s.pos, 1, d.n, d.code, orderMark big⟩) (s' := s)
    (by simp [cppNewSequence, he, hdm, hst]), M.bind_ok (cppAdvance_run (by omega)), hlen]
  rfl

theorem cppSequence_run {blob rest : List Byte} {s : CppP} {big : Bool} {d : Dims} {cs : List Coord} (hi : CInv blob.length s)
    (he : s.endian = orderMark big) (hdm : s.dims = d.code) (hst : s.stride = d.n) (hc : ∀ c ∈ cs, c.length = d.n)
    (hcl : cs.length < 2 ^ 32) (h : blob.drop s.pos = wkbU32 big cs.length ++ (wkbCoords big cs ++ rest)) :
    cppParseSequence blob s = .ok ⟨s.pos + 4, cs.length, d.n, d.code, orderMark big⟩
      { s with pos := s.pos + 4 + (wkbCoords big cs).length, remaining := s.remaining - 4 - (wkbCoords big cs).length } := by
  have hl := len_of_drop h (cinv_pos hi)
  have hd1 := drop_add h
  rw [length_wkbU32] at hl hd1
  have hl2 := len_of_drop hd1 hl
  have hn := dims_n_le d
  have hlen := length_wkbCoords (big := big) hc
  have hb : 8 * cs.length * s.stride % 2 ^ 64 = (wkbCoords big cs).length := by
    rw [hst, hlen, Nat.mul_assoc, Nat.mul_comm cs.length, ← Nat.mul_assoc]
    refine Nat.mod_eq_of_lt ?_
    have : 8 * d.n * cs.length ≤ 8 * 4 * cs.length := Nat.mul_le_mul_right _ (by omega)
    omega
  have hi' := hi
  unfold CInv at hi'
  unfold cppParseSequence
  rw [M.bind_ok (cppCheck_run (by omega)), M.bind_ok (cppReadU32_run hi he h hcl), M.bind_ok (M.get_run _)]
  simp only [hb]
  rw [M.bind_ok (cppCheck_run (by simp only []; omega)),
    M.bind_ok (a := ⟨s.pos + 4, cs.length, d.n, d.code, orderMark big⟩)
      (s' := { s with pos := s.pos + 4, remaining := s.remaining - 4 })
      (by simp [cppNewSequence, he, hdm, hst]), M.bind_ok (cppAdvance_run (by simp only []; omega))]
  rfl

theorem cppRings_run {blob : List Byte} {big : Bool} {d : Dims} : ∀ (rs : List (List Coord)) (s : CppP) (rest : List Byte),
    CInv blob.length s → s.endian = orderMark big → s.dims = d.code → s.stride = d.n →
    (∀ r ∈ rs, r.length < 2 ^ 32 ∧ ∀ c ∈ r, c.length = d.n) → blob.drop s.pos = wkbRings big rs ++ rest →
    ∃ qs, cppRepeat (cppParseSequence blob) rs.length s = .ok qs
        { s with pos := s.pos + (wkbRings big rs).length, remaining := s.remaining - (wkbRings big rs).length } ∧
      SeqsHold blob d rs qs
  | [], s, rest, hi, _, _, _, _, _ => ⟨[], by simp [cppRepeat, wkbRings], rfl⟩
  | r :: rs, s, rest, hi, he, hdm, hst, hr, hd => by
    obtain ⟨hrl, hrc⟩ := hr r (by simp)
    simp only [wkbRings, List.append_assoc] at hd
    have hrun := cppSequence_run hi he hdm hst hrc hrl hd
    have hf1 := len_of_drop hd (cinv_pos hi)
    have hd1 := drop_add hd
    rw [length_wkbU32] at hf1 hd1
    have hf2 := len_of_drop hd1 hf1
    have hd2 := drop_add hd1
    have hi' := hi
    unfold CInv at hi'
    obtain ⟨qs, h1, h2⟩ := cppRings_run (big := big) (d := d) rs
      { s with pos := s.pos + 4 + (wkbCoords big r).length, remaining := s.remaining - 4 - (wkbCoords big r).length }
      rest (by unfold CInv; simp only []; omega) he hdm hst (fun r hr' => hr r (by simp [hr'])) hd2
    refine ⟨_ :: qs, ?_, ⟨_, qs, rfl, rfl, rfl, cppSeq_vertices (rest := wkbRings big rs ++ rest) hf1 hrc hd1, h2⟩⟩
    simp only [List.length_cons, cppRepeat]
    rw [M.bind_ok hrun, M.bind_ok h1]
    simp only [M.pure_run, wkbRings, List.length_append, length_wkbU32]
    congr 2 <;> omega

mutual
theorem cppGeometry_run {blob : List Byte} : ∀ (g : Geom) (b : List Byte), WkbEnc g b →
    ∀ (fuel : Nat) (s : CppP) (rest : List Byte), CInv blob.length s → blob.drop s.pos = b ++ rest → g.height < fuel →
    ∃ s' t, cppGeometry blob fuel s = .ok t s' ∧ CInv blob.length s' ∧ s'.pos = s.pos + b.length ∧ Tokens blob g t
  | .point d cs, b, he, fuel + 1, s, rest, hi, hd, hf => by
    obtain ⟨big, h, c, rfl, hc, hh, rfl⟩ := he
    obtain ⟨srid, hh⟩ := headerSrid_of hh
    rw [List.append_assoc] at hd
    have hf1 := len_of_drop hd (cinv_pos hi)
    have hd1 := drop_add hd
    have hhd := cppHeader_run hi (by omega) hh hd
    have hi1 : CInv blob.length (afterHdr s big d h.length) := cinv_step hi hf1
    have hp := cppPoint_run (d := d) hi1 rfl rfl rfl hc hd1
    have hf2 := len_of_drop hd1 hf1
    refine ⟨⟨s.pos + h.length + (wkbCoords big [c]).length, s.remaining - h.length - (wkbCoords big [c]).length,
        orderMark big, d.code, d.n⟩, .mk 1 d.code srid [_] [], ?_, ?_, ?_, rfl, rfl, rfl, _, [], rfl, rfl, ?_,
      cppSeq_vertices (rest := rest) (cs := [c]) hf1 (by simpa using hc) hd1, rfl⟩
    · rw [show cppGeometry blob (fuel + 1) = cppGeometryBody blob (cppGeometry blob fuel) from rfl, cppGeometryBody,
        M.bind_ok hhd, M.bind_ok (M.get_run _)]
      simp only [if_true]
      rw [M.bind_ok hp]
      rfl
    · exact cinv_step hi1 hf2
    · simp only [List.length_append]; omega
    · rfl
  | .linestring d cs, b, he, fuel + 1, s, rest, hi, hd, hf => by
    obtain ⟨big, h, hcl, hc, hh, rfl⟩ := he
    obtain ⟨srid, hh⟩ := headerSrid_of hh
    rw [List.append_assoc, List.append_assoc] at hd
    have hf1 := len_of_drop hd (cinv_pos hi)
    have hd1 := drop_add hd
    have hhd := cppHeader_run hi (by omega) hh hd
    have hi1 : CInv blob.length (afterHdr s big d h.length) := cinv_step hi hf1
    have hp := cppSequence_run (d := d) hi1 rfl rfl rfl hc hcl hd1
    have hf2 := len_of_drop hd1 hf1
    have hd2 := drop_add hd1
    rw [length_wkbU32] at hf2 hd2
    have hf3 := len_of_drop hd2 hf2
    refine ⟨⟨s.pos + h.length + 4 + (wkbCoords big cs).length, s.remaining - h.length - 4 - (wkbCoords big cs).length,
        orderMark big, d.code, d.n⟩, .mk 2 d.code srid [_] [], ?_, ?_, ?_, rfl, rfl, rfl, _, [], rfl, rfl, ?_,
      cppSeq_vertices (rest := rest) (cs := cs) hf2 hc hd2, rfl⟩
    · rw [show cppGeometry blob (fuel + 1) = cppGeometryBody blob (cppGeometry blob fuel) from rfl, cppGeometryBody,
        M.bind_ok hhd, M.bind_ok (M.get_run _)]
      simp only [Nat.reduceEqDiff, if_false, if_true]
      rw [M.bind_ok hp]
      rfl
    · unfold CInv at hi1 ⊢
      simp only [afterHdr] at hi1 ⊢
      omega
    · simp only [List.length_append, length_wkbU32]; omega
    · rfl
  | .polygon d rs, b, he, fuel + 1, s, rest, hi, hd, hf => by
    obtain ⟨big, h, hrl, hr, hh, rfl⟩ := he
    obtain ⟨srid, hh⟩ := headerSrid_of hh
    rw [List.append_assoc, List.append_assoc] at hd
    have hf1 := len_of_drop hd (cinv_pos hi)
    have hd1 := drop_add hd
    have hhd := cppHeader_run hi (by omega) hh hd
    have hi1 : CInv blob.length (afterHdr s big d h.length) := cinv_step hi hf1
    have hsz := cppReadU32_run (s := afterHdr s big d h.length) hi1 rfl hd1 hrl
    have hf2 := len_of_drop hd1 hf1
    have hd2 := drop_add hd1
    rw [length_wkbU32] at hf2 hd2
    have hi2 : CInv blob.length { afterHdr s big d h.length with
      pos := (afterHdr s big d h.length).pos + 4, remaining := (afterHdr s big d h.length).remaining - 4 } :=
      cinv_step hi1 hf2
    obtain ⟨qs, hq, hq2⟩ := cppRings_run (big := big) (d := d) rs _ rest hi2 rfl rfl rfl hr hd2
    have hf3 := len_of_drop hd2 hf2
    refine ⟨⟨s.pos + h.length + 4 + (wkbRings big rs).length, s.remaining - h.length - 4 - (wkbRings big rs).length,
        orderMark big, d.code, d.n⟩, .mk 3 d.code srid qs [], ?_, ?_, ?_, rfl, rfl, rfl, hq2⟩
    · rw [show cppGeometry blob (fuel + 1) = cppGeometryBody blob (cppGeometry blob fuel) from rfl, cppGeometryBody,
        M.bind_ok hhd, M.bind_ok (M.get_run _)]
      simp only [Nat.reduceEqDiff, if_false, if_true]
      rw [M.bind_ok (cppCheck_run (by unfold CInv at hi1; simp only [afterHdr] at hi1 hf2 ⊢; omega)), M.bind_ok hsz,
        M.bind_ok hq]
      rfl
    · exact cinv_step hi2 hf3
    · simp only [List.length_append, length_wkbU32]; omega
  | .multi k d ps, b, he, fuel + 1, s, rest, hi, hd, hf => by
    obtain ⟨big, h, b', hpl, hh, he', rfl⟩ := he
    obtain ⟨srid, hh⟩ := headerSrid_of hh
    have hk := MultiKind.code_range k
    rw [List.append_assoc, List.append_assoc] at hd
    have hf1 := len_of_drop hd (cinv_pos hi)
    have hd1 := drop_add hd
    have hhd := cppHeader_run hi (by omega) hh hd
    have hi1 : CInv blob.length (afterHdr s big d h.length) := cinv_step hi hf1
    have hsz := cppReadU32_run (s := afterHdr s big d h.length) hi1 rfl hd1 hpl
    have hf2 := len_of_drop hd1 hf1
    have hd2 := drop_add hd1
    rw [length_wkbU32] at hf2 hd2
    have hi2 : CInv blob.length { afterHdr s big d h.length with
      pos := (afterHdr s big d h.length).pos + 4, remaining := (afterHdr s big d h.length).remaining - 4 } :=
      cinv_step hi1 hf2
    simp only [Geom.height] at hf
    obtain ⟨s', gs, hq, hq1, hq2, hq3⟩ := cppGeometryL_run ps b' he' fuel _ rest hi2 hd2 (by omega)
    refine ⟨s', .mk k.code d.code srid [] gs, ?_, hq1, ?_, rfl, rfl, rfl, hq3⟩
    · rw [show cppGeometry blob (fuel + 1) = cppGeometryBody blob (cppGeometry blob fuel) from rfl, cppGeometryBody,
        M.bind_ok hhd, M.bind_ok (M.get_run _)]
      simp only []
      rw [if_neg (by omega), if_neg (by omega), if_neg (by omega), if_pos (by omega)]
      rw [M.bind_ok (cppCheck_run (by unfold CInv at hi1; simp only [afterHdr] at hi1 hf2 ⊢; omega)), M.bind_ok hsz,
        M.bind_ok hq]
      rfl
    · rw [hq2]; simp only [afterHdr, List.length_append, length_wkbU32]; omega
theorem cppGeometryL_run {blob : List Byte} : ∀ (gs : List Geom) (b : List Byte), WkbEncL gs b →
    ∀ (fuel : Nat) (s : CppP) (rest : List Byte), CInv blob.length s → blob.drop s.pos = b ++ rest → Geom.heightL gs < fuel →
    ∃ s' ts, cppRepeat (cppGeometry blob fuel) gs.length s = .ok ts s' ∧ CInv blob.length s' ∧ s'.pos = s.pos + b.length ∧
      TokensL blob gs ts
  | [], b, he, fuel, s, rest, hi, hd, hf => by
    rw [WkbEncL] at he; subst he
    exact ⟨s, [], rfl, hi, rfl, rfl⟩
  | g :: gs, b, he, fuel, s, rest, hi, hd, hf => by
    obtain ⟨b1, b2, he1, he2, rfl⟩ := he
    simp only [Geom.heightL] at hf
    rw [List.append_assoc] at hd
    obtain ⟨s1, t, h1, hi1, hp1, ht⟩ := cppGeometry_run g b1 he1 fuel s _ hi hd (by omega)
    have hd1 := drop_add hd
    rw [← hp1] at hd1
    obtain ⟨s2, ts, h2, hi2, hp2, hts⟩ := cppGeometryL_run gs b2 he2 fuel s1 rest hi1 hd1 (by omega)
    refine ⟨s2, t :: ts, ?_, hi2, by rw [hp2, hp1, List.length_append]; omega, t, ts, rfl, ht, hts⟩
    simp only [List.length_cons, cppRepeat]
    rw [M.bind_ok h1, M.bind_ok h2]
    rfl
end

end Verif
