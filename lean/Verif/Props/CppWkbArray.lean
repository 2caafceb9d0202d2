import Verif.Proof.CppWkbArray
/-!
# C51 (WKB), C58, C61: visiting WKB from C++
-/
namespace Verif
open Spec

/-! ## C51, WKB -/

/-- Parsing a valid encoding and visiting its edges with any destination coordinate type. -/
theorem C51_wkb {g : Geom} {b : List Byte} (he : WkbEnc g b) (p : CppP) (dst : Dims) :
    ∃ t, cppParse p b b.length = some ⟨0, some t, some b.length⟩ ∧ cppGeomEdges b dst.cppT t = some (g.edgesAs dst) ∧
      cppGeomVertices b dst.cppT t = some (g.verticesAs dst) := by
  obtain ⟨t, h1, h2⟩ := C16_valid he p
  exact ⟨t, h1, geomEdges_run g t h2 (enc_wf g b he), geomVertices_run g t h2 (enc_wf g b he)⟩

/-! ## C58 -/

/-- With at least five bytes, a byte order mark other than 0 and 1 is reported as such. -/
theorem C58_bad_byte_order (p : CppP) (e : Byte) (rest : List Byte) (hr : 4 ≤ rest.length) (h0 : e ≠ 0) (h1 : e ≠ 1) :
    cppParse p (e :: rest) (e :: rest).length = some ⟨INVALID_ENDIAN, none, none⟩ := by
  unfold cppParse
  have hrun : cppGeometry (e :: rest) ((e :: rest).length + 1) { p with pos := 0, remaining := (e :: rest).length } =
      .err INVALID_ENDIAN { p with pos := 0, remaining := (e :: rest).length, endian := e } := by
    rw [show cppGeometry (e :: rest) ((e :: rest).length + 1) =
      cppGeometryBody (e :: rest) (cppGeometry (e :: rest) (e :: rest).length) from rfl, cppGeometryBody]
    refine M.bind_err ?_
    unfold cppHeader
    rw [M.bind_ok (cppCheck_run (by simp; omega))]
    refine M.bind_err ?_
    unfold cppReadEndian
    simp only [List.getElem?_cons_zero]
    exact if_neg (fun h => h.elim h1 h0)
  rw [hrun]

/-- Fewer than five bytes are too few. -/
theorem C58_short (p : CppP) (b : List Byte) (hb : b.length < 5) :
    cppParse p b b.length = some ⟨TOO_FEW_BYTES, none, none⟩ := by
  unfold cppParse
  have hrun : cppGeometry b (b.length + 1) { p with pos := 0, remaining := b.length } =
      .err TOO_FEW_BYTES { p with pos := 0, remaining := b.length } := by
    rw [show cppGeometry b (b.length + 1) = cppGeometryBody b (cppGeometry b b.length) from rfl, cppGeometryBody]
    refine M.bind_err ?_
    unfold cppHeader
    refine M.bind_err ?_
    exact if_neg (by simp only []; omega)
  rw [hrun]

/-- The flag of an SRID. -/
theorem srid_flag (w : Nat) : (w &&& 0x20000000 != 0) = w.testBit 29 := by
  have h : w &&& 0x20000000 = if w.testBit 29 then 2 ^ 29 else 0 := by
    apply Nat.eq_of_testBit_eq
    intro i
    rw [show (0x20000000 : Nat) = 2 ^ 29 from rfl, Nat.testBit_and, Nat.testBit_two_pow]
    by_cases e : 29 = i
    · subst e
      cases hb : w.testBit 29
      · simp
      · rw [if_pos rfl, Nat.testBit_two_pow]; simp
    · cases hb : w.testBit 29
      · simp [e]
      · rw [if_pos rfl, Nat.testBit_two_pow]; simp [e]
  rw [h]
  cases w.testBit 29 <;> rfl

/-- The header of a type word without an SRID. -/
theorem cppHeader_word (p : CppP) (big : Bool) (w : Nat) (rest : List Byte) (hw : w < 2 ^ 32) (hf : w.testBit 29 = false) :
    cppHeader (orderMark big :: wkbU32 big w ++ rest) { p with pos := 0, remaining := 5 + rest.length } =
      .ok (0xffffffff, (cppTypeWord w).1) ⟨5, rest.length, orderMark big, cppDims (cppTypeWord w).2.1 (cppTypeWord w).2.2,
        2 + (cppTypeWord w).2.1.toNat + (cppTypeWord w).2.2.toNat⟩ := by
  have f29 : (w &&& 0x20000000 != 0) = false := by rw [srid_flag, hf]
  let blob := orderMark big :: wkbU32 big w ++ rest
  have hlen : blob.length = 5 + rest.length := by simp [blob, length_wkbU32]; omega
  let s0 : CppP := { p with pos := 0, remaining := 5 + rest.length }
  have hi : CInv blob.length s0 := by unfold CInv; simp only [s0]; omega
  have hE := cppReadEndian_run (blob := blob) (rest := wkbU32 big w ++ rest) (s := s0) (big := big) hi rfl
  have hU := cppReadU32_run (blob := blob) (rest := rest) (n := w)
    (s := ⟨1, s0.remaining - 1, orderMark big, s0.dims, s0.stride⟩) (big := big)
    (by unfold CInv; simp only [s0]; omega) rfl (by simp [blob]) hw
  show cppHeader blob s0 = _
  unfold cppHeader
  rw [M.bind_ok (cppCheck_run (by simp only [s0]; omega)), M.bind_ok hE]
  refine (M.bind_ok hU).trans ?_
  simp only [f29, Bool.false_eq_true, if_false]
  rw [M.bind_ok (M.pure_run _ _), M.bind_ok (M.modify_run _ _)]
  simp only [M.pure_run, s0]
  congr 2
  omega

/-- The header of a type word without flag bits. -/
theorem cppHeader_plain (p : CppP) (big : Bool) (w : Nat) (rest : List Byte) (hw : w < 2 ^ 24) :
    cppHeader (orderMark big :: wkbU32 big w ++ rest) { p with pos := 0, remaining := 5 + rest.length } =
      .ok (0xffffffff, (cppTypeWord w).1) ⟨5, rest.length, orderMark big, cppDims (cppTypeWord w).2.1 (cppTypeWord w).2.2,
        2 + (cppTypeWord w).2.1.toNat + (cppTypeWord w).2.2.toNat⟩ :=
  cppHeader_word p big w rest (by omega) (Nat.testBit_lt_two_pow (Nat.lt_of_lt_of_le hw (Nat.pow_le_pow_right (by decide) (by decide))))

theorem cppTypeWord_type (w : Nat) : (cppTypeWord w).1 = w % 2 ^ 24 % 1000 := by
  have hg : w &&& 0x00ffffff = w % 2 ^ 24 := Nat.and_two_pow_sub_one_eq_mod w 24
  unfold cppTypeWord
  simp only [hg]
  split
  · rfl
  split
  · rfl
  split <;> rfl

/-- A type word without SRID flag whose lower 24 bits end with three decimal digits that are not 1 to 7 is reported as an
invalid type, whatever the other flags.
Missing: other words that are not ISO or EWKB type codes are accepted (`C58_undefined_thousands_accepted`,
`C58_unknown_flags_accepted`). -/
theorem C58_bad_type_partial (p : CppP) (big : Bool) (w : Nat) (rest : List Byte) (hw : w < 2 ^ 32) (hf : w.testBit 29 = false)
    (h : w % 2 ^ 24 % 1000 = 0 ∨ 7 < w % 2 ^ 24 % 1000) :
    cppParse p (orderMark big :: wkbU32 big w ++ rest) (5 + rest.length) = some ⟨INVALID_GEOMETRY_TYPE, none, none⟩ := by
  have hH := cppHeader_word p big w rest hw hf
  rw [cppTypeWord_type] at hH
  unfold cppParse
  rw [show ∀ b, cppGeometry b (5 + rest.length + 1) = cppGeometryBody b (cppGeometry b (5 + rest.length)) from fun _ => rfl,
    cppGeometryBody, M.bind_ok hH, M.bind_ok (M.get_run _)]
  simp only []
  rw [if_neg (by omega), if_neg (by omega), if_neg (by omega), if_neg (by omega)]
  rfl

/-- The same with the SRID flag and an SRID. -/
theorem C58_bad_type_srid_partial (p : CppP) (big : Bool) (w srid : Nat) (rest : List Byte) (hw : w < 2 ^ 32) (hf : w.testBit 29 = true)
    (hsr : srid < 2 ^ 32) (h : w % 2 ^ 24 % 1000 = 0 ∨ 7 < w % 2 ^ 24 % 1000) :
    cppParse p (orderMark big :: wkbU32 big w ++ (wkbU32 big srid ++ rest)) (9 + rest.length) = some ⟨INVALID_GEOMETRY_TYPE, none, none⟩ := by
  have f29 : (w &&& 0x20000000 != 0) = true := by rw [srid_flag, hf]
  have hH : cppHeader (orderMark big :: wkbU32 big w ++ (wkbU32 big srid ++ rest)) { p with pos := 0, remaining := 9 + rest.length } =
      .ok (srid, (cppTypeWord w).1) ⟨9, rest.length, orderMark big, cppDims (cppTypeWord w).2.1 (cppTypeWord w).2.2,
        2 + (cppTypeWord w).2.1.toNat + (cppTypeWord w).2.2.toNat⟩ := by
    let blob := orderMark big :: wkbU32 big w ++ (wkbU32 big srid ++ rest)
    have hlen : blob.length = 9 + rest.length := by simp [blob, length_wkbU32]; omega
    let s0 : CppP := { p with pos := 0, remaining := 9 + rest.length }
    have hi : CInv blob.length s0 := by unfold CInv; simp only [s0]; omega
    have hE := cppReadEndian_run (blob := blob) (rest := wkbU32 big w ++ (wkbU32 big srid ++ rest)) (s := s0) (big := big) hi rfl
    have hU := cppReadU32_run (blob := blob) (rest := wkbU32 big srid ++ rest) (n := w)
      (s := ⟨1, s0.remaining - 1, orderMark big, s0.dims, s0.stride⟩) (big := big)
      (by unfold CInv; simp only [s0]; omega) rfl (by simp [blob]) hw
    have hS := cppReadU32_run (blob := blob) (rest := rest) (n := srid)
      (s := ⟨5, s0.remaining - 1 - 4, orderMark big, s0.dims, s0.stride⟩) (big := big)
      (by unfold CInv; simp only [s0]; omega) rfl (by
        simp only [blob]
        rw [show orderMark big :: wkbU32 big w ++ (wkbU32 big srid ++ rest) = (orderMark big :: wkbU32 big w) ++ (wkbU32 big srid ++ rest) from rfl,
          List.drop_left' (by simp [length_wkbU32])]) hsr
    show cppHeader blob s0 = _
    unfold cppHeader
    rw [M.bind_ok (cppCheck_run (by simp only [s0]; omega)), M.bind_ok hE]
    refine (M.bind_ok hU).trans ?_
    simp only [f29, if_true]
    have hSr := (M.bind_ok (f := fun _ => cppReadU32 blob) (cppCheck_run (n := 4) (s := ⟨5, s0.remaining - 1 - 4, orderMark big, s0.dims, s0.stride⟩)
      (by simp only [s0]; omega))).trans hS
    refine (M.bind_ok hSr).trans ?_
    rw [M.bind_ok (M.modify_run _ _)]
    simp only [M.pure_run, s0]
    congr 2
    omega
  rw [cppTypeWord_type] at hH
  unfold cppParse
  rw [show ∀ b, cppGeometry b (9 + rest.length + 1) = cppGeometryBody b (cppGeometry b (9 + rest.length)) from fun _ => rfl,
    cppGeometryBody, M.bind_ok hH, M.bind_ok (M.get_run _)]
  simp only []
  rw [if_neg (by omega), if_neg (by omega), if_neg (by omega), if_neg (by omega)]
  rfl

/-- With the SRID flag and less than four bytes for it there are too few bytes, whatever the type. -/
theorem C58_short_srid (p : CppP) (big : Bool) (w : Nat) (rest : List Byte) (hw : w < 2 ^ 32) (hf : w.testBit 29 = true) (hr : rest.length < 4) :
    cppParse p (orderMark big :: wkbU32 big w ++ rest) (5 + rest.length) = some ⟨TOO_FEW_BYTES, none, none⟩ := by
  have f29 : (w &&& 0x20000000 != 0) = true := by rw [srid_flag, hf]
  have hH : ∃ s, cppHeader (orderMark big :: wkbU32 big w ++ rest) { p with pos := 0, remaining := 5 + rest.length } = .err TOO_FEW_BYTES s := by
    let blob := orderMark big :: wkbU32 big w ++ rest
    have hlen : blob.length = 5 + rest.length := by simp [blob, length_wkbU32]; omega
    let s0 : CppP := { p with pos := 0, remaining := 5 + rest.length }
    have hi : CInv blob.length s0 := by unfold CInv; simp only [s0]; omega
    have hE := cppReadEndian_run (blob := blob) (rest := wkbU32 big w ++ rest) (s := s0) (big := big) hi rfl
    have hU := cppReadU32_run (blob := blob) (rest := rest) (n := w)
      (s := ⟨1, s0.remaining - 1, orderMark big, s0.dims, s0.stride⟩) (big := big)
      (by unfold CInv; simp only [s0]; omega) rfl (by simp [blob]) hw
    refine ⟨⟨5, s0.remaining - 1 - 4, orderMark big, s0.dims, s0.stride⟩, ?_⟩
    show cppHeader blob s0 = _
    unfold cppHeader
    rw [M.bind_ok (cppCheck_run (by simp only [s0]; omega)), M.bind_ok hE]
    refine (M.bind_ok hU).trans ?_
    simp only [f29, if_true]
    refine M.bind_err (M.bind_err ?_)
    exact if_neg (by simp only [s0]; omega)
  obtain ⟨s, hH⟩ := hH
  unfold cppParse
  rw [show ∀ b, cppGeometry b (5 + rest.length + 1) = cppGeometryBody b (cppGeometry b (5 + rest.length)) from fun _ => rfl,
    cppGeometryBody, M.bind_err hH]

/-- Of a header alone, one of the two errors is reported for every type word, and exactly as above: an invalid type if there is no
SRID to come and the lower 24 bits do not end with three digits from 1 to 7, else too few bytes. -/
theorem C58_header_alone (p : CppP) (big : Bool) (w : Nat) (hw : w < 2 ^ 32) :
    cppParse p (orderMark big :: wkbU32 big w) 5 =
      some ⟨if w.testBit 29 = false ∧ (w % 2 ^ 24 % 1000 = 0 ∨ 7 < w % 2 ^ 24 % 1000) then INVALID_GEOMETRY_TYPE else TOO_FEW_BYTES, none, none⟩ := by
  by_cases hf : w.testBit 29 = false
  · by_cases h : w % 2 ^ 24 % 1000 = 0 ∨ 7 < w % 2 ^ 24 % 1000
    · rw [if_pos ⟨hf, h⟩]
      simpa using C58_bad_type_partial p big w [] hw hf h
    · rw [if_neg (fun x => h x.2)]
      have hH := cppHeader_word p big w [] hw hf
      rw [cppTypeWord_type, List.append_nil] at hH
      simp only [List.length_nil, Nat.add_zero] at hH
      unfold cppParse
      rw [show ∀ b, cppGeometry b (5 + 1) = cppGeometryBody b (cppGeometry b 5) from fun _ => rfl,
        cppGeometryBody, M.bind_ok hH, M.bind_ok (M.get_run _)]
      have short : ∀ {n : Nat} {s : CppP}, s.remaining < n → cppCheck n s = .err TOO_FEW_BYTES s := fun h => if_neg (by omega)
      simp only []
      by_cases e1 : w % 2 ^ 24 % 1000 = 1
      · rw [if_pos e1]
        have : ∀ s : CppP, s.remaining = 0 → 2 ≤ s.stride → s.stride ≤ 4 → cppParsePoint s = .err TOO_FEW_BYTES s := by
          intro s h0 h2 h4
          unfold cppParsePoint
          rw [M.bind_ok (M.get_run _)]
          refine M.bind_err (short ?_)
          unfold u32
          rw [Nat.mod_eq_of_lt (by omega)]
          omega
        rw [M.bind_err (this _ rfl (by simp only []; omega) (by
          simp only []
          cases (cppTypeWord w).2.1 <;> cases (cppTypeWord w).2.2 <;> decide))]
      rw [if_neg e1]
      by_cases e2 : w % 2 ^ 24 % 1000 = 2
      · rw [if_pos e2]
        have : ∀ (b : List Byte) (s : CppP), s.remaining = 0 → cppParseSequence b s = .err TOO_FEW_BYTES s := by
          intro b s h0
          unfold cppParseSequence
          exact M.bind_err (short (by omega))
        rw [M.bind_err (this _ _ rfl)]
      rw [if_neg e2]
      by_cases e3 : w % 2 ^ 24 % 1000 = 3
      · rw [if_pos e3]
        rw [M.bind_err (short (by simp))]
      rw [if_neg e3, if_pos (by omega), M.bind_err (short (by simp))]
  · rw [if_neg (fun x => hf x.1)]
    simpa using C58_short_srid p big w [] hw (by simpa using hf) (by decide)

/-- Words the three theorems are about: the code 8 with Z and SRID flags, and the code of a polyhedral surface with Z flag. -/
example : (0xa0000008 : Nat).testBit 29 = true ∧ 7 < 0xa0000008 % 2 ^ 24 % 1000 := by decide
example : (0x8000000f : Nat).testBit 29 = false ∧ 7 < 0x8000000f % 2 ^ 24 % 1000 := by decide

/-- A flag bit that neither ISO nor EWKB knows is ignored: with it, the code of a point is taken for an XY point. -/
theorem C58_unknown_flags_accepted (p : CppP) (x y : Dbl) :
    cppParse p (orderMark false :: wkbU32 false 0x01000001 ++ (x.bytes ++ y.bytes)) 21 =
      some ⟨0, some (.mk 1 1 0xffffffff [⟨5, 1, 2, 1, 1⟩] []), some 21⟩ := by
  have hl : (x.bytes ++ y.bytes).length = 16 := by simp [Dbl.bytes]
  have hH := cppHeader_word p false 0x01000001 (x.bytes ++ y.bytes) (by decide) (by decide)
  rw [hl] at hH
  unfold cppParse
  rw [show ∀ b, cppGeometry b (21 + 1) = cppGeometryBody b (cppGeometry b 21) from fun _ => rfl,
    cppGeometryBody, M.bind_ok hH, M.bind_ok (M.get_run _)]
  rfl

/-- The code 4001 means nothing in ISO or EWKB, but is taken for an XY point. -/
theorem C58_undefined_thousands_accepted (p : CppP) (x y : Dbl) :
    cppParse p (orderMark false :: wkbU32 false 4001 ++ (x.bytes ++ y.bytes)) 21 =
      some ⟨0, some (.mk 1 1 0xffffffff [⟨5, 1, 2, 1, 1⟩] []), some 21⟩ := by
  have hl : (x.bytes ++ y.bytes).length = 16 := by simp [Dbl.bytes]
  have hH := cppHeader_plain p false 4001 (x.bytes ++ y.bytes) (by decide)
  rw [hl] at hH
  unfold cppParse
  rw [show ∀ b, cppGeometry b (21 + 1) = cppGeometryBody b (cppGeometry b 21) from fun _ => rfl,
    cppGeometryBody, M.bind_ok hH, M.bind_ok (M.get_run _)]
  rfl

example (p : CppP) : cppParse p [2, 1, 0, 0, 0] 5 = some ⟨INVALID_ENDIAN, none, none⟩ :=
  C58_bad_byte_order p 2 [1, 0, 0, 0] (by decide) (by decide) (by decide)
example (p : CppP) : cppParse p (orderMark true :: wkbU32 true 3017 ++ [7]) 6 = some ⟨INVALID_GEOMETRY_TYPE, none, none⟩ :=
  C58_bad_type_partial p true 3017 [7] (by decide) (by decide) (by decide)

/-! ## C61 -/

/-- Visiting the vertices of a WKB array whose elements are null or valid encodings shorter than 2^32 bytes: the vertices
of the non-null elements in order, converted to the destination coordinate type; nothing is thrown. -/
theorem C61_vertices {a : CppBlobs} {els : List (Option (List Byte))} {gs : List (Option Geom)} (ha : Blobs a els)
    (he : EncodedAs els gs) (ps : Int → CppP) (dst : Dims) :
    cppBlobVertices a ps dst.cppT = some ⟨(gs.filterMap id).flatMap (Geom.verticesAs dst), none⟩ := by
  obtain ⟨h1, h2, h3⟩ := ha
  unfold cppBlobVertices
  rw [if_neg (by omega), h1, Int.toNat_natCast]
  exact blobLoop_run (fun b g t h hw => geomVertices_run g t h hw) h2 els gs 0
    (fun j hj => by rw [Nat.zero_add]; exact h3 j hj) he

/-- The same for edges. -/
theorem C61_edges {a : CppBlobs} {els : List (Option (List Byte))} {gs : List (Option Geom)} (ha : Blobs a els)
    (he : EncodedAs els gs) (ps : Int → CppP) (dst : Dims) :
    cppBlobEdges a ps dst.cppT = some ⟨(gs.filterMap id).flatMap (Geom.edgesAs dst), none⟩ := by
  obtain ⟨h1, h2, h3⟩ := ha
  unfold cppBlobEdges
  rw [if_neg (by omega), h1, Int.toNat_natCast]
  exact blobLoop_run (fun b g t h hw => geomEdges_run g t h hw) h2 els gs 0
    (fun j hj => by rw [Nat.zero_add]; exact h3 j hj) he

/-- If an element is a truncated or over-long encoding, everything before it is visited and the exception names it. -/
theorem C61_bad_element {a : CppBlobs} {els els' : List (Option (List Byte))} {gs : List (Option Geom)} {bad : List Byte}
    {rc : Code} (ha : Blobs a (els ++ some bad :: els')) (he : EncodedAs els gs) (hrc : rc ≠ 0)
    (hbad : ∀ p, ∃ o, cppParseView p bad = some o ∧ o.status = rc) (ps : Int → CppP) (dst : Dims) :
    cppBlobVertices a ps dst.cppT =
      some ⟨(gs.filterMap id).flatMap (Geom.verticesAs dst), some ((els.length : Int), rc)⟩ := by
  obtain ⟨h1, h2, h3⟩ := ha
  unfold cppBlobVertices
  rw [if_neg (by omega), h1, Int.toNat_natCast, List.length_append, List.length_cons]
  have := blobLoop_throw (ps := ps) (rest := els'.length) (rc := rc) (bad := bad)
    (fun b g t h hw => geomVertices_run (dst := dst) g t h hw) h2 hrc els gs 0
    (fun j hj => by
      have := h3 j (by simp; omega)
      rw [List.getElem_append_left hj] at this
      rw [Nat.zero_add]; exact this) he
    (by
      have := h3 els.length (by simp)
      rw [List.getElem_append_right (Nat.le_refl _)] at this
      simpa using this) hbad
  rw [Nat.zero_add] at this
  exact this

/-- Slicing a WKB array selects the elements. -/
theorem C61_slice {a : CppBlobs} {els : List (Option (List Byte))} (ha : Blobs a els) {o k : Nat}
    (hk : o + k ≤ els.length) : Blobs { a with offset := a.offset + o, length := k } ((els.drop o).take k) := by
  obtain ⟨h1, h2, h3⟩ := ha
  refine ⟨by simp; omega, by simp only []; omega, ?_⟩
  intro i hi
  simp only [List.length_take, List.length_drop] at hi
  have := h3 (o + i) (by omega)
  rw [List.getElem_take, List.getElem_drop]
  have e : (a.offset + (o : Int)).toNat + i = a.offset.toNat + (o + i) := by omega
  cases hel : els[o + i] with
  | none =>
    rw [hel] at this
    simp only [BlobAt, e] at this ⊢
    exact this
  | some b =>
    rw [hel] at this
    simp only [BlobAt, e] at this ⊢
    exact this

/-- Three elements from offset 1: an XYZ multipoint, null, the multipoint again. -/
def exBlobs : CppBlobs := ⟨1, 3, [5, 0, 63, 63, 126], exBlob ++ exBlob, some [0b1010#8]⟩
def exBlobEls : List (Option (List Byte)) := [some exBlob, none, some exBlob]
theorem exBlobs_hold : Blobs exBlobs exBlobEls := by
  refine ⟨rfl, by decide, ?_⟩
  intro i hi
  match i, hi with
  | 0, _ => exact ⟨fun bits h => by cases h; rfl, 0, 63, rfl, rfl, by decide, by decide +kernel, by decide +kernel⟩
  | 1, _ => exact ⟨_, rfl, rfl⟩
  | 2, _ => exact ⟨fun bits h => by cases h; rfl, 63, 126, rfl, rfl, by decide, by decide +kernel, by decide +kernel⟩
theorem exBlobs_enc : EncodedAs exBlobEls [some exBlobGeom, none, some exBlobGeom] :=
  ⟨_, _, rfl, exBlob_enc, by decide, _, rfl, _, _, rfl, exBlob_enc, by decide, rfl⟩
example (ps : Int → CppP) : cppBlobEdges exBlobs ps Dims.xy.cppT =
    some ⟨exBlobGeom.edgesAs .xy ++ exBlobGeom.edgesAs .xy, none⟩ := by
  have := C61_edges exBlobs_hold exBlobs_enc ps .xy
  simpa using this
example (p : CppP) : ∃ o, cppParseView p (exBlob.take 40) = some o ∧ o.status = TOO_FEW_BYTES :=
  ⟨_, C16_too_few (b := exBlob.take 40) (c := exBlob.drop 40) (by rw [List.take_append_drop]; exact exBlob_enc) (by decide) p,
    rfl⟩

end Verif
