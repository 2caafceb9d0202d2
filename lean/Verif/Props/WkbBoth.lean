import Verif.Spec.WkbBoth
import Verif.Props.WkbReader
import Verif.Props.WkbParser
import Verif.Props.CppWkbArray
import Verif.Proof.WkbAny
/-!
# C85: the C reader and the C++ parser agree on well-known binary
-/
namespace Verif
open Spec

/-- Every valid encoding, in any mixture of byte orders, ISO and EWKB headers and SRIDs, is the same geometry for both.

Partial: below 2^35 bytes and at most 255 levels (C12); for other bytes the two need not agree (below). -/
theorem C85_valid_partial {g : Geom} {b : List Byte} (he : WkbEnc g b) (hh : g.height ≤ 255) (hb : b.length < 2 ^ 35) (r : WkbR) (p : CppP) :
    (∃ v s', wkbRead b r = .ok v s' ∧ ViewDenotes (wkbMem b) v g) ∧ ∃ t, cppParse p b b.length = some ⟨0, some t, some b.length⟩ ∧ Tokens b g t := by
  have h := (C12_read_valid_partial (rest := []) he hh (by simpa using hb) r).1
  rw [List.append_nil] at h
  exact ⟨h, C16_valid he p⟩

example (r : WkbR) (p : CppP) : (∃ v s', wkbRead exBlob r = .ok v s' ∧ ViewDenotes (wkbMem exBlob) v exBlobGeom) ∧
    ∃ t, cppParse p exBlob exBlob.length = some ⟨0, some t, some exBlob.length⟩ ∧ Tokens exBlob exBlobGeom t :=
  C85_valid_partial exBlob_enc (by decide) (by decide) r p

/-- Of bytes behind a valid encoding both make the same geometry as without them, but only the C++ parser reports them. -/
theorem C85_trailing {g : Geom} {b c : List Byte} (he : WkbEnc g b) (hh : g.height ≤ 255) (hb : (b ++ c).length < 2 ^ 35) (hc : c ≠ []) (r : WkbR) (p : CppP) :
    (∃ v s', wkbRead (b ++ c) r = .ok v s' ∧ ViewDenotes (wkbMem (b ++ c)) v g) ∧
    ∃ t, cppParse p (b ++ c) (b ++ c).length = some ⟨TOO_MANY_BYTES, some t, some b.length⟩ ∧ Tokens (b ++ c) g t :=
  ⟨(C12_read_valid_partial he hh hb r).1, C16_too_many he hc p⟩

theorem wkbTypeWord_type (w : Nat) : (1 ≤ (wkbTypeWord w).1 ∧ (wkbTypeWord w).1 ≤ 7) → IsoCode (w % 2 ^ 16) := by
  have hg : w &&& 0x0000ffff = w % 2 ^ 16 := Nat.and_two_pow_sub_one_eq_mod w 16
  unfold wkbTypeWord
  simp only [hg]
  split
  · rintro ⟨h1, h2⟩
    exact ⟨3, w % 2 ^ 16 - 3000, by omega, h1, h2, by omega⟩
  split
  · rintro ⟨h1, h2⟩
    exact ⟨2, w % 2 ^ 16 - 2000, by omega, h1, h2, by omega⟩
  split
  · rintro ⟨h1, h2⟩
    exact ⟨1, w % 2 ^ 16 - 1000, by omega, h1, h2, by omega⟩
  · rintro ⟨h1, h2⟩
    exact ⟨0, w % 2 ^ 16, by omega, h1, h2, by omega⟩

/-- The C reader refuses every input whose type word does not have a type code in its lower 16 bits: EINVAL, whatever the flags and
whatever follows. (Any byte but 1 in front means big-endian to it.) -/
theorem C85_type_refused (r : WkbR) (e : Byte) (w : Nat) (hw : w < 2 ^ 32) (rest : List Byte) (h : ¬ IsoCode (w % 2 ^ 16)) :
    ∃ s', wkbRead (e :: wkbU32 (e != 1) w ++ rest) r = .err EINVAL s' := by
  let blob := e :: wkbU32 (e != 1) w ++ rest
  have hlen : blob.length = 5 + rest.length := by simp [blob, length_wkbU32]; omega
  let s0 : WkbR := { r with pos := 0, left := blob.length, nodes := [] }
  let s1 : WkbR := { s0 with swap := e != 1, pos := 1, left := blob.length - 1 }
  have hE : wkbReadEndian blob s0 = .ok () s1 := by
    unfold wkbReadEndian
    rw [if_pos (by simp only [s0]; omega)]
    rfl
  have hU : wkbReadU32 blob s1 = .ok w { s1 with pos := s1.pos + 4, left := s1.left - 4 } :=
    readU32_spec (rest := rest) ⟨by simp only [s1]; omega, by simp only [s1]; omega⟩ rfl hw
  have hx : Exact blob { s1 with pos := s1.pos + 4, left := s1.left - 4 } := by unfold Exact; simp only [s1]; omega
  have hH : (∃ s2, wkbReadHeader blob s0 = .ok (wkbTypeWord w) s2 ∧ Exact blob s2) ∨ ∃ s2, wkbReadHeader blob s0 = .err EINVAL s2 := by
    unfold wkbReadHeader
    rw [M.bind_ok hE, M.bind_ok hU]
    split
    · rcases readU32_safe hx with ⟨v, s2, e2, x2, _⟩ | ⟨s2, e2⟩
      · exact Or.inl ⟨s2, M.bind_ok e2, x2⟩
      · exact Or.inr ⟨s2, M.bind_err e2⟩
    · exact Or.inl ⟨_, M.bind_ok (M.pure_run _ _), hx⟩
  have ht : ¬ (1 ≤ (wkbTypeWord w).1 ∧ (wkbTypeWord w).1 ≤ 7) := fun x => h (wkbTypeWord_type w x)
  have hB : ∃ s3, wkbReadNode blob 255 0 s0 = .err EINVAL s3 := by
    show ∃ s3, wkbNodeBody blob 0 (some (wkbReadNode blob 254 1)) s0 = .err EINVAL s3
    unfold wkbNodeBody
    rcases hH with ⟨s2, e2, x2⟩ | ⟨s2, e2⟩
    · rw [M.bind_ok e2, if_pos (by omega)]
      rcases readU32_safe x2 with ⟨v, s3, e3, x3, _⟩ | ⟨s3, e3⟩
      · rw [M.bind_ok e3, M.bind_ok (M.get_run _)]
        simp only []
        rw [if_neg (by omega), if_neg (by omega), if_neg (by omega)]
        exact ⟨s3, rfl⟩
      · exact ⟨s3, M.bind_err e3⟩
    · exact ⟨s2, M.bind_err e2⟩
  obtain ⟨s3, hB⟩ := hB
  refine ⟨s3, ?_⟩
  show wkbRead blob r = _
  unfold wkbRead
  rw [M.bind_ok (M.modify_run _ _)]
  exact M.bind_err hB

example : ¬ IsoCode (0xa0000008 % 2 ^ 16) := by rintro ⟨k, t, h⟩; omega
example : IsoCode 3007 := ⟨3, 7, by decide⟩

theorem wkbU32_any (big : Bool) {bs : List Byte} (h : bs.length = 4) : ∃ n, n < 2 ^ 32 ∧ wkbU32 big n = bs := by
  refine ⟨leVal (inOrder big bs), ?_, ?_⟩
  · have := leVal_lt (inOrder big bs)
    have hl : (inOrder big bs).length = 4 := by unfold inOrder; split <;> simp [h]
    rw [hl] at this
    exact this
  · have := leBytes_leVal (inOrder big bs)
    have hl : (inOrder big bs).length = 4 := by unfold inOrder; split <;> simp [h]
    rw [hl] at this
    unfold wkbU32
    rw [this]
    unfold inOrder
    cases big <;> simp

/-- Words whose last three digits are no type, and whose bits 16 to 23 are clear, are refused by both, whatever the flags and whatever
follows. -/
theorem C85_refused_by_both (r : WkbR) (p : CppP) (big : Bool) (w : Nat) (hw : w < 2 ^ 32) (h0 : w % 2 ^ 24 < 2 ^ 16)
    (h : w % 2 ^ 16 % 1000 = 0 ∨ 7 < w % 2 ^ 16 % 1000) (rest : List Byte) :
    (∃ s', wkbRead (orderMark big :: wkbU32 big w ++ rest) r = .err EINVAL s') ∧
    ∃ rc, (rc = INVALID_GEOMETRY_TYPE ∨ rc = TOO_FEW_BYTES ∧ rest.length < 4) ∧
      cppParse p (orderMark big :: wkbU32 big w ++ rest) (5 + rest.length) = some ⟨rc, none, none⟩ := by
  have hbig : (orderMark big != 1) = big := by cases big <;> rfl
  have e : w % 2 ^ 24 = w % 2 ^ 16 := by omega
  refine ⟨?_, ?_⟩
  · have := C85_type_refused r (orderMark big) w hw rest (by rintro ⟨k, t, h1, h2, h3, h4⟩; omega)
    rw [hbig] at this
    exact this
  · cases hf : w.testBit 29 with
    | false => exact ⟨_, Or.inl rfl, C58_bad_type_partial p big w rest hw hf (by rw [e]; exact h)⟩
    | true =>
      by_cases hr : rest.length < 4
      · exact ⟨_, Or.inr ⟨rfl, hr⟩, C58_short_srid p big w rest hw hf hr⟩
      · obtain ⟨srid, h1, h2⟩ := wkbU32_any big (bs := rest.take 4) (by rw [List.length_take]; omega)
        have := C58_bad_type_srid_partial p big w srid (rest.drop 4) hw hf h1 (by rw [e]; exact h)
        rw [h2, List.take_append_drop, List.length_drop, show 9 + (rest.length - 4) = 5 + rest.length from by omega] at this
        exact ⟨_, Or.inl rfl, this⟩

example : 0xa0000008 % 2 ^ 24 < 2 ^ 16 ∧ 7 < 0xa0000008 % 2 ^ 16 % 1000 := by decide

theorem flag_bit (w i : Nat) : (w &&& 2 ^ i != 0) = w.testBit i := by
  have h : w &&& 2 ^ i = if w.testBit i then 2 ^ i else 0 := by
    apply Nat.eq_of_testBit_eq
    intro j
    rw [Nat.testBit_and, Nat.testBit_two_pow]
    by_cases e : i = j
    · subst e
      cases hb : w.testBit i
      · simp
      · rw [if_pos rfl, Nat.testBit_two_pow]; simp
    · cases hb : w.testBit i
      · simp [e]
      · rw [if_pos rfl, Nat.testBit_two_pow]; simp [e]
  rw [h]
  have h2 := Nat.two_pow_pos i
  cases w.testBit i
  · rfl
  · simp only [if_true]
    rw [bne_iff_ne]
    omega

theorem wkbTypeWord_code {w : Nat} (h : IsoCode (w % 2 ^ 16)) : wkbTypeWord w = (w % 2 ^ 16 % 1000, WordHasZ w, WordHasM w) := by
  have hg : w &&& 0x0000ffff = w % 2 ^ 16 := Nat.and_two_pow_sub_one_eq_mod w 16
  have hz : (w &&& 0x80000000 != 0) = w.testBit 31 := flag_bit w 31
  have hm : (w &&& 0x40000000 != 0) = w.testBit 30 := flag_bit w 30
  obtain ⟨k, t, h1, h2, h3, h4⟩ := h
  unfold wkbTypeWord WordHasZ WordHasM
  simp only [hg, hz, hm, h4]
  have e1 : (1000 * k + t) / 1000 = k := by omega
  have e2 : (1000 * k + t) % 1000 = t := by omega
  rw [e1, e2]
  have hk : k = 0 ∨ k = 1 ∨ k = 2 ∨ k = 3 := by omega
  rcases hk with rfl | rfl | rfl | rfl
  · rw [if_neg (by omega), if_neg (by omega), if_neg (by omega)]; simp
  · rw [if_neg (by omega), if_neg (by omega), if_pos (by omega)]; simp
  · rw [if_neg (by omega), if_pos (by omega)]; simp
  · rw [if_pos (by omega)]; simp

theorem cppTypeWord_code {w : Nat} (h : IsoCode (w % 2 ^ 16)) (h0 : w % 2 ^ 24 < 2 ^ 16) :
    cppTypeWord w = (w % 2 ^ 16 % 1000, WordHasZ w, WordHasM w) := by
  have hg : w &&& 0x00ffffff = w % 2 ^ 24 := Nat.and_two_pow_sub_one_eq_mod w 24
  have e : w % 2 ^ 24 = w % 2 ^ 16 := by omega
  have hz : (w &&& 0x80000000 != 0) = w.testBit 31 := flag_bit w 31
  have hm : (w &&& 0x40000000 != 0) = w.testBit 30 := flag_bit w 30
  obtain ⟨k, t, h1, h2, h3, h4⟩ := h
  unfold cppTypeWord WordHasZ WordHasM
  simp only [hg, e, hz, hm, h4]
  have e1 : (1000 * k + t) / 1000 = k := by omega
  have e2 : (1000 * k + t) % 1000 = t := by omega
  rw [e1, e2]
  have hk : k = 0 ∨ k = 1 ∨ k = 2 ∨ k = 3 := by omega
  rcases hk with rfl | rfl | rfl | rfl <;> simp

theorem wordDims_code (w : Nat) : wkbDims (WordHasZ w) (WordHasM w) = (wordDims w).code ∧ cppDims (WordHasZ w) (WordHasM w) = (wordDims w).code := by
  unfold wordDims
  cases WordHasZ w <;> cases WordHasM w <;> exact ⟨rfl, rfl⟩

/-- Both take a type word with a known code the same way, also if EWKB flags and thousands digits are mixed (as some programs do):
shown by what they make of a geometry without parts. Partial: without SRID, and bits 16 to 23 clear (`C85_differ`). -/
theorem C85_words_partial (r : WkbR) (p : CppP) (big : Bool) (w : Nat) (hw : w < 2 ^ 32) (hf : w.testBit 29 = false) (h0 : w % 2 ^ 24 < 2 ^ 16)
    (h : IsoCode (w % 2 ^ 16)) (ht : w % 2 ^ 16 % 1000 ≠ 1) :
    (∃ v s', wkbRead (orderMark big :: wkbU32 big w ++ wkbU32 big 0) r = .ok v s' ∧
      v.nodes.map (fun n => (n.gt, n.dims, n.size)) = [(w % 2 ^ 16 % 1000, (wordDims w).code, 0)]) ∧
    ∃ qs, cppParse p (orderMark big :: wkbU32 big w ++ wkbU32 big 0) 9 =
      some ⟨0, some (.mk (w % 2 ^ 16 % 1000) (wordDims w).code 0xffffffff qs []), some 9⟩ := by
  have hr : 1 ≤ w % 2 ^ 16 % 1000 ∧ w % 2 ^ 16 % 1000 ≤ 7 := by obtain ⟨k, t, h1, h2, h3, h4⟩ := h; omega
  have f29 : (w &&& 0x20000000 != 0) = false := by rw [srid_flag, hf]
  have hc := wkbTypeWord_code h
  have hp := cppTypeWord_code h h0
  obtain ⟨d1, d2⟩ := wordDims_code w
  generalize w % 2 ^ 16 % 1000 = t at *
  constructor
  · let blob := orderMark big :: wkbU32 big w ++ wkbU32 big 0
    have hlen : blob.length = 9 := by simp [blob, length_wkbU32]
    have hbig : (orderMark big != 1) = big := by cases big <;> rfl
    let s0 : WkbR := { r with pos := 0, left := 9, nodes := [] }
    let s1 : WkbR := ⟨1, 8, big, []⟩
    have hE : wkbReadEndian blob s0 = .ok () s1 := by
      unfold wkbReadEndian
      rw [if_pos (by simp only [s0]; omega)]
      show Res.ok () (⟨1, 8, orderMark big != 1, []⟩ : WkbR) = _
      rw [hbig]
    have hU : wkbReadU32 blob s1 = .ok w ⟨5, 4, big, []⟩ :=
      readU32_spec (rest := wkbU32 big 0) ⟨by simp only [s1]; omega, by simp only [s1]; omega⟩ rfl hw
    have hS : wkbReadU32 blob ⟨5, 4, big, []⟩ = .ok 0 ⟨9, 0, big, []⟩ :=
      readU32_spec (rest := []) ⟨by simp only []; omega, by simp only []; omega⟩ (by
        show List.drop 5 ((orderMark big :: wkbU32 big w) ++ wkbU32 big 0) = _
        rw [List.drop_left' (by simp [length_wkbU32]), List.append_nil]) (by decide)
    have hH : wkbReadHeader blob s0 = .ok (t, WordHasZ w, WordHasM w) ⟨5, 4, big, []⟩ := by
      unfold wkbReadHeader
      rw [M.bind_ok hE, M.bind_ok hU]
      simp only [f29, Bool.false_eq_true, if_false]
      rw [M.bind_ok (M.pure_run _ _), hc]
      rfl
    let node : Node := { blankNode with gt := t % 256, dims := wkbDims (WordHasZ w) (WordHasM w), size := 0, swap := big, level := 0 }
    have hB : wkbReadNode blob 255 0 s0 = .ok () ⟨9, 0, big, [node]⟩ := by
      show wkbNodeBody blob 0 (some (wkbReadNode blob 254 1)) s0 = _
      unfold wkbNodeBody
      rw [M.bind_ok hH, if_pos ht, M.bind_ok hS, M.bind_ok (M.get_run _)]
      simp only []
      by_cases e2 : t = 2
      · rw [if_pos (Or.inr e2)]
        have : ∀ c n, wkbReadCoords 0 c n ⟨9, 0, big, []⟩ = .ok n ⟨9, 0, big, []⟩ := by
          intro c n
          unfold wkbReadCoords
          simp [u32]
        rw [M.bind_ok (this _ _)]
        rfl
      · rw [if_neg (by omega)]
        by_cases e3 : t = 3
        · rw [if_pos e3]; rfl
        · rw [if_neg e3, if_pos (by omega)]; rfl
    refine ⟨⟨[node]⟩, ⟨9, 0, big, [node]⟩, ?_, ?_⟩
    · show wkbRead blob r = _
      unfold wkbRead
      rw [M.bind_ok (M.modify_run _ _), hlen]
      exact (M.bind_ok hB).trans rfl
    · simp only [List.map_cons, List.map_nil, node, d1]
      rw [Nat.mod_eq_of_lt (by omega)]
  · have hH := cppHeader_word p big w (wkbU32 big 0) hw hf
    rw [hp, length_wkbU32] at hH
    simp only [d2] at hH
    let blob := orderMark big :: wkbU32 big w ++ wkbU32 big 0
    have hlen : blob.length = 9 := by simp [blob, length_wkbU32]
    generalize hst : 2 + (WordHasZ w).toNat + (WordHasM w).toNat = st at hH
    have hS : cppReadU32 blob ⟨5, 4, orderMark big, (wordDims w).code, st⟩ = .ok 0 ⟨9, 0, orderMark big, (wordDims w).code, st⟩ :=
      cppReadU32_run (rest := []) (big := big) (by unfold CInv; simp only []; omega) rfl (by
        show List.drop 5 ((orderMark big :: wkbU32 big w) ++ wkbU32 big 0) = _
        rw [List.drop_left' (by simp [length_wkbU32]), List.append_nil]) (by decide)
    have hck : ∀ {n : Nat} {s : CppP}, n ≤ s.remaining → cppCheck n s = .ok () s := fun h => if_pos h
    by_cases e2 : t = 2
    · refine ⟨[⟨9, 0, st, (wordDims w).code, orderMark big⟩], ?_⟩
      unfold cppParse
      rw [show ∀ b, cppGeometry b (9 + 1) = cppGeometryBody b (cppGeometry b 9) from fun _ => rfl,
        cppGeometryBody, M.bind_ok hH, M.bind_ok (M.get_run _)]
      simp only []
      rw [if_neg ht, if_pos e2]
      have : cppParseSequence blob ⟨5, 4, orderMark big, (wordDims w).code, st⟩ =
          .ok ⟨9, 0, st, (wordDims w).code, orderMark big⟩ ⟨9, 0, orderMark big, (wordDims w).code, st⟩ := by
        unfold cppParseSequence
        rw [M.bind_ok (hck (by simp)), M.bind_ok hS, M.bind_ok (M.get_run _)]
        simp only [Nat.mul_zero, Nat.zero_mul, Nat.zero_mod]
        rw [M.bind_ok (hck (Nat.zero_le _))]
        rfl
      rw [M.bind_ok this, e2]
      rfl
    · refine ⟨[], ?_⟩
      unfold cppParse
      rw [show ∀ b, cppGeometry b (9 + 1) = cppGeometryBody b (cppGeometry b 9) from fun _ => rfl,
        cppGeometryBody, M.bind_ok hH, M.bind_ok (M.get_run _)]
      simp only []
      rw [if_neg ht, if_neg e2]
      by_cases e3 : t = 3
      · rw [if_pos e3, M.bind_ok (hck (by simp)), M.bind_ok hS, e3]
        rfl
      · rw [if_neg e3, if_pos (by omega), M.bind_ok (hck (by simp)), M.bind_ok hS]
        rfl

/-- MULTIPOINT with the thousands digit of Z and the flag of M. -/
example : IsoCode (0x400003ec % 2 ^ 16) ∧ 0x400003ec % 2 ^ 16 % 1000 = 4 ∧ wordDims 0x400003ec = .xyzm := ⟨⟨1, 4, by decide⟩, by decide, by decide⟩

/-! ### Where they do not agree -/

/-- The code 4001 is refused by the C reader, and a point for the C++ parser. -/
theorem C85_thousands (r : WkbR) (p : CppP) (x y : Dbl) :
    (∃ s', wkbRead (orderMark false :: wkbU32 false 4001 ++ (x.bytes ++ y.bytes)) r = .err EINVAL s') ∧
    ∃ t, cppParse p (orderMark false :: wkbU32 false 4001 ++ (x.bytes ++ y.bytes)) 21 = some ⟨0, some t, some 21⟩ :=
  ⟨C85_type_refused r 1 4001 (by decide) _ (by rintro ⟨k, t, h⟩; omega), _, C58_undefined_thousands_accepted p x y⟩

/-- What the reader was used for before does not matter. -/
theorem wkbRead_any {blob : List Byte} {R : Res WkbR View} (h : ∀ sw, wkbRead blob ⟨0, 0, sw, []⟩ = R) (r : WkbR) : wkbRead blob r = R := by
  have : wkbRead blob r = wkbRead blob ⟨0, 0, r.swap, []⟩ := by
    unfold wkbRead
    rw [M.bind_ok (M.modify_run _ _), M.bind_ok (M.modify_run _ _)]
  rw [this]
  exact h _

/-- A byte order mark of 2 is big-endian to the C reader, and an error to the C++ parser. -/
theorem C85_byte_order (r : WkbR) (p : CppP) :
    (∃ v s', wkbRead [2, 0, 0, 0, 2, 0, 0, 0, 0] r = .ok v s' ∧ ViewDenotes (wkbMem [2, 0, 0, 0, 2, 0, 0, 0, 0]) v (.linestring .xy [])) ∧
    cppParse p [2, 0, 0, 0, 2, 0, 0, 0, 0] 9 = some ⟨INVALID_ENDIAN, none, none⟩ :=
  ⟨⟨⟨[{ blankNode with gt := 2, dims := 1, size := 0, swap := true, level := 0 }]⟩, ⟨9, 0, true, [{ blankNode with gt := 2, dims := 1, size := 0, swap := true, level := 0 }]⟩,
      wkbRead_any (by intro sw; cases sw <;> decide +kernel) r, ⟨_, rfl, rfl, seqDenotes_of_check rfl rfl (by decide) (by decide) (by decide)⟩⟩,
    C58_bad_byte_order p 2 [0, 0, 0, 2, 0, 0, 0, 0] (by decide) (by decide) (by decide)⟩

/-- Bytes both accept may be different geometries: the word 0x7d03ea is LINESTRING Z for the C reader, which takes its lower 16 bits, and
LINESTRING for the C++ parser, which takes 24. -/
theorem C85_differ (r : WkbR) (p : CppP) :
    (∃ v s', wkbRead [1, 0xea, 3, 0x7d, 0, 0, 0, 0, 0] r = .ok v s' ∧ ViewDenotes (wkbMem [1, 0xea, 3, 0x7d, 0, 0, 0, 0, 0]) v (.linestring .xyz [])) ∧
    ∃ t, cppParse p [1, 0xea, 3, 0x7d, 0, 0, 0, 0, 0] 9 = some ⟨0, some t, some 9⟩ ∧ Tokens [1, 0xea, 3, 0x7d, 0, 0, 0, 0, 0] (.linestring .xy []) t := by
  have hC : cppParse p [1, 0xea, 3, 0x7d, 0, 0, 0, 0, 0] 9 = some ⟨0, some (.mk 2 1 0xffffffff [⟨9, 0, 2, 1, 1⟩] []), some 9⟩ := by
    have hH := cppHeader_word p false 0x7d03ea [0, 0, 0, 0] (by decide) (by decide)
    rw [show 5 + ([0, 0, 0, 0] : List Byte).length = 9 from rfl] at hH
    unfold cppParse
    rw [show ([1, 0xea, 3, 0x7d, 0, 0, 0, 0, 0] : List Byte) = orderMark false :: wkbU32 false 0x7d03ea ++ [0, 0, 0, 0] from by decide +kernel,
      show ∀ b, cppGeometry b (9 + 1) = cppGeometryBody b (cppGeometry b 9) from fun _ => rfl,
      cppGeometryBody, M.bind_ok hH, M.bind_ok (M.get_run _)]
    rfl
  exact
    ⟨⟨⟨[{ blankNode with gt := 2, dims := 2, size := 0, swap := false, level := 0 }]⟩, ⟨9, 0, false, [{ blankNode with gt := 2, dims := 2, size := 0, swap := false, level := 0 }]⟩,
      wkbRead_any (by intro sw; cases sw <;> decide +kernel) r, ⟨_, rfl, rfl, seqDenotes_of_check rfl rfl (by decide) (by decide) (by decide)⟩⟩,
    .mk 2 1 0xffffffff [⟨9, 0, 2, 1, 1⟩] [], hC, rfl, rfl, rfl, _, _, rfl, rfl, rfl, rfl, rfl⟩

end Verif
