import Verif.Proof.WkbParserVisit
import Verif.Props.WkbReader
/-!
# C15, C16: the C++ WKB parser
-/
namespace Verif
open Spec

/-! ## C15 -/

/-- On arbitrary bytes, of which the first `size` are given to the parser, whatever the parser was used for before: no
read outside, every reported sequence inside, the final cursor inside. -/
theorem C15_parser_inside (p : CppP) (blob : List Byte) (size : Nat) (hs : size ≤ blob.length) :
    ∃ o, cppParse p blob size = some o ∧ (∀ t, o.out = some t → Inside size t) ∧ (∀ c, o.cursor = some c → c ≤ size) := by
  have h := cppGeometry_post hs (size + 1) { p with pos := 0, remaining := size } (by simp [CInv]) (by simp only []; omega)
  unfold cppParse
  cases hr : cppGeometry blob (size + 1) { p with pos := 0, remaining := size } with
  | ok g s =>
    rw [hr] at h
    refine ⟨_, rfl, ?_, ?_⟩
    · intro t ht; cases ht; exact h.2.1
    · intro c hc
      cases hc
      have := h.1
      unfold CInv at this
      omega
  | err rc s => exact ⟨_, rfl, by simp, by simp⟩
  | ub => rw [hr] at h; exact absurd h (by simp [Res.Post])

/-- The same through the overload taking a buffer view. -/
theorem C15_view_inside (p : CppP) (blob : List Byte) :
    ∃ o, cppParseView p blob = some o ∧ (∀ t, o.out = some t → Inside blob.length t) := by
  obtain ⟨o, h1, h2, _⟩ := C15_parser_inside p blob (u32 blob.length) (Nat.mod_le _ _)
  refine ⟨o, h1, fun t ht => ?_⟩
  exact inside_mono (Nat.mod_le _ _) t (h2 t ht)
where
  inside_mono {a b : Nat} (hab : a ≤ b) : ∀ t, Inside a t → Inside b t
    | .mk _ _ _ qs gs, h => ⟨fun q hq => (by
        obtain ⟨d, h1, h2, h3⟩ := h.1 q hq
        exact ⟨d, h1, h2, by omega⟩), insideL_mono hab gs h.2⟩
  insideL_mono {a b : Nat} (hab : a ≤ b) : ∀ ts, InsideL a ts → InsideL b ts
    | [], _ => trivial
    | t :: ts, h => ⟨inside_mono hab t h.1, insideL_mono hab ts h.2⟩

/-- At every return, success or failure, bytes consumed plus bytes remaining is the size given: the accounting never
underflows. -/
theorem C15_accounting (p : CppP) (blob : List Byte) (size : Nat) (hs : size ≤ blob.length) :
    ∃ s, (cppGeometry blob (size + 1) { p with pos := 0, remaining := size }).state? = some s ∧
      s.pos + s.remaining = size := by
  have h := cppGeometry_post hs (size + 1) { p with pos := 0, remaining := size } (by simp [CInv]) (by simp only []; omega)
  cases hr : cppGeometry blob (size + 1) { p with pos := 0, remaining := size } with
  | ok g s => rw [hr] at h; exact ⟨s, rfl, h.1⟩
  | err rc s => rw [hr] at h; exact ⟨s, rfl, h.2⟩
  | ub => rw [hr] at h; exact absurd h (by simp [Res.Post])

/-- Iterating over a reported sequence touches only bytes of the blob and delivers the reported number of vertices. -/
theorem C15_visit_inside {blob : List Byte} {size : Nat} {q : CppSeq} (hs : size ≤ blob.length) (h : SeqInside size q) :
    ∃ cs, cppSeqVertices blob q = some cs ∧ cs.length = q.length := seqInside_visit hs h

/-- A parser as left by earlier use. -/
def exParser : CppP := ⟨77, 3, 9, 4, 4⟩

/-- Hostile input: a collection announcing 2^32 - 1 members and holding a truncated polygon. -/
def hostileBlob : List Byte := [1, 7, 0, 0, 0, 255, 255, 255, 255, 1, 3, 0, 0, 0, 255, 255, 255, 255, 2, 0, 0, 0]
example : (cppParse exParser hostileBlob hostileBlob.length).map (·.status) = some TOO_FEW_BYTES := by
  unfold cppParse; decide +kernel
example : (cppParse exParser exBlob exBlob.length).map (fun o => (o.status, o.cursor)) = some (0, some 63) := by
  decide +kernel

/-! ## C16 -/

theorem parse_enc {g : Geom} {b : List Byte} (he : WkbEnc g b) (c : List Byte) (p : CppP) :
    ∃ s t, cppGeometry (b ++ c) ((b ++ c).length + 1) { p with pos := 0, remaining := (b ++ c).length } = .ok t s ∧
      s.pos = b.length ∧ Tokens (b ++ c) g t := by
  have hh := enc_height g b he
  obtain ⟨s, t, h1, _, h3, h4⟩ := cppGeometry_run (blob := b ++ c) g b he ((b ++ c).length + 1)
    { p with pos := 0, remaining := (b ++ c).length } c (by simp [CInv]) rfl (by rw [List.length_append]; omega)
  exact ⟨s, t, h1, by simpa using h3, h4⟩

/-- A valid encoding is accepted, to the last byte, and the result is the encoded geometry. -/
theorem C16_valid {g : Geom} {b : List Byte} (he : WkbEnc g b) (p : CppP) :
    ∃ t, cppParse p b b.length = some ⟨0, some t, some b.length⟩ ∧ Tokens b g t := by
  obtain ⟨s, t, h1, h2, h3⟩ := parse_enc he [] p
  rw [List.append_nil] at h1 h3
  refine ⟨t, ?_, h3⟩
  unfold cppParse
  rw [h1]
  simp [h2]

/-- With extra bytes appended the status says so; geometry and cursor are still those of the encoding. -/
theorem C16_too_many {g : Geom} {b : List Byte} (he : WkbEnc g b) {c : List Byte} (hc : c ≠ []) (p : CppP) :
    ∃ t, cppParse p (b ++ c) (b ++ c).length = some ⟨TOO_MANY_BYTES, some t, some b.length⟩ ∧ Tokens (b ++ c) g t := by
  obtain ⟨s, t, h1, h2, h3⟩ := parse_enc he c p
  refine ⟨t, ?_, h3⟩
  unfold cppParse
  rw [h1]
  have : 0 < c.length := List.length_pos_iff.mpr hc
  simp [h2, this]

/-- Every strict prefix is too short. -/
theorem C16_too_few {g : Geom} {b c : List Byte} (he : WkbEnc g (b ++ c)) (hc : c ≠ []) (p : CppP) :
    cppParse p b b.length = some ⟨TOO_FEW_BYTES, none, none⟩ := by
  obtain ⟨s, t, h1, h2, _⟩ := parse_enc he [] p
  rw [List.append_nil] at h1
  have hpos : 0 < c.length := List.length_pos_iff.mpr hc
  obtain ⟨s', hcut⟩ := (Cut.geometry b c ((b ++ c).length + 1)).out { p with pos := 0, remaining := (b ++ c).length } t s
    (by simp [CInv]) (by simp) h1 (by rw [h2, List.length_append]; omega)
  have e : cutS c.length { p with pos := 0, remaining := (b ++ c).length } = { p with pos := 0, remaining := b.length } := by
    simp [cutS]
  rw [e] at hcut
  unfold cppParse
  rcases Refine.fuel b (b.length + 1) c.length { p with pos := 0, remaining := b.length } with h | h
  · have := cppGeometry_post (Nat.le_refl b.length) (b.length + 1) { p with pos := 0, remaining := b.length } (by simp [CInv])
      (by simp only []; omega)
    rw [h] at this
    exact absurd this (by simp [Res.Post])
  · rw [show b.length + 1 + c.length = (b ++ c).length + 1 by rw [List.length_append]; omega, hcut] at h
    rw [h]

/-- The SRID reported for the outermost geometry is the one in its header, or 0xffffffff if it has none. -/
theorem C16_srid {big : Bool} {base srid : Nat} {d : Dims} {h rest : List Byte} (hb : 1 ≤ base ∧ base ≤ 7)
    (hh : HeaderSrid big base d srid h) (p : CppP) {o : CppOut}
    (ho : cppParse p (h ++ rest) (h ++ rest).length = some o) :
    ∀ t, o.out = some t → ∃ qs gs, t = .mk base d.code srid qs gs := by
  intro t ht
  unfold cppParse at ho
  have hrun := cppHeader_run (blob := h ++ rest) (s := { p with pos := 0, remaining := (h ++ rest).length }) (rest := rest)
    (by simp [CInv]) hb hh rfl
  cases hr : cppGeometry (h ++ rest) ((h ++ rest).length + 1) { p with pos := 0, remaining := (h ++ rest).length } with
  | ok g s =>
    rw [hr] at ho
    simp only [Option.some.injEq] at ho
    subst ho
    cases ht
    rw [show cppGeometry (h ++ rest) ((h ++ rest).length + 1) =
      cppGeometryBody (h ++ rest) (cppGeometry (h ++ rest) (h ++ rest).length) from rfl, cppGeometryBody, M.bind_ok hrun,
      M.bind_ok (M.get_run _)] at hr
    simp only [] at hr
    split at hr
    · rename_i h1; subst h1
      obtain ⟨_, _, _, hr⟩ := M.bind_eq_ok.mp hr; cases hr; exact ⟨_, _, rfl⟩
    split at hr
    · rename_i h1; subst h1
      obtain ⟨_, _, _, hr⟩ := M.bind_eq_ok.mp hr; cases hr; exact ⟨_, _, rfl⟩
    split at hr
    · rename_i h1; subst h1
      obtain ⟨_, _, _, hr⟩ := M.bind_eq_ok.mp hr
      obtain ⟨_, _, _, hr⟩ := M.bind_eq_ok.mp hr
      obtain ⟨_, _, _, hr⟩ := M.bind_eq_ok.mp hr; cases hr; exact ⟨_, _, rfl⟩
    split at hr
    · obtain ⟨_, _, _, hr⟩ := M.bind_eq_ok.mp hr
      obtain ⟨_, _, _, hr⟩ := M.bind_eq_ok.mp hr
      obtain ⟨_, _, _, hr⟩ := M.bind_eq_ok.mp hr; cases hr; exact ⟨_, _, rfl⟩
    · cases hr
  | err rc s => rw [hr] at ho; cases ho; cases ht
  | ub => rw [hr] at ho; cases ho

/-- Through the buffer-view overload, encodings shorter than 2^32 bytes are accepted just the same. -/
theorem C16_view_valid {g : Geom} {b : List Byte} (he : WkbEnc g b) (hb : b.length < 2 ^ 32) (p : CppP) :
    ∃ t, cppParseView p b = some ⟨0, some t, some b.length⟩ ∧ Tokens b g t := by
  unfold cppParseView
  rw [u32_of_lt hb]
  exact C16_valid he p

/-- Longer ones need not be: the size is cut to 32 bits. A valid encoding whose length is 0 to 4 modulo 2^32 is reported
as too short. -/
theorem C16_view_truncates {g : Geom} {b : List Byte} (_ : WkbEnc g b) (hb : b.length % 2 ^ 32 < 5) (p : CppP) :
    cppParseView p b = some ⟨TOO_FEW_BYTES, none, none⟩ := by
  unfold cppParseView cppParse
  have hr : cppGeometry b (u32 b.length + 1) { p with pos := 0, remaining := u32 b.length } =
      .err TOO_FEW_BYTES { p with pos := 0, remaining := u32 b.length } := by
    rw [show cppGeometry b (u32 b.length + 1) = cppGeometryBody b (cppGeometry b (u32 b.length)) from rfl, cppGeometryBody]
    refine M.bind_err ?_
    unfold cppHeader
    refine M.bind_err ?_
    unfold cppCheck
    exact if_neg (by show ¬ 5 ≤ u32 b.length; unfold u32; omega)
  rw [hr]

/-- Such encodings exist: a polygon of two rings with 2^28 - 1 and 0 vertices takes 2^32 + 1 bytes. -/
theorem C16_view_truncates_witness : ∃ g b, WkbEnc g b ∧ b.length % 2 ^ 32 < 5 := by
  refine ⟨.polygon .xy [List.replicate (2 ^ 28 - 1) [0, 0], []],
    (orderMark false :: wkbU32 false (3 + isoOffset .xy)) ++ wkbU32 false 2 ++
      wkbRings false [List.replicate (2 ^ 28 - 1) [0, 0], []],
    ⟨false, _, by show 2 < 2 ^ 32; decide, ?_, Or.inl rfl, rfl⟩, ?_⟩
  · intro r hr
    simp only [List.mem_cons, List.not_mem_nil, or_false] at hr
    rcases hr with rfl | rfl
    · refine ⟨by rw [List.length_replicate]; decide, ?_⟩
      intro c hc
      rw [(List.mem_replicate.mp hc).2]; rfl
    · exact ⟨by decide, by simp⟩
  · have hl : ∀ n, ((orderMark false :: wkbU32 false (3 + isoOffset .xy)) ++ wkbU32 false 2 ++
      wkbRings false [List.replicate n [(0 : Dbl), 0], []]).length = 17 + 8 * 2 * n := by
      intro n
      have hc : (wkbCoords false (List.replicate n [(0 : Dbl), 0])).length = 8 * 2 * n := by
        rw [length_wkbCoords (nv := 2) (by intro c hc; rw [(List.mem_replicate.mp hc).2]; rfl), List.length_replicate]
      have hn : (wkbCoords false []).length = 0 := rfl
      simp only [wkbRings, List.length_append, List.length_cons, length_wkbU32, List.length_nil, hc, hn]
      omega
    rw [hl]
    decide

example (p : CppP) : ∃ t, cppParse p exBlob exBlob.length = some ⟨0, some t, some 63⟩ ∧ Tokens exBlob exBlobGeom t :=
  C16_valid exBlob_enc p
example (p : CppP) : cppParse p (exBlob.take 40) 40 = some ⟨TOO_FEW_BYTES, none, none⟩ :=
  C16_too_few (b := exBlob.take 40) (c := exBlob.drop 40) (by rw [List.take_append_drop]; exact exBlob_enc) (by decide) p
example (p : CppP) : ∃ t, cppParse p (exBlob ++ [9]) 64 = some ⟨TOO_MANY_BYTES, some t, some 63⟩ ∧
    Tokens (exBlob ++ [9]) exBlobGeom t := C16_too_many exBlob_enc (by decide) p
/-- The SRID of the example is 4326. -/
example : HeaderSrid true 4 .xyz 4326 (exBlob.take 9) := Or.inr (Or.inr ⟨by decide, by decide +kernel⟩)

end Verif
