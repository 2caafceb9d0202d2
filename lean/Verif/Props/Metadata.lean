import Verif.Proof.MetadataScan
/-!
# C44–C48: metadata

The specification is `Verif/Spec/Metadata.lean`. The caller's buffer is a list of bytes as long as the capacity it states; a result
`some` says that nothing outside of it was written. `after` is the byte behind the text, `none` if it may not be read, and `n` the
number of loop turns that are made before the model gives up (`stuck`).
-/
namespace Verif
open Spec

/-! ## C44 -/

/-- **C44** (part). For a view whose CRS has no backslash, or is a JSON value, or is not written, there is one text such that, for every
buffer, its length is reported, it is written if it fits, a terminator follows if there is room, and nothing is written otherwise.

Missing: a CRS with backslashes that is written as a string, see `C44_backslashes`. -/
theorem C44_serialize_partial (w : MdView)
    (h : w.crsType = 0 ∨ w.crs.head? = some 123 ∨ w.crs.head? = some 34 ∨ (92 : Byte) ∉ w.crs) : ∃ text, MdSerialized w text := by
  refine ⟨mdBytes w, serialized_bytes w ?_⟩
  unfold countBackslashes
  by_cases hc : w.crsType ≠ 0 ∧ needsEscape w.crs = true
  · rw [if_pos hc, List.count_eq_zero]
    rcases h with h | h | h | h
    · exact absurd h hc.1
    · cases hw : w.crs with
      | nil => simp
      | cons c r => rw [hw] at h hc; simp at h; subst h; exact absurd hc.2 (by simp [needsEscape])
    · cases hw : w.crs with
      | nil => simp
      | cons c r => rw [hw] at h hc; simp at h; subst h; exact absurd hc.2 (by simp [needsEscape])
    · exact h
  · rw [if_neg hc]

/-- **C44**, whatever the CRS: the buffer keeps its length, so that nothing outside of it is written, and nothing at all is written if
the reported size exceeds the capacity. Otherwise a text is written that is shorter than reported by the number `k` of backslashes of a
CRS that is written as a string; the bytes after the text, up to the reported size, keep what they held, and the terminator follows
those, if there is room. -/
theorem C44_backslashes (w : MdView) :
    ∃ (text : List Byte) (k : Nat),
      (w.crsType ≠ 0 ∧ w.crs.head? ≠ some 123 ∧ w.crs.head? ≠ some 34 → k = w.crs.count 92) ∧
      (w.crsType = 0 ∨ w.crs.head? = some 123 ∨ w.crs.head? = some 34 → k = 0) ∧
      ∀ out : List Byte, ∃ out', mdSerialize w out out.length = some (out', ((text.length + k : Nat) : Int)) ∧ out'.length = out.length ∧
        (out.length < text.length + k → out' = out) ∧
        (text.length + k ≤ out.length → out' = text ++ (out.drop text.length).take k ++
          (if text.length + k < out.length then [0] ++ out.drop (text.length + k + 1) else [])) := by
  refine ⟨mdBytes w, countBackslashes w, ?_, ?_, fun out => ?_⟩
  · rintro ⟨h1, h2, h3⟩
    rw [countBackslashes, if_pos]
    refine ⟨h1, ?_⟩
    cases hw : w.crs with
    | nil => rfl
    | cons c r =>
      rw [hw] at h2 h3
      have a : c ≠ 123 := by simpa using h2
      have b : c ≠ 34 := by simpa using h3
      simp only [needsEscape, ne_eq, a, b, not_false_eq_true, decide_true, Bool.and_true]
  · intro h
    rw [countBackslashes, if_neg]
    rintro ⟨h1, h2⟩
    rcases h with h | h | h
    · exact h1 h
    · cases hw : w.crs with
      | nil => rw [hw] at h; cases h
      | cons c r => rw [hw] at h h2; simp at h; subst h; exact absurd h2 (by simp [needsEscape])
    · cases hw : w.crs with
      | nil => rw [hw] at h; cases h
      | cons c r => rw [hw] at h h2; simp at h; subst h; exact absurd h2 (by simp [needsEscape])
  · have := mdSerialize_run w out
    rwa [mdSize_bytes] at this

/-- **C44** fails for the CRS `\`: twelve bytes are reported, but the eleven of `{"crs":"\"}` are written; the last byte of a buffer of the
reported size keeps what it held, so that there is no one text that is written. -/
theorem C44_witness :
    mdSerialize ⟨0, 1, [92]⟩ (List.replicate 12 63) 12 = some (str "{\"crs\":\"\\\"}?", 12) ∧ ¬ ∃ text, MdSerialized ⟨0, 1, [92]⟩ text := by
  have h1 : mdSerialize ⟨0, 1, [92]⟩ (List.replicate 12 63) 12 = some (str "{\"crs\":\"\\\"}?", 12) := by decide
  have h2 : mdSerialize ⟨0, 1, [92]⟩ (List.replicate 12 33) 12 = some (str "{\"crs\":\"\\\"}!", 12) := by decide
  refine ⟨h1, ?_⟩
  rintro ⟨text, h⟩
  have a := h (List.replicate 12 63)
  have b := h (List.replicate 12 33)
  have la : ((List.replicate 12 (63 : Byte)).length : Int) = 12 := by decide
  have lb : ((List.replicate 12 (33 : Byte)).length : Int) = 12 := by decide
  rw [la, h1] at a
  rw [lb, h2] at b
  injection a with a
  injection b with b
  have hl : text.length = 12 := by have := (Prod.mk.inj a).2; omega
  have a := (Prod.mk.inj a).1
  have b := (Prod.mk.inj b).1
  simp [filled, hl] at a b
  rw [← a] at b
  exact absurd b (by decide)

/-- A CRS with quotes: the text, a buffer it fits, one with room for the terminator, and one it does not fit. -/
example : mdSerialize ⟨1, 3, str "a\"b"⟩ (List.replicate 57 63) 57 =
      some (str "{\"edges\":\"spherical\",\"crs_type\":\"wkt2:2019\",\"crs\":\"a\\\"b\"}", 57) ∧
    mdSerialize ⟨0, 1, str "x"⟩ (List.replicate 13 63) 13 = some (str "{\"crs\":\"x\"}" ++ [0, 63], 11) ∧
    mdSerialize ⟨0, 1, str "x"⟩ (List.replicate 10 63) 10 = some (List.replicate 10 63, 11) := by decide +kernel
example : ∃ text, MdSerialized ⟨1, 3, str "a\"b"⟩ text := C44_serialize_partial _ (by decide)
example : ∃ text, MdSerialized ⟨1, 2, str "{\"a\\\"\":1}"⟩ text := C44_serialize_partial _ (by decide)

/-! ## C45 -/

/-- The text of a view is read back. -/
theorem views_written (w : MdView) (he : 0 ≤ w.edge ∧ w.edge ≤ 5) (ht : 0 ≤ w.crsType ∧ w.crsType ≤ 5)
    (hc : w.crsType ≠ 0 → Scans (if needsEscape w.crs then [34] ++ escapeQuotes w.crs ++ [34] else w.crs)) :
    Views (mdBytes w) ⟨w.edge, w.crsType,
      if w.crsType = 0 then [] else if needsEscape w.crs then [34] ++ escapeQuotes w.crs ++ [34] else w.crs⟩ := by
  have hE : EdgeNamed (edgeString w.edge) w.edge := by
    rcases (by omega : w.edge = 0 ∨ w.edge = 1 ∨ w.edge = 2 ∨ w.edge = 3 ∨ w.edge = 4 ∨ w.edge = 5) with h | h | h | h | h | h <;>
      rw [h] <;> simp [EdgeNamed, edgeString]
  have hT : w.crsType ≠ 1 ∧ w.crsType ≠ 0 → CrsTypeNamed (crsTypeString w.crsType) w.crsType := by
    intro h'
    rcases (by omega : w.crsType = 2 ∨ w.crsType = 3 ∨ w.crsType = 4 ∨ w.crsType = 5) with h | h | h | h <;>
      rw [h] <;> simp [CrsTypeNamed, crsTypeString]
  have hEs : StringText (edgeString w.edge) := by
    unfold EdgeNamed at hE
    rcases hE with ⟨h, -⟩ | ⟨h, -⟩ | ⟨h, -⟩ | ⟨h, -⟩ | ⟨h, -⟩ | ⟨h, -⟩ <;> rw [h] <;> exact stringText_of (by decide)
  have hTs : w.crsType ≠ 1 ∧ w.crsType ≠ 0 → StringText (crsTypeString w.crsType) := by
    intro h'
    have hT := hT h'
    unfold CrsTypeNamed at hT
    rcases hT with ⟨h, -⟩ | ⟨h, -⟩ | ⟨h, -⟩ | ⟨h, -⟩ <;> rw [h] <;> exact stringText_of (by decide)
  generalize hval : (if needsEscape w.crs then [34] ++ escapeQuotes w.crs ++ [34] else w.crs) = val at hc ⊢
  have hval0 : val.head? = some 123 ∨ val.head? = some 34 := by
    rw [← hval]
    by_cases hn : needsEscape w.crs = true
    · rw [if_pos hn]; exact .inr rfl
    · rw [if_neg hn]
      cases hw : w.crs with
      | nil => rw [hw] at hn; exact absurd rfl hn
      | cons c r =>
        rw [hw] at hn
        by_cases h1 : c = 123
        · subst h1; exact .inl rfl
        · by_cases h2 : c = 34
          · subst h2; exact .inr rfl
          · exact absurd (by simp only [needsEscape, ne_eq, h1, h2, not_false_eq_true, decide_true, Bool.and_true]) hn
  have mem : ∀ m, m ∈ writtenMembers w ↔ (w.edge ≠ 0 ∧ m = bareMember (str "edges") ([34] ++ edgeString w.edge ++ [34])) ∨
      ((w.crsType ≠ 1 ∧ w.crsType ≠ 0) ∧ m = bareMember (str "crs_type") ([34] ++ crsTypeString w.crsType ++ [34])) ∨
      (w.crsType ≠ 0 ∧ m = bareMember (str "crs") val) := by
    intro m
    unfold writtenMembers
    rw [hval]
    by_cases h1 : w.edge = 0 <;> by_cases h2 : w.crsType = 0 <;> by_cases h3 : w.crsType = 1 <;> simp [h1, h2, h3]
  rw [written_text]
  have d1 : str "edges" ≠ str "crs" := by decide
  have d2 : str "edges" ≠ str "crs_type" := by decide
  have d3 : str "crs" ≠ str "crs_type" := by decide
  have hf := members_fold (writtenMembers w) w.edge (if w.crsType = 0 then 1 else w.crsType)
    (by by_cases h : w.crsType = 0 <;> simp [h]) val hval0
    (by
      intro m hm hk
      rcases (mem m).mp hm with ⟨-, rfl⟩ | ⟨-, rfl⟩ | ⟨-, rfl⟩
      · exact edge_names hE
      · exact absurd hk.symm d2
      · exact absurd hk.symm d1)
    (by
      intro m hm hk
      rcases (mem m).mp hm with ⟨-, rfl⟩ | ⟨-, rfl⟩ | ⟨-, rfl⟩
      · exact absurd hk d1
      · exact absurd hk.symm d3
      · rfl)
    (by
      intro m hm hk
      rcases (mem m).mp hm with ⟨-, rfl⟩ | ⟨h, rfl⟩ | ⟨-, rfl⟩
      · exact absurd hk d2
      · rw [if_neg h.2]; exact type_names (hT h)
      · exact absurd hk d3) ⟨0, 0, []⟩
  have key : ∀ k, (∃ m ∈ writtenMembers w, m.key = k) ↔ (w.edge ≠ 0 ∧ k = str "edges") ∨ ((w.crsType ≠ 1 ∧ w.crsType ≠ 0) ∧ k = str "crs_type") ∨
      (w.crsType ≠ 0 ∧ k = str "crs") := by
    intro k
    constructor
    · rintro ⟨m, hm, rfl⟩
      rcases (mem m).mp hm with ⟨h, rfl⟩ | ⟨h, rfl⟩ | ⟨h, rfl⟩
      · exact .inl ⟨h, rfl⟩
      · exact .inr (.inl ⟨h, rfl⟩)
      · exact .inr (.inr ⟨h, rfl⟩)
    · rintro (⟨h, rfl⟩ | ⟨h, rfl⟩ | ⟨h, rfl⟩)
      · exact ⟨_, (mem _).mpr (.inl ⟨h, rfl⟩), rfl⟩
      · exact ⟨_, (mem _).mpr (.inr (.inl ⟨h, rfl⟩)), rfl⟩
      · exact ⟨_, (mem _).mpr (.inr (.inr ⟨h, rfl⟩)), rfl⟩
  simp only [key, d1, d2, d3, Ne.symm d1, Ne.symm d2, Ne.symm d3, and_false, and_true, or_false, false_or, or_self] at hf
  have hv := metadata_views [] (writtenMembers w) [] (by simp [IsSpaces]) (by simp [IsSpaces]) (by
      intro m hm
      rcases (mem m).mp hm with ⟨-, rfl⟩ | ⟨h, rfl⟩ | ⟨h, rfl⟩
      · exact bareMember_reads (stringText_of (by decide)) (scans_string hEs)
      · exact bareMember_reads (stringText_of (by decide)) (scans_string (hTs h))
      · exact bareMember_reads (stringText_of (by decide)) (hc h)) _ hf
  have hne : val ≠ [] := by rintro rfl; rcases hval0 with h | h <;> cases h
  have hedge : (if w.edge ≠ 0 then w.edge else 0) = w.edge := by by_cases h : w.edge = 0 <;> simp [h]
  by_cases h2 : w.crsType = 0
  · simpa [h2, hedge] using hv
  · by_cases h3 : w.crsType = 1
    · simpa [h2, h3, hne, hedge] using hv
    · simpa [h2, h3, hne, hedge] using hv

/-- **C45** (part). A view with one of the six edge types and one of the six CRS types whose CRS is any text without a backslash, or an
object or string of JSON, is serialised to a text that gives back the edge type, the CRS type and the CRS: an object or string as
it was, a text when unescaped. With CRS type NONE no CRS is written.

Missing: texts with backslashes, which do not come back, see `C45_witness`. -/
theorem C45_round_trip_partial (w : MdView) (he : 0 ≤ w.edge ∧ w.edge ≤ 5) (ht : 0 ≤ w.crsType ∧ w.crsType ≤ 5)
    (hc : ((w.crs.head? = some 123 ∨ w.crs.head? = some 34) ∧ Json .value w.crs) ∨
      (w.crs.head? ≠ some 123 ∧ w.crs.head? ≠ some 34 ∧ (92 : Byte) ∉ w.crs)) :
    ∃ text w', MdSerialized w text ∧ Views text w' ∧ w'.edge = w.edge ∧ w'.crsType = w.crsType ∧
      (w.crsType = 0 → w'.crs = []) ∧
      (w.crsType ≠ 0 → w.crs.head? = some 123 ∨ w.crs.head? = some 34 → w'.crs = w.crs) ∧
      (w.crsType ≠ 0 → w.crs.head? ≠ some 123 ∧ w.crs.head? ≠ some 34 → CrsText w'.crs w.crs) := by
  have esc : ∀ {c : List Byte}, c.head? ≠ some 123 → c.head? ≠ some 34 → needsEscape c = true := by
    intro c h2 h3
    cases hw : c with
    | nil => rfl
    | cons d r =>
      rw [hw] at h2 h3
      have a : d ≠ 123 := by simpa using h2
      have b : d ≠ 34 := by simpa using h3
      simp only [needsEscape, ne_eq, a, b, not_false_eq_true, decide_true, Bool.and_true]
  have nesc : ∀ {c : List Byte}, c.head? = some 123 ∨ c.head? = some 34 → needsEscape c = false := by
    intro c h
    cases hw : c with
    | nil => rw [hw] at h; rcases h with h | h <;> cases h
    | cons d r =>
      rw [hw] at h
      simp only [List.head?_cons, Option.some.injEq] at h
      rcases h with rfl | rfl <;> simp [needsEscape]
  rcases hc with ⟨hh, hj⟩ | ⟨h1, h2, h3⟩
  · have hn := nesc hh
    refine ⟨mdBytes w, _, serialized_bytes w (by simp [countBackslashes, hn]), views_written w he ht (fun _ => by simpa [hn] using scans_json hj (.inr (hh.imp id .inl))), rfl, rfl,
      fun h => by simp [h], fun h _ => by simp [h, hn], fun _ h => ?_⟩
    rcases hh with hh | hh
    · exact absurd hh h.1
    · exact absurd hh h.2
  · have hn := esc h1 h2
    have hu := unescaped_escapeQuotes h3
    refine ⟨mdBytes w, _, serialized_bytes w ?_, views_written w he ht (fun _ => by
        rw [if_pos hn]; exact scans_string (unescaped_stringText hu)), rfl, rfl,
      fun h => by simp [h], fun _ h => ?_, fun h _ => ?_⟩
    · have : w.crs.count 92 = 0 := List.count_eq_zero.mpr h3
      rw [countBackslashes, this]; split <;> rfl
    · rcases h with h | h
      · exact absurd h h1
      · exact absurd h h2
    · simp only [if_neg h, if_pos hn]
      exact unescapeCrs_text hu

/-- The CRS of a view that was read is not escaped. -/
theorem MdView.Read.plain {w : MdView} (h : w.Read) (hne : w.crs ≠ []) : needsEscape w.crs = false := by
  rcases h.crs with h | ⟨_, h⟩
  · exact absurd h hne
  · cases hw : w.crs with
    | nil => exact absurd hw hne
    | cons d r =>
      rw [hw] at h
      simp only [List.head?_cons, Option.some.injEq] at h
      rcases h with rfl | rfl <;> simp [needsEscape]

theorem viewed_type {after : Option Byte} {n : Nat} {text : List Byte} {w : MdView} {rest : List Byte}
    (h : metadataViewInit after n text = .ok w rest) (ht : w.crsType ≠ 0) : w.crs ≠ [] := by
  intro hc
  unfold metadataViewInit at h
  split at h
  · cases h; exact ht rfl
  · unfold metadataViewInitJson at h
    cases h1 : parseJson after n ⟨0, 0, []⟩ (skipSpace text) with
    | ok w1 s1 =>
      rw [h1] at h
      simp only [PRes.bind] at h
      split at h
      · cases h
      · split at h
        · cases h; exact ht rfl
        next hl => cases h; exact hl (by rw [hc]; rfl)
    | err => rw [h1] at h; cases h
    | oob => rw [h1] at h; cases h
    | stuck => rw [h1] at h; cases h

/-- **C45** for every text that can be viewed, whatever is in it: the view is serialised to a text that gives the same view, except that a
CRS which is present although the CRS type is NONE is left out. -/
theorem C45_viewed {after : Option Byte} {n : Nat} {text : List Byte} {w : MdView} {rest : List Byte}
    (h : metadataViewInit after n text = .ok w rest) :
    ∃ text', MdSerialized w text' ∧ Views text' (if w.crsType = 0 then { w with crs := [] } else w) := by
  have hr := metadata_read h
  by_cases ht : w.crsType = 0
  · have hv := views_written w hr.edge hr.type (fun h => absurd ht h)
    refine ⟨mdBytes w, serialized_bytes w (by simp [countBackslashes, ht]), ?_⟩
    simpa [ht] using hv
  · have hn := MdView.Read.plain hr (viewed_type h ht)
    have hs : Scans w.crs := by
      rcases hr.crs with h' | h'
      · exact absurd h' (viewed_type h ht)
      · exact h'.1
    have hv := views_written w hr.edge hr.type (fun _ => by simpa [hn] using hs)
    refine ⟨mdBytes w, serialized_bytes w (by simp [countBackslashes, hn]), ?_⟩
    simpa [ht, hn] using hv

/-- A text whose CRS is not JSON, and one whose CRS type is NONE although there is a CRS. -/
example : metadataViewInit (some 0) 40 (str "{\"crs\":{a b}x,\"edges\":\"karney\"}") = .ok ⟨5, 1, str "{a b}"⟩ [] ∧
    metadataViewInit (some 0) 40 (str "{\"crs\":\"A\",\"crs\":null}") = .ok ⟨0, 0, str "\"A\""⟩ [] := by decide +kernel

/-- **C45** fails for the CRS `\`: whatever the buffer of the reported size held, viewing what is in it afterwards does not succeed. -/
theorem C45_witness : ∀ b : Byte, ∃ text, mdSerialize ⟨0, 1, [92]⟩ (List.replicate 12 b) 12 = some (text, 12) ∧ ¬ ∃ w, Views text w := by
  intro b
  refine ⟨str "{\"crs\":\"\\\"}" ++ [b], rfl, ?_⟩
  rintro ⟨w, n0, h⟩
  have := h (n0 + 3) (by omega) none
  have e : str "{\"crs\":\"\\\"}" ++ [b] = [123, 34, 99, 114, 115, 34, 58, 34, 92, 34, 125, b] := rfl
  have hq : skipSpace [34, 92, 34, 125, b] = [34, 92, 34, 125, b] := rfl
  have hv : findValue none (n0 + 2) [34, 92, 34, 125, b] = .err ∨ findValue none (n0 + 2) [34, 92, 34, 125, b] = .ok [34, 92, 34, 125, 34] [] := by
    by_cases hb : b = 34
    · subst hb; exact .inr rfl
    · by_cases hb' : b = 92
      · subst hb'; exact .inl rfl
      · have h1 : b ≠ 34#8 := hb
        have h2 : b ≠ 92#8 := hb'
        exact .inl (by simp [findValue, findString, stringBody, h1, h2])
  have hrun : metadataViewInit none (n0 + 3) (str "{\"crs\":\"\\\"}" ++ [b]) =
      ((findValue none (n0 + 2) [34, 92, 34, 125, b]).bind fun v s3 =>
        match applyPair (str "\"crs\"") v ⟨0, 0, []⟩ with
        | none => .err
        | some w' =>
          match (skipUntil [44, 125] s3).2 with
          | [] => pastEnd none
          | d :: s4 => if d = 44 then jsonLoop none (n0 + 2) w' s4 else jsonLoop none (n0 + 2) w' (d :: s4)).bind fun w1 s =>
    if skipSpace s ≠ [] then .err
    else .ok (if w1.crs.length = 0 then { w1 with crsType := 0 } else w1) [] := rfl
  rw [hrun] at this
  rcases hv with hv | hv
  · rw [hv] at this; cases this
  · rw [hv] at this; cases this

/-- Two views that meet the conditions: a CRS that is a text with quotes, and one that is a JSON object. -/
example : ∃ text w', MdSerialized ⟨5, 3, str "GEOGCS[\"x\"]"⟩ text ∧ Views text w' ∧ w'.edge = 5 ∧ w'.crsType = 3 ∧ CrsText w'.crs (str "GEOGCS[\"x\"]") := by
  obtain ⟨text, w', h1, h2, h3, h4, -, -, h7⟩ := C45_round_trip_partial ⟨5, 3, str "GEOGCS[\"x\"]"⟩ (by decide) (by decide) (.inr (by decide))
  exact ⟨text, w', h1, h2, h3, h4, h7 (by decide) (by decide)⟩
/-- The object `{"id":[1,"]"]}`. -/
theorem exCrs_json : Json .value (str "{\"id\":[1,\"]\"]}") := by
  have sp : IsSpaces [] := by simp [IsSpaces]
  have h1 : Json .value (str "1") := .word (by decide) (by
    intro c hc
    have : c = 49 := by simpa [str] using hc
    subst this; unfold IsWordChar; decide)
  have h2 : Json .value (str "\"]\"") := .string (w := str "]") (stringText_of (by decide))
  have h3 : Json .value (str "[1,\"]\"]") := .array (t := str "1,\"]\"") (.elements (.element sp h1 sp) (.element sp h2 sp))
  exact .object (t := str "\"id\":[1,\"]\"]") (.member (s := []) (k := str "id") (s' := []) (t := []) (t' := []) sp (stringText_of (by decide)) sp sp h3 sp)
example : ∃ text w', MdSerialized ⟨0, 2, str "{\"id\":[1,\"]\"]}"⟩ text ∧ Views text w' ∧ w' = ⟨0, 2, str "{\"id\":[1,\"]\"]}"⟩ := by
  obtain ⟨text, w', h1, h2, h3, h4, -, h6, -⟩ := C45_round_trip_partial ⟨0, 2, str "{\"id\":[1,\"]\"]}"⟩ (by decide) (by decide) (.inl ⟨.inl (by decide), exCrs_json⟩)
  refine ⟨text, w', h1, h2, ?_⟩
  have h6 := h6 (by decide) (.inl (by decide))
  cases w'; simp_all

/-! ## C46 -/

/-- **C46** (part). A text followed by a byte that may be read, as are the strings of C, is viewed without reading anything else, and the
result does not depend on that byte. -/
theorem C46_terminated_partial (text : List Byte) (n : Nat) (c c' : Byte) :
    metadataViewInit (some c) n text ≠ .oob ∧ metadataViewInit (some c) n text = metadataViewInit (some c') n text := by
  rcases metadata_agree c n text with ⟨h1, h2⟩ | ⟨h1, h2⟩ <;> rcases metadata_agree c' n text with ⟨h3, h4⟩ | ⟨h3, h4⟩
  · exact ⟨h2 ▸ h1, h2.trans h4.symm⟩
  · exact absurd h3 h1
  · exact absurd h1 h3
  · exact ⟨by rw [h2]; simp, h2.trans h4.symm⟩

/-- **C46** (part). A text of which something behind the end is read is not metadata: were that byte readable, an error would be
returned. All other texts are viewed alike whether or not the byte behind them may be read. -/
theorem C46_only_bad_texts_read_behind (text : List Byte) (n : Nat) (c : Byte) :
    (metadataViewInit none n text = .oob → metadataViewInit (some c) n text = .err) ∧
    (metadataViewInit none n text ≠ .oob → metadataViewInit none n text = metadataViewInit (some c) n text) := by
  rcases metadata_agree c n text with ⟨h1, h2⟩ | ⟨h1, h2⟩
  · exact ⟨fun h => absurd h h1, fun _ => h2.symm⟩
  · exact ⟨fun _ => h2, fun h => absurd h1 h⟩

/-- **C46** (part). Viewing a text without a NUL returns: no loop is entered more often than the text has bytes, plus one, at any
level of nesting, and further turns would change nothing. -/
theorem C46_returns_partial (text : List Byte) (h0 : (0 : Byte) ∉ text) (after : Option Byte) (n : Nat) (hn : text.length < n) :
    metadataViewInit after n text ≠ .stuck ∧ metadataViewInit after n text = metadataViewInit after (text.length + 1) text := by
  refine ⟨metadata_returns after n text h0 hn, ?_⟩
  obtain ⟨k, rfl⟩ : ∃ k, n = text.length + 1 + k := ⟨n - (text.length + 1), by omega⟩
  exact metadata_more after _ text (metadata_returns after _ text h0 (by omega)) k

/-- The number of turns is not what decides a result: once there is one, it stays. -/
theorem C46_steps (text : List Byte) (after : Option Byte) (n k : Nat) (h : metadataViewInit after n text ≠ .stuck) :
    metadataViewInit after (n + k) text = metadataViewInit after n text := metadata_more after n text h k

/-- **C46** fails: a NUL within an array or object makes the loop run for ever, here for `{"a":[` and a NUL. -/
theorem C46_hangs : Hangs (str "{\"a\":[" ++ [0]) := by
  intro n after
  have hl : ∀ k, nestLoop after k false [0] = .stuck := by
    intro k
    induction k with
    | zero => rfl
    | succ k ih => exact ih
  cases n with
  | zero => rfl
  | succ n =>
    have hv : findValue after n (str "[" ++ [0]) = .stuck := by
      have : findValue after n (str "[" ++ [0]) = (nestLoop after n false [0]).bind fun _ rest => .ok (taken (str "[" ++ [0]) rest) rest := rfl
      rw [this, hl]; rfl
    have hrun : metadataViewInit after (n + 1) (str "{\"a\":[" ++ [0]) =
      ((findValue after n (str "[" ++ [0])).bind fun v s3 =>
        match applyPair (str "\"a\"") v ⟨0, 0, []⟩ with
        | none => .err
        | some w' =>
          match (skipUntil [44, 125] s3).2 with
          | [] => pastEnd after
          | d :: s4 => if d = 44 then jsonLoop after n w' s4 else jsonLoop after n w' (d :: s4)).bind fun w1 s =>
      if skipSpace s ≠ [] then .err
      else .ok (if w1.crs.length = 0 then { w1 with crsType := 0 } else w1) [] := rfl
    rw [hrun, hv]; rfl

/-- **C46** fails: of a text that ends after a colon, after a comma, or after a value, the byte behind is read. -/
theorem C46_reads_behind : ReadsBehind (str "{\"a\":") ∧ ReadsBehind (str "{\"a\":null, ") ∧ ReadsBehind (str "{\"a\":null") :=
  ⟨⟨3, by decide +kernel⟩, ⟨3, by decide +kernel⟩, ⟨3, by decide +kernel⟩⟩

example : metadataViewInit (some 0) 40 (str " {\"crs\": {\"a\": [1]}, \"edges\":\"karney\"} ") = .ok ⟨5, 1, str "{\"a\": [1]}"⟩ [] ∧
    metadataViewInit none 3 (str "{\"a\": nul}") = .err := by decide +kernel

/-! ## C47 -/

/-- Well-formed members of which all with the key `edges` have this value, and all with the key `crs` have that. -/
def MembersOk (ms : List Member) (edgeName crs : List Byte) : Prop :=
  (∀ m ∈ ms, m.Ok) ∧ (∀ m ∈ ms, m.key = str "edges" → m.value = [34] ++ edgeName ++ [34]) ∧
  (∀ m ∈ ms, m.key = str "crs" → m.value = crs)

/-- **C47**, the rule: the CRS type of an object that has a `crs` (an object or a string) and a `crs_type` (a string) is decided by the
length of the latter alone, whatever other members there are, in whatever order and with whatever spaces. The edge type and the CRS
are those given. -/
theorem C47_by_length (ms : List Member) (s s' edgeName crs name : List Byte) (e : Int) (hs : IsSpaces s) (hs' : IsSpaces s')
    (hms : MembersOk ms edgeName crs) (he : EdgeNamed edgeName e) (hcrs : crs.head? = some 123 ∨ crs.head? = some 34)
    (hname : ∀ m ∈ ms, m.key = str "crs_type" → m.value = [34] ++ name ++ [34])
    (h1 : ∃ m ∈ ms, m.key = str "crs") (h2 : ∃ m ∈ ms, m.key = str "crs_type") :
    Views (metadataText s ms s') ⟨if ∃ m ∈ ms, m.key = str "edges" then e else 0,
      if name.length = 8 then 2 else if name.length = 9 then 3 else if name.length = 14 then 4 else if name.length = 4 then 5 else 1, crs⟩ := by
  obtain ⟨hok, hed, hcr⟩ := hms
  have hf := members_fold ms e
    (if name.length = 8 then 2 else if name.length = 9 then 3 else if name.length = 14 then 4 else if name.length = 4 then 5 else 1)
    (by repeat' split
        all_goals decide) crs hcrs
    (fun m hm hk => by rw [hed m hm hk]; exact edge_names he) hcr (fun m hm hk => by rw [hname m hm hk]; exact type_length name) ⟨0, 0, []⟩
  have hv := metadata_views s ms s' hs hs' (fun m hm => (hok m hm).reads) _ hf
  have hne : crs ≠ [] := by rintro rfl; rcases hcrs with h | h <;> cases h
  simp only [h1, h2, if_true, hne, if_false] at hv
  exact hv

/-- **C47** (part). The four names give their CRS types.

Missing: "exactly when"; other words give those types too, see `C47_witness`. -/
theorem C47_names_partial (ms : List Member) (s s' edgeName crs name : List Byte) (e t : Int) (hs : IsSpaces s) (hs' : IsSpaces s')
    (hms : MembersOk ms edgeName crs) (he : EdgeNamed edgeName e) (hcrs : crs.head? = some 123 ∨ crs.head? = some 34)
    (ht : CrsTypeNamed name t) (hname : ∀ m ∈ ms, m.key = str "crs_type" → m.value = [34] ++ name ++ [34])
    (h1 : ∃ m ∈ ms, m.key = str "crs") (h2 : ∃ m ∈ ms, m.key = str "crs_type") :
    Views (metadataText s ms s') ⟨if ∃ m ∈ ms, m.key = str "edges" then e else 0, t, crs⟩ := by
  have := C47_by_length ms s s' edgeName crs name e hs hs' hms he hcrs hname h1 h2
  unfold CrsTypeNamed at ht
  rcases ht with ⟨rfl, rfl⟩ | ⟨rfl, rfl⟩ | ⟨rfl, rfl⟩ | ⟨rfl, rfl⟩ <;> simpa [str] using this

/-- Without `crs_type` the type is UNKNOWN; without `crs` it is NONE, whatever `crs_type` says. -/
theorem C47_absent (ms : List Member) (s s' edgeName crs name : List Byte) (e : Int) (hs : IsSpaces s) (hs' : IsSpaces s')
    (hms : MembersOk ms edgeName crs) (he : EdgeNamed edgeName e) (hcrs : crs.head? = some 123 ∨ crs.head? = some 34)
    (hname : ∀ m ∈ ms, m.key = str "crs_type" → m.value = [34] ++ name ++ [34]) :
    ((∃ m ∈ ms, m.key = str "crs") → (¬ ∃ m ∈ ms, m.key = str "crs_type") →
      Views (metadataText s ms s') ⟨if ∃ m ∈ ms, m.key = str "edges" then e else 0, 1, crs⟩) ∧
    ((¬ ∃ m ∈ ms, m.key = str "crs") → Views (metadataText s ms s') ⟨if ∃ m ∈ ms, m.key = str "edges" then e else 0, 0, []⟩) := by
  obtain ⟨hok, hed, hcr⟩ := hms
  have hf := members_fold ms e
    (if name.length = 8 then 2 else if name.length = 9 then 3 else if name.length = 14 then 4 else if name.length = 4 then 5 else 1)
    (by repeat' split
        all_goals decide) crs hcrs
    (fun m hm hk => by rw [hed m hm hk]; exact edge_names he) hcr (fun m hm hk => by rw [hname m hm hk]; exact type_length name) ⟨0, 0, []⟩
  have hv := metadata_views s ms s' hs hs' (fun m hm => (hok m hm).reads) _ hf
  have hne : crs ≠ [] := by rintro rfl; rcases hcrs with h | h <;> cases h
  refine ⟨fun h1 h2 => ?_, fun h1 => ?_⟩
  · simp only [h1, h2, if_true, hne, if_false, and_self] at hv
    exact hv
  · simp only [h1, if_false, if_true] at hv
    exact hv

/-- Metadata of length zero stand for planar edges and no CRS. -/
theorem C47_empty : Views [] ⟨0, 0, []⟩ := ⟨0, fun _ _ _ => rfl⟩

/-- A last member `"crs": null` makes the type NONE, whatever `crs_type` says; the text of a `crs` given before it is kept in the view. -/
theorem C47_null (ms : List Member) (m : Member) (s s' edgeName crs name : List Byte) (e : Int) (hs : IsSpaces s) (hs' : IsSpaces s')
    (hms : MembersOk ms edgeName crs) (he : EdgeNamed edgeName e) (hcrs : crs.head? = some 123 ∨ crs.head? = some 34)
    (hname : ∀ m ∈ ms, m.key = str "crs_type" → m.value = [34] ++ name ++ [34])
    (hm : m.Ok) (hk : m.key = str "crs") (hv : m.value = str "null") :
    Views (metadataText s (ms ++ [m]) s')
      ⟨if ∃ m ∈ ms, m.key = str "edges" then e else 0, 0, if ∃ m ∈ ms, m.key = str "crs" then crs else []⟩ := by
  obtain ⟨hok, hed, hcr⟩ := hms
  have hf := members_fold ms e
    (if name.length = 8 then 2 else if name.length = 9 then 3 else if name.length = 14 then 4 else if name.length = 4 then 5 else 1)
    (by repeat' split
        all_goals decide) crs hcrs
    (fun m hm hk => by rw [hed m hm hk]; exact edge_names he) hcr (fun m hm hk => by rw [hname m hm hk]; exact type_length name) ⟨0, 0, []⟩
  have hn : ∀ w : MdView, applyPair ([34] ++ m.key ++ [34]) m.value w = some { w with crsType := 0 } := by
    intro w
    rw [hk, hv]
    rfl
  have hv := metadata_views s (ms ++ [m]) s' hs hs' (by
    intro x hx
    rcases List.mem_append.mp hx with hx | hx
    · exact (hok x hx).reads
    · rw [List.mem_singleton.mp hx]; exact hm.reads)
    ⟨if ∃ m ∈ ms, m.key = str "edges" then e else 0, 0, if ∃ m ∈ ms, m.key = str "crs" then crs else []⟩ (by
    rw [List.foldlM_append, hf, Option.bind_eq_bind, Option.bind_some, List.foldlM_cons, hn]
    rfl)
  dsimp only at hv
  rw [ite_self] at hv
  exact hv
example : Views (str "{\"crs\":\"x\",\"crs\":null}") ⟨0, 0, str "\"x\""⟩ ∧ Views (str "{\"crs_type\":\"srid\",\"crs\":null}") ⟨0, 0, []⟩ := by
  refine ⟨⟨4, fun n hn after => ?_⟩, ⟨4, fun n hn after => ?_⟩⟩ <;>
  · obtain ⟨k, rfl⟩ : ∃ k, n = k + 4 := ⟨n - 4, by omega⟩
    rfl

/-- **C47** fails: another word of eight letters is taken for PROJJSON. -/
theorem C47_witness : Views (str "{\"crs\":\"x\",\"crs_type\":\"whatever\"}") ⟨0, 2, str "\"x\""⟩ ∧ ¬ ∃ t, CrsTypeNamed (str "whatever") t := by
  refine ⟨⟨4, fun n hn after => ?_⟩, ?_⟩
  · obtain ⟨k, rfl⟩ : ∃ k, n = k + 4 := ⟨n - 4, by omega⟩
    rfl
  · rintro ⟨t, h⟩
    unfold CrsTypeNamed at h
    rcases h with ⟨h, -⟩ | ⟨h, -⟩ | ⟨h, -⟩ | ⟨h, -⟩ <;> exact absurd h (by decide)

/-- Metadata with a member of another kind, spaces, and `crs_type` after `crs`. -/
def exMembers : List Member :=
  [⟨[10], str "other", [], [32], str "null", [32]⟩, ⟨[32], str "crs", [32], [9], str "{\"id\":[1,\"]\"]}", []⟩,
   ⟨[], str "edges", [], [], str "\"thomas\"", []⟩, ⟨[], str "crs_type", [], [], str "\"projjson\"", [13]⟩]
theorem exMembers_ok : MembersOk exMembers (str "thomas") (str "{\"id\":[1,\"]\"]}") := by
  have sp : ∀ w : List Byte, (∀ c ∈ w, c = 32 ∨ c = 9 ∨ c = 10 ∨ c = 13) → IsSpaces w := fun _ h => h
  refine ⟨?_, ?_, ?_⟩
  · intro m hm
    simp only [exMembers, List.mem_cons, List.not_mem_nil, or_false] at hm
    rcases hm with rfl | rfl | rfl | rfl
    · refine ⟨sp _ (by decide), stringText_of (by decide), sp _ (by decide), sp _ (by decide), .word (by decide) ?_, sp _ (by decide), by decide⟩
      show ∀ c ∈ str "null", IsWordChar c
      unfold IsWordChar; decide
    · exact ⟨sp _ (by decide), stringText_of (by decide), sp _ (by decide), sp _ (by decide), exCrs_json, sp _ (by decide), by decide⟩
    · exact ⟨sp _ (by decide), stringText_of (by decide), sp _ (by decide), sp _ (by decide), .string (w := str "thomas") (stringText_of (by decide)), sp _ (by decide), by decide⟩
    · exact ⟨sp _ (by decide), stringText_of (by decide), sp _ (by decide), sp _ (by decide), .string (w := str "projjson") (stringText_of (by decide)), sp _ (by decide), by decide⟩
  · decide
  · decide
example : Views (metadataText [32] exMembers [10]) ⟨3, 2, str "{\"id\":[1,\"]\"]}"⟩ :=
  C47_names_partial exMembers [32] [10] (str "thomas") _ (str "projjson") 3 2 (by intro c h; simp at h; simp [h]) (by intro c h; simp at h; simp [h])
    exMembers_ok (by simp [EdgeNamed]) (.inl (by decide)) (by simp [CrsTypeNamed]) (by decide) (by decide) (by decide)

/-! ## C48 -/

/-- **C48**. Unescaping a quoted text, in which quotes and backslashes were escaped, gives the text: as much of it as fits into the
buffer and a terminator if there is room; its length is returned. That of a text that is not quoted, or of none, gives the same. -/
theorem C48_unescape (text : List Byte) : CrsText (jsonQuote text) text ∧ (text.head? ≠ some 34 → CrsText text text) :=
  ⟨unescapeCrs_text (unescaped_quote text), unescapeCrs_plain text⟩

/-- Without a buffer the length is returned. -/
theorem C48_length (text : List Byte) : unescapeCrs (jsonQuote text) none 0 = some (none, (text.length : Int)) :=
  unescapeCrs_null (unescaped_quote text)

/-- For any other quoted text, what comes out is the text without the backslashes that escape something; in particular the escapes of
JSON that stand for other characters are not decoded. -/
theorem C48_other_escapes (quoted text : List Byte) (h : Unescaped quoted text) : CrsText ([34] ++ quoted ++ [34]) text := unescapeCrs_text h

example : unescapeCrs (str "\"a\\\\\\\"b\"") (some (List.replicate 6 63)) 6 = some (some (str "a\\\"b" ++ [0, 63]), 4) ∧
    unescapeCrs (str "\"a\\\\\\\"b\"") (some (List.replicate 3 63)) 3 = some (some (str "a\\\""), 4) ∧
    jsonQuote (str "a\\\"b") = str "\"a\\\\\\\"b\"" := by decide
/-- A line break, escaped, comes out as the letter `n`. -/
example : CrsText (str "\"a\\nb\"") (str "anb") :=
  C48_other_escapes (str "a\\nb") (str "anb") (.plain (by decide) (by decide) (.escape (.plain (by decide) (by decide) .nil)))

end Verif
