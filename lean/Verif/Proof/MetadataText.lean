import Verif.Proof.MetadataJson
/-!
# Proofs about serialising metadata and unescaping
-/
namespace Verif
open Spec

/-! ## Unescaping -/

theorem take_write {α : Type} (out : List α) (i : Nat) (c : α) (h : i < out.length) :
    (out.take i ++ [c] ++ out.drop (i + 1)).take (i + 1) = out.take i ++ [c] := by
  have : (out.take i ++ [c]).length = i + 1 := by simp; omega
  rw [List.take_append_of_le_length (by omega), List.take_of_length_le (by omega)]

theorem drop_write {α : Type} (out : List α) (i : Nat) (c : α) (h : i < out.length) (k : Nat) :
    (out.take i ++ [c] ++ out.drop (i + 1)).drop (i + 1 + k) = out.drop (i + 1 + k) := by
  have : (out.take i ++ [c]).length = i + 1 := by simp; omega
  rw [← this, ← List.drop_drop, List.drop_left, List.drop_drop]

theorem unescape_run {w u : List Byte} (h : Unescaped w u) : ∀ (out : List Byte) (i : Nat),
    unescapeLoop out.length w false out i = some (out.take i ++ u.take (out.length - i) ++ out.drop (i + u.length), i + u.length) := by
  have step : ∀ (c : Byte) (w u : List Byte), (∀ (out : List Byte) (i : Nat),
      unescapeLoop out.length w false out i = some (out.take i ++ u.take (out.length - i) ++ out.drop (i + u.length), i + u.length)) →
      ∀ (out : List Byte) (i : Nat), ((if (i : Int) < (out.length : Int) then writeAt out i [c] else some out).bind
        fun out' => unescapeLoop out.length w false out' (i + 1)) =
      some (out.take i ++ (c :: u).take (out.length - i) ++ out.drop (i + (c :: u).length), i + (c :: u).length) := by
    intro c w u ih out i
    by_cases hi : i < out.length
    · have hi' : (i : Int) < (out.length : Int) := by omega
      have hl : (out.take i ++ [c] ++ out.drop (i + 1)).length = out.length := by simp; omega
      rw [if_pos hi', writeAt, if_pos (by simp; omega)]
      simp only [Option.bind_some, List.length_singleton]
      rw [← hl, ih, hl, take_write _ _ _ hi, drop_write _ _ _ hi]
      obtain ⟨k, hk⟩ : ∃ k, out.length - i = k + 1 := ⟨out.length - i - 1, by omega⟩
      have hk' : out.length - (i + 1) = k := by omega
      rw [hk, hk']
      simp [Nat.add_assoc, Nat.add_comm 1]
    · have hi' : ¬ (i : Int) < (out.length : Int) := by omega
      rw [if_neg hi']
      simp only [Option.bind_some]
      rw [ih]
      have h1 : out.length - (i + 1) = 0 := by omega
      have h2 : out.length - i = 0 := by omega
      have e1 : ∀ k, List.drop (i + k) out = [] := fun k => List.drop_of_length_le (by omega)
      have e2 : List.drop (i + 1 + u.length) out = [] := List.drop_of_length_le (by omega)
      have e3 : List.take i out = out := List.take_of_length_le (by omega)
      have e4 : List.take (i + 1) out = out := List.take_of_length_le (by omega)
      rw [h1, h2, e1, e2, e3, e4]
      simp [Nat.add_assoc, Nat.add_comm 1]
  induction h with
  | nil => intro out i; simp [unescapeLoop]
  | @plain c w u h1 h2 _ ih =>
    intro out i
    rw [← step c w u ih out i, unescapeLoop]
    simp only [h2, decide_false, Bool.and_false, Bool.false_eq_true, if_false]
    split <;> rfl
  | @escape c w u _ ih =>
    intro out i
    rw [← step c w u ih out i, unescapeLoop]
    simp only [Bool.not_false, decide_true, Bool.and_true, if_true]
    rw [unescapeLoop]
    simp only [Bool.not_true, Bool.false_and, Bool.false_eq_true, if_false]
    split <;> rfl

/-- The number of characters does not depend on the buffer. -/
theorem unescape_count {w u : List Byte} (h : Unescaped w u) : ∀ i, unescapeLoop 0 w false [] i = some ([], i + u.length) := by
  intro i
  have := unescape_run h [] i
  simpa using this

theorem quoted_take (w : List Byte) : (w ++ [34]).take (([34] ++ w ++ [34] : List Byte).length - 2) = w := by
  have : ([34] ++ w ++ [34] : List Byte).length - 2 = w.length := by simp
  rw [this, List.take_left]

theorem unescapeCrs_text {w u : List Byte} (h : Unescaped w u) : CrsText ([34] ++ w ++ [34]) u := by
  intro out
  have e : [34] ++ w ++ [34] = (34 : Byte) :: (w ++ [34]) := rfl
  have q := quoted_take w
  rw [e] at q ⊢
  rw [unescapeCrs]
  simp only [ne_eq, not_true, if_false, q, unescape_run h, Option.map_some, List.take_zero, List.nil_append, Nat.sub_zero, Nat.zero_add,
    Option.bind_eq_bind, Option.bind_some]
  unfold filled
  by_cases hl : u.length < out.length
  · have hl' : (u.length : Int) < (out.length : Int) := by omega
    rw [if_pos hl', if_pos hl, List.take_of_length_le (by omega), writeAt, if_pos (by simp; omega)]
    rw [List.take_left]
    have : List.drop (u.length + [(0 : Byte)].length) (u ++ List.drop u.length out) = out.drop (u.length + 1) := by
      rw [← List.drop_drop, List.drop_left, List.drop_drop]; rfl
    rw [this]; rfl
  · have hl' : ¬ (u.length : Int) < (out.length : Int) := by omega
    rw [if_neg hl', if_neg hl, List.drop_of_length_le (by omega)]
    simp

theorem unescapeCrs_null {w u : List Byte} (h : Unescaped w u) : unescapeCrs ([34] ++ w ++ [34]) none 0 = some (none, (u.length : Int)) := by
  have e : [34] ++ w ++ [34] = (34 : Byte) :: (w ++ [34]) := rfl
  rw [e, unescapeCrs]
  simp [unescape_count h]

theorem unescapeCrs_plain (t : List Byte) (h : t.head? ≠ some 34) : CrsText t t := by
  intro out
  cases t with
  | nil =>
    rw [unescapeCrs]
    cases out with
    | nil => simp [filled]
    | cons c out =>
      have : (0 : Int) < ((c :: out).length : Int) := by simp
      rw [if_pos this]
      simp [writeAt, filled, Nat.add_comm]
  | cons c t =>
    have hc : c ≠ 34 := by simpa using h
    rw [unescapeCrs, if_pos hc]
    unfold filled
    by_cases hl : (c :: t).length < out.length
    · have hl' : ((c :: t).length : Int) < (out.length : Int) := by omega
      rw [if_pos hl', if_pos hl]
      simp only [Option.bind_eq_bind, Option.bind_some]
      have hle : 0 + (c :: t ++ [0]).length ≤ out.length := by simp at hl ⊢; omega
      rw [writeAt, if_pos hle]
      simp
    · have hl' : ¬ ((c :: t).length : Int) < (out.length : Int) := by omega
      rw [if_neg hl', if_neg hl]
      simp only [Option.bind_eq_bind]
      have ht : (out.length : Int).toNat = out.length := by omega
      rw [ht]
      have hle : 0 + ((c :: t).take out.length).length ≤ out.length := by simp; omega
      rw [writeAt, if_pos hle]
      have : List.drop (0 + ((c :: t).take out.length).length) out = [] := by
        apply List.drop_of_length_le; simp at hl ⊢; omega
      rw [this]
      simp

theorem unescaped_quote (text : List Byte) : Unescaped (text.flatMap fun c => if c = 34 ∨ c = 92 then [92, c] else [c]) text := by
  induction text with
  | nil => exact .nil
  | cons c t ih =>
    rw [List.flatMap_cons]
    by_cases h : c = 34 ∨ c = 92
    · rw [if_pos h]; exact .escape ih
    · rw [if_neg h]; exact .plain (fun e => h (.inl e)) (fun e => h (.inr e)) ih

theorem unescaped_escapeQuotes {t : List Byte} (h : (92 : Byte) ∉ t) : Unescaped (escapeQuotes t) t := by
  have : escapeQuotes t = t.flatMap fun c => if c = 34 ∨ c = 92 then [92, c] else [c] := by
    induction t with
    | nil => rfl
    | cons c t ih =>
      have hc : c ≠ 92 := fun e => h (by simp [e])
      have ih := ih fun e => h (List.mem_cons_of_mem _ e)
      unfold escapeQuotes at ih ⊢
      have hc' : c ≠ 92#8 := hc
      rw [List.flatMap_cons, List.flatMap_cons, ih]
      simp [hc']
  rw [this]; exact unescaped_quote t

theorem unescaped_stringText {w u : List Byte} (h : Unescaped w u) : StringText w := by
  induction h with
  | nil => exact .nil
  | plain h1 h2 _ ih => exact .plain h1 h2 ih
  | escape _ ih => exact .escape ih

/-! ## Serialising -/

/-- The backslashes of a CRS that is written as a string. -/
def countBackslashes (w : MdView) : Nat := if w.crsType ≠ 0 ∧ needsEscape w.crs = true then w.crs.count 92 else 0

theorem escape_count (t : List Byte) :
    (escapeQuotes t).length + t.count 92 = t.length + (t.filter fun c => c = 92 || c = 34).length := by
  induction t with
  | nil => rfl
  | cons c t ih =>
    unfold escapeQuotes at ih ⊢
    rw [List.flatMap_cons, List.length_append, List.count_cons, List.filter_cons]
    by_cases h1 : c = 34
    · subst h1
      have : ((92 : Byte) == 34) = false := by decide
      simp at ih ⊢; omega
    · by_cases h2 : c = 92
      · subst h2; simp at ih ⊢; omega
      · have h1' : c ≠ 34#8 := h1
        have h2' : c ≠ 92#8 := h2
        simp [h1', h2'] at ih ⊢; omega

theorem mdSize_bytes (w : MdView) : mdSize w = (mdBytes w).length + countBackslashes w := by
  have hc := escape_count w.crs
  have l1 : (str "\"edges\":").length = 8 := by decide
  have l2 : (str "\"crs_type\":").length = 11 := by decide
  have l3 : (str "\"crs\":").length = 6 := by decide
  unfold mdSize mdBytes countBackslashes
  by_cases h1 : w.edge = 0 <;> by_cases h2 : w.crsType = 0 <;> by_cases h3 : w.crsType = 1 <;> by_cases h4 : needsEscape w.crs = true <;>
    simp [h1, h2, h3, h4, l1, l2, l3] at hc ⊢ <;> omega

/-- Serialising, whatever the CRS. -/
theorem mdSerialize_run (w : MdView) (out : List Byte) : ∃ out', mdSerialize w out out.length = some (out', (mdSize w : Int)) ∧
    out'.length = out.length ∧ (out.length < mdSize w → out' = out) ∧
    (mdSize w ≤ out.length → out' = mdBytes w ++ (out.drop (mdBytes w).length).take (countBackslashes w) ++
      (if mdSize w < out.length then [0] ++ out.drop (mdSize w + 1) else [])) := by
  have hs := mdSize_bytes w
  unfold mdSerialize
  simp only [Option.bind_eq_bind, pure]
  by_cases h1 : mdSize w ≤ out.length
  · have h1' : (mdSize w : Int) ≤ (out.length : Int) := by omega
    rw [if_pos h1', writeAt, if_pos (by omega)]
    simp only [Option.bind_some, List.take_zero, List.nil_append, Nat.zero_add]
    by_cases h2 : mdSize w < out.length
    · have h2' : (mdSize w : Int) < (out.length : Int) := by omega
      have hl : (mdBytes w ++ List.drop (mdBytes w).length out).length = out.length := by simp; omega
      rw [if_pos h2', writeAt, if_pos (by rw [hl]; simp; omega)]
      simp only [Option.bind_some]
      refine ⟨_, rfl, ?_, fun h => by omega, fun _ => ?_⟩
      · simp; omega
      · rw [if_pos h2]
        have t1 : (mdBytes w ++ List.drop (mdBytes w).length out).take (mdSize w) =
            mdBytes w ++ (out.drop (mdBytes w).length).take (countBackslashes w) := by
          rw [hs, List.take_append, List.take_of_length_le (by omega)]
          congr 2; omega
        have t2 : (mdBytes w ++ List.drop (mdBytes w).length out).drop (mdSize w + [(0 : Byte)].length) = out.drop (mdSize w + 1) := by
          rw [List.drop_append, List.drop_of_length_le (by omega), List.drop_drop]
          simp only [List.nil_append, List.length_singleton]
          congr 1; omega
        rw [t1, t2]; simp
    · have h2' : ¬ (mdSize w : Int) < (out.length : Int) := by omega
      rw [if_neg h2']
      refine ⟨_, rfl, ?_, fun h => by omega, fun _ => ?_⟩
      · simp; omega
      · rw [if_neg h2, List.append_nil, List.take_of_length_le (by simp; omega)]
  · have h1' : ¬ (mdSize w : Int) ≤ (out.length : Int) := by omega
    have h2' : ¬ (mdSize w : Int) < (out.length : Int) := by omega
    rw [if_neg h1', Option.bind_some, if_neg h2', Option.bind_some]
    exact ⟨out, rfl, rfl, fun _ => rfl, fun h => by omega⟩

theorem serialized_bytes (w : MdView) (h : countBackslashes w = 0) : MdSerialized w (mdBytes w) := by
  intro out
  obtain ⟨out', h1, h2, h3, h4⟩ := mdSerialize_run w out
  have hs := mdSize_bytes w
  rw [h, Nat.add_zero] at hs
  rw [h1, hs]
  congr 2
  rw [hs, h] at h4
  rw [hs] at h3
  by_cases hl : (mdBytes w).length ≤ out.length
  · rw [if_pos hl, h4 hl]
    unfold filled
    by_cases h5 : (mdBytes w).length < out.length
    · rw [if_pos h5, if_pos h5]; simp
    · rw [if_neg h5, if_neg h5, List.take_of_length_le (l := mdBytes w) (by omega)]; simp
  · rw [if_neg hl]; exact h3 (by omega)

/-! ## Reading back what was written -/

theorem stringText_of {w : List Byte} (h : ∀ c ∈ w, c ≠ 34 ∧ c ≠ 92) : StringText w := by
  induction w with
  | nil => exact .nil
  | cons c w ih => exact .plain (h c (by simp)).1 (h c (by simp)).2 (ih fun d hd => h d (List.mem_cons_of_mem _ hd))

/-- A member without spaces. -/
def bareMember (k v : List Byte) : Member := ⟨[], k, [], [], v, []⟩

theorem scans_string {w : List Byte} (h : StringText w) : Scans ([34] ++ w ++ [34]) := scans_json (.string h) (.inr (.inr (.inl rfl)))

theorem bareMember_reads {k v : List Byte} (hk : StringText k) (hv : Scans v) : (bareMember k v).Reads :=
  ⟨by simp [bareMember, IsSpaces], hk, by simp [bareMember, IsSpaces], by simp [bareMember, IsSpaces], hv, by simp [bareMember, IsSpaces]⟩

/-- The members that are written. -/
def writtenMembers (w : MdView) : List Member :=
  (if w.edge ≠ 0 then [bareMember (str "edges") ([34] ++ edgeString w.edge ++ [34])] else []) ++
  (if w.crsType ≠ 1 ∧ w.crsType ≠ 0 then [bareMember (str "crs_type") ([34] ++ crsTypeString w.crsType ++ [34])] else []) ++
  (if w.crsType ≠ 0 then [bareMember (str "crs") (if needsEscape w.crs then [34] ++ escapeQuotes w.crs ++ [34] else w.crs)] else [])

theorem written_text (w : MdView) : mdBytes w = metadataText [] (writtenMembers w) [] := by
  have l1 : str "\"edges\":" = [34] ++ str "edges" ++ [34] ++ [58] := by decide
  have l2 : str "\"crs_type\":" = [34] ++ str "crs_type" ++ [34] ++ [58] := by decide
  have l3 : str "\"crs\":" = [34] ++ str "crs" ++ [34] ++ [58] := by decide
  unfold mdBytes writtenMembers metadataText
  rw [l1, l2, l3]
  by_cases h1 : w.edge = 0 <;> by_cases h2 : w.crsType = 0 <;> by_cases h3 : w.crsType = 1 <;> by_cases h4 : needsEscape w.crs = true <;>
    simp [h1, h2, h3, h4, membersText, bareMember, Member.text]

/-! ## What the members come to -/

theorem quoted_inj {k : List Byte} {name : String} {q : String} (hq : str q = [34] ++ str name ++ [34]) :
    [34] ++ k ++ [34] = str q ↔ k = str name := by
  rw [hq]
  constructor
  · intro h
    have h : (34 : Byte) :: (k ++ [34]) = 34 :: (str name ++ [34]) := h
    exact List.append_cancel_right (List.cons.inj h).2
  · rintro rfl; rfl

theorem applyPair_edges (v : List Byte) (w : MdView) :
    applyPair ([34] ++ str "edges" ++ [34]) v w = (edgeOf v).map fun e => { w with edge := e } := by
  rw [applyPair, if_pos (by decide)]

theorem applyPair_crs {v : List Byte} (hv : v.head? = some 123 ∨ v.head? = some 34) (w : MdView) :
    applyPair ([34] ++ str "crs" ++ [34]) v w = some { w with crs := v, crsType := if w.crsType = 0 then 1 else w.crsType } := by
  rw [applyPair, if_neg (by decide), if_pos (by decide), if_pos hv]

theorem applyPair_type (v : List Byte) (w : MdView) :
    applyPair ([34] ++ str "crs_type" ++ [34]) v w = (crsTypeOf v).map fun t => { w with crsType := t } := by
  rw [applyPair, if_neg (by decide), if_neg (by decide), if_pos (by decide)]

theorem applyPair_other {k : List Byte} (h1 : k ≠ str "edges") (h2 : k ≠ str "crs") (h3 : k ≠ str "crs_type") (v : List Byte) (w : MdView) :
    applyPair ([34] ++ k ++ [34]) v w = some w := by
  rw [applyPair, if_neg (fun h => h1 ((quoted_inj (by decide)).mp h)), if_neg (fun h => h2 ((quoted_inj (by decide)).mp h)),
    if_neg (fun h => h3 ((quoted_inj (by decide)).mp h))]

/-- The view that members give if all members with the same key have the same value. -/
theorem members_fold (ms : List Member) (e t : Int) (ht : t ≠ 0) (v : List Byte) (hv : v.head? = some 123 ∨ v.head? = some 34)
    (h1 : ∀ m ∈ ms, m.key = str "edges" → edgeOf m.value = some e)
    (h2 : ∀ m ∈ ms, m.key = str "crs" → m.value = v)
    (h3 : ∀ m ∈ ms, m.key = str "crs_type" → crsTypeOf m.value = some t) : ∀ w : MdView,
    ms.foldlM (fun w m => applyPair ([34] ++ m.key ++ [34]) m.value w) w = some
      ⟨if ∃ m ∈ ms, m.key = str "edges" then e else w.edge,
       if ∃ m ∈ ms, m.key = str "crs_type" then t else if (∃ m ∈ ms, m.key = str "crs") ∧ w.crsType = 0 then 1 else w.crsType,
       if ∃ m ∈ ms, m.key = str "crs" then v else w.crs⟩ := by
  induction ms with
  | nil => intro w; simp
  | cons m ms ih =>
    intro w
    have ih := ih (fun x hx => h1 x (List.mem_cons_of_mem _ hx)) (fun x hx => h2 x (List.mem_cons_of_mem _ hx))
      (fun x hx => h3 x (List.mem_cons_of_mem _ hx))
    have key : ∀ k, (∃ x ∈ m :: ms, x.key = k) ↔ m.key = k ∨ ∃ x ∈ ms, x.key = k := by intro k; simp
    have d1 : str "edges" ≠ str "crs" := by decide
    have d2 : str "edges" ≠ str "crs_type" := by decide
    have d3 : str "crs" ≠ str "crs_type" := by decide
    rw [List.foldlM_cons]
    simp only [key]
    by_cases k1 : m.key = str "edges"
    · rw [k1, applyPair_edges, h1 m (by simp) k1]
      refine (ih _).trans ?_
      simp only [true_or, if_true, d1, d2, false_or]
      split <;> rfl
    by_cases k2 : m.key = str "crs"
    · rw [k2, h2 m (by simp) k2, applyPair_crs hv]
      refine (ih _).trans ?_
      simp only [true_or, if_true, Ne.symm d1, d3, false_or, true_and]
      have : (1 : Int) ≠ 0 := by decide
      congr 2
      · split
        · rfl
        · by_cases h : w.crsType = 0
          · simp [h]
          · simp [h]
      · split <;> rfl
    by_cases k3 : m.key = str "crs_type"
    · rw [k3, applyPair_type, h3 m (by simp) k3]
      refine (ih _).trans ?_
      simp only [true_or, if_true, Ne.symm d2, Ne.symm d3, false_or, ht, and_false, if_false]
      congr 2
      split <;> rfl
    · rw [applyPair_other k1 k2 k3]
      refine (ih _).trans ?_
      simp only [k1, k2, k3, false_or]

theorem edge_names {name : List Byte} {e : Int} (h : EdgeNamed name e) : edgeOf ([34] ++ name ++ [34]) = some e := by
  unfold EdgeNamed at h
  rcases h with ⟨rfl, rfl⟩ | ⟨rfl, rfl⟩ | ⟨rfl, rfl⟩ | ⟨rfl, rfl⟩ | ⟨rfl, rfl⟩ | ⟨rfl, rfl⟩ <;> decide

theorem type_names {name : List Byte} {t : Int} (h : CrsTypeNamed name t) : crsTypeOf ([34] ++ name ++ [34]) = some t := by
  unfold CrsTypeNamed at h
  rcases h with ⟨rfl, rfl⟩ | ⟨rfl, rfl⟩ | ⟨rfl, rfl⟩ | ⟨rfl, rfl⟩ <;> decide

theorem type_length (name : List Byte) : crsTypeOf ([34] ++ name ++ [34]) = some
    (if name.length = 8 then 2 else if name.length = 9 then 3 else if name.length = 14 then 4 else if name.length = 4 then 5 else 1) := by
  have hl : ([34] ++ name ++ [34] : List Byte).length = name.length + 2 := by simp
  have hh : ([34] ++ name ++ [34] : List Byte).head? = some 34 := rfl
  rw [crsTypeOf, if_pos hh, hl]
  simp only [Nat.reduceEqDiff]
  repeat' split
  all_goals rfl

end Verif
