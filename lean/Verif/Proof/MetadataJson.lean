import Verif.Proof.Metadata
/-!
# Proofs about viewing well-formed metadata
-/
namespace Verif
open Spec

/-! ## Strings -/

theorem stringBody_text {w : List Byte} (h : StringText w) (rest : List Byte) : stringBody false (w ++ 34 :: rest) = some rest := by
  induction h with
  | nil => simp [stringBody]
  | @plain c w h1 h2 _ ih =>
    show stringBody false (c :: (w ++ 34 :: rest)) = _
    simp only [stringBody, h1, h2, decide_false, Bool.and_false, Bool.false_eq_true, if_false, ih]
  | @escape c w _ ih =>
    show stringBody false (92 :: c :: (w ++ 34 :: rest)) = _
    simp only [stringBody, Bool.not_false, Bool.not_true, decide_true, Bool.and_true, Bool.false_and, Bool.false_eq_true, if_true, if_false, ih]

theorem taken_append (t rest : List Byte) : taken (t ++ rest) rest = t := by
  simp [taken]

theorem findString_text (after : Option Byte) {w : List Byte} (h : StringText w) (rest : List Byte) :
    findString after ([34] ++ w ++ [34] ++ rest) = .ok ([34] ++ w ++ [34]) rest := by
  have e : [34] ++ w ++ [34] ++ rest = (34 : Byte) :: (w ++ 34 :: rest) := by simp
  have t := taken_append ([34] ++ w ++ [34]) rest
  rw [e] at t ⊢
  simp only [findString, ne_eq, not_true, if_false, stringBody_text h, t]

/-! ## Nested values -/

/-- The loop over an array or object comes to its end and leaves this. -/
def Loops (obj : Bool) (s r : List Byte) : Prop := ∃ n0, ∀ n, n0 ≤ n → ∀ after, nestLoop after n obj s = .ok () r

/-- A character the loops skip. -/
def Dull (c : Byte) : Prop := c ≠ 0 ∧ c ≠ 34 ∧ c ≠ 91 ∧ c ≠ 93 ∧ c ≠ 123 ∧ c ≠ 125

theorem dull_space {c : Byte} (h : c = 32 ∨ c = 9 ∨ c = 10 ∨ c = 13) : Dull c := by
  rcases h with rfl | rfl | rfl | rfl <;> (unfold Dull; decide)

theorem dull_word {c : Byte} (h : IsWordChar c) : Dull c := by
  unfold IsWordChar at h; unfold Dull
  refine ⟨?_, ?_, ?_, ?_, ?_, ?_⟩ <;> (rintro rfl; revert h; decide)

theorem loops_dull {obj : Bool} {c : Byte} {s r : List Byte} (hc : Dull c) (hs : s ≠ []) (h : Loops obj s r) : Loops obj (c :: s) r := by
  obtain ⟨n0, h⟩ := h
  refine ⟨n0 + 1, fun n hn after => ?_⟩
  obtain ⟨m, rfl⟩ : ∃ m, n = m + 1 := ⟨n - 1, by omega⟩
  rw [← h (m + 1) (by omega) after]
  have hu : skipUntil (nestItems obj) (c :: s) = skipUntil (nestItems obj) s := by
    obtain ⟨h0, h1, h2, h3, h4, h5⟩ := hc
    have hm : (nestItems obj).contains c = false := by
      rw [Bool.eq_false_iff]
      intro hm
      have hm : c ∈ nestItems obj := by simpa using hm
      cases obj
      · have : c = 91 ∨ c = 123 ∨ c = 34 ∨ c = 93 := by simpa [nestItems] using hm
        rcases this with h | h | h | h <;> contradiction
      · have : c = 123 ∨ c = 91 ∨ c = 34 ∨ c = 125 := by simpa [nestItems] using hm
        rcases this with h | h | h | h <;> contradiction
    rw [skipUntil, if_neg h0, hm]
    simp
  conv => lhs; rw [nestLoop]
  conv => rhs; rw [nestLoop]
  rw [hu, if_neg (by simp), if_neg hs]

theorem loops_dulls {obj : Bool} {t s r : List Byte} (ht : ∀ c ∈ t, Dull c) (hs : s ≠ []) (h : Loops obj s r) : Loops obj (t ++ s) r := by
  induction t with
  | nil => exact h
  | cons c t ih =>
    exact loops_dull (ht c (by simp)) (by simp [hs]) (ih fun c hc => ht c (List.mem_cons_of_mem _ hc))

theorem loops_close (obj : Bool) (s : List Byte) : Loops obj ((if obj then 125 else 93) :: s) s := by
  refine ⟨1, fun n hn after => ?_⟩
  obtain ⟨m, rfl⟩ : ∃ m, n = m + 1 := ⟨n - 1, by omega⟩
  rw [nestLoop]
  cases obj <;> simp [skipUntil, nestItems]

theorem loops_string {obj : Bool} {w s r : List Byte} (hw : StringText w) (h : Loops obj s r) : Loops obj ([34] ++ w ++ [34] ++ s) r := by
  obtain ⟨n0, h⟩ := h
  refine ⟨n0 + 1, fun n hn after => ?_⟩
  obtain ⟨m, rfl⟩ : ∃ m, n = m + 1 := ⟨n - 1, by omega⟩
  have hf := findString_text after hw s
  rw [nestLoop, if_neg (by simp)]
  have hu : skipUntil (nestItems obj) ([34] ++ w ++ [34] ++ s) = (true, 34 :: (w ++ [34] ++ s)) := by
    cases obj <;> simp [skipUntil, nestItems]
  rw [hu]
  simp only [if_true]
  have hf' : findString after (34 :: (w ++ [34] ++ s)) = .ok ([34] ++ w ++ [34]) s := by simpa using hf
  rw [hf']
  exact h m (by omega) after

theorem loops_nest {obj : Bool} (o : Bool) {s s' r : List Byte} (h1 : Loops o s s') (h : Loops obj s' r) :
    Loops obj ((if o then 123 else 91) :: s) r := by
  obtain ⟨n0, h⟩ := h
  obtain ⟨n1, h1⟩ := h1
  refine ⟨n0 + n1 + 1, fun n hn after => ?_⟩
  obtain ⟨m, rfl⟩ : ∃ m, n = m + 1 := ⟨n - 1, by omega⟩
  rw [nestLoop, if_neg (by simp)]
  have hu : skipUntil (nestItems obj) ((if o then 123 else 91) :: s) = (true, (if o then 123 else 91) :: s) := by
    cases obj <;> cases o <;> simp [skipUntil, nestItems]
  rw [hu]
  have e1 := h1 m (by omega) after
  have e2 := h m (by omega) after
  cases o with
  | false => simp [e1, PRes.bind, e2]
  | true => simp [e1, PRes.bind, e2]

theorem spaces_dull {s : List Byte} (h : IsSpaces s) : ∀ c ∈ s, Dull c := fun c hc => dull_space (h c hc)

/-- Any JSON text is passed over. -/
theorem json_passed {k : JsonKind} {t : List Byte} (h : Json k t) : ∀ (obj : Bool) (s r : List Byte), s ≠ [] → Loops obj s r → Loops obj (t ++ s) r := by
  induction h with
  | word _ h => exact fun obj s r hs hl => loops_dulls (fun c hc => dull_word (h c hc)) hs hl
  | string h => exact fun obj s r hs hl => loops_string h hl
  | emptyArray h =>
    intro obj s r hs hl
    have := loops_nest false (loops_dulls (obj := false) (s := 93 :: s) (spaces_dull h) (by simp) (loops_close false s)) hl
    simpa using this
  | array _ ih =>
    intro obj s r hs hl
    have := loops_nest false (ih false (93 :: s) s (by simp) (loops_close false s)) hl
    simpa using this
  | emptyObject h =>
    intro obj s r hs hl
    have := loops_nest true (loops_dulls (obj := true) (s := 125 :: s) (spaces_dull h) (by simp) (loops_close true s)) hl
    simpa using this
  | object _ ih =>
    intro obj s r hs hl
    have := loops_nest true (ih true (125 :: s) s (by simp) (loops_close true s)) hl
    simpa using this
  | @element w v w' h1 _ h2 ih =>
    intro obj s r hs hl
    have a := loops_dulls (spaces_dull h2) hs hl
    have b := ih obj _ _ (by simp [hs]) a
    have c := loops_dulls (spaces_dull h1) (by simp [hs]) b
    simpa using c
  | @elements t t' _ _ ih1 ih2 =>
    intro obj s r hs hl
    have a := ih2 obj s r hs hl
    have b : Loops obj (44 :: (t' ++ s)) r := loops_dull (by unfold Dull; decide) (by simp [hs]) a
    simpa using ih1 obj _ r (by simp) b
  | @member w k w' t v t' h1 hk h2 h3 _ h4 ih =>
    intro obj s r hs hl
    have a := loops_dulls (spaces_dull h4) hs hl
    have b := ih obj _ _ (by simp [hs]) a
    have c := loops_dulls (spaces_dull h3) (by simp [hs]) b
    have d : Loops obj (58 :: _) r := loops_dull (by unfold Dull; decide) (by simp [hs]) c
    have e := loops_dulls (spaces_dull h2) (by simp) d
    have f := loops_string hk e
    have g := loops_dulls (spaces_dull h1) (by simp) f
    simpa using g
  | @members t t' _ _ ih1 ih2 =>
    intro obj s r hs hl
    have a := ih2 obj s r hs hl
    have b : Loops obj (44 :: (t' ++ s)) r := loops_dull (by unfold Dull; decide) (by simp [hs]) a
    simpa using ih1 obj _ r (by simp) b

/-- The inside of an array or object. -/
def Inside (obj : Bool) (t : List Byte) : Prop := IsSpaces t ∨ (obj = true ∧ Json .members t) ∨ (obj = false ∧ Json .elements t)

theorem inside_loops {obj : Bool} {t : List Byte} (h : Inside obj t) (s : List Byte) : Loops obj (t ++ ((if obj then 125 else 93) :: s)) s := by
  rcases h with h | ⟨-, h⟩ | ⟨-, h⟩
  · exact loops_dulls (spaces_dull h) (by simp) (loops_close obj s)
  · exact json_passed h obj _ s (by simp) (loops_close obj s)
  · exact json_passed h obj _ s (by simp) (loops_close obj s)

theorem findNest_text {obj : Bool} {t : List Byte} (h : Inside obj t) (s : List Byte) :
    ∃ n0, ∀ n, n0 ≤ n → ∀ after, findNest after n obj ([if obj then 123 else 91] ++ t ++ [if obj then 125 else 93] ++ s) =
      .ok ([if obj then 123 else 91] ++ t ++ [if obj then 125 else 93]) s := by
  obtain ⟨n0, hl⟩ := inside_loops h s
  refine ⟨n0, fun n hn after => ?_⟩
  have e : [if obj then (123 : Byte) else 91] ++ t ++ [if obj then 125 else 93] ++ s = (if obj then 123 else 91) :: (t ++ (if obj then 125 else 93) :: s) := by simp
  have ht := taken_append ([if obj then (123 : Byte) else 91] ++ t ++ [if obj then 125 else 93]) s
  rw [e] at ht ⊢
  simp only [findNest, ne_eq, not_true, if_false, hl n hn after, PRes.bind, ht]

/-- The values metadata may have. -/
theorem findValue_text {v : List Byte} (hj : Json .value v)
    (hh : v.head? = some 91 ∨ v.head? = some 123 ∨ v.head? = some 34 ∨ v = str "null") (s : List Byte) :
    ∃ n0, ∀ n, n0 ≤ n → ∀ after, findValue after n (v ++ s) = .ok v s := by
  have nest : ∀ (obj : Bool) (t : List Byte), Inside obj t →
      v = [if obj then 123 else 91] ++ t ++ [if obj then 125 else 93] → ∃ n0, ∀ n, n0 ≤ n → ∀ after, findValue after n (v ++ s) = .ok v s := by
    intro obj t hi e
    obtain ⟨n0, h⟩ := findNest_text hi s
    refine ⟨n0, fun n hn after => ?_⟩
    have := h n hn after
    rw [← e] at this
    have hc : v ++ s = (if obj then 123 else 91) :: (t ++ [if obj then 125 else 93] ++ s) := by rw [e]; simp
    rw [hc] at this ⊢
    cases obj with
    | false => simpa [findValue] using this
    | true => simpa [findValue] using this
  cases hj with
  | word hne hw =>
    have : v = str "null" := by
      cases v with
      | nil => exact absurd rfl hne
      | cons c v =>
        have hc := dull_word (hw c (by simp))
        unfold Dull at hc
        rcases hh with h | h | h | h
        · simp at h; exact absurd h hc.2.2.1
        · simp at h; exact absurd h hc.2.2.2.2.1
        · simp at h; exact absurd h hc.2.1
        · exact h
    subst this
    exact ⟨0, fun n _ after => by simp [findValue, findNull, str]⟩
  | string hw =>
    refine ⟨0, fun n _ after => ?_⟩
    have := findString_text after hw s
    simpa [findValue] using this
  | emptyArray h => exact nest false _ (.inl h) rfl
  | array h => exact nest false _ (.inr (.inr ⟨rfl, h⟩)) rfl
  | emptyObject h => exact nest true _ (.inl h) rfl
  | object h => exact nest true _ (.inr (.inl ⟨rfl, h⟩)) rfl

/-! ## Members -/

theorem skipSpace_spaces {s : List Byte} (h : IsSpaces s) (t : List Byte) : skipSpace (s ++ t) = skipSpace t := by
  induction s with
  | nil => rfl
  | cons c s ih =>
    have hc : isSpace c = true := by
      rcases h c (by simp) with rfl | rfl | rfl | rfl <;> decide
    simp only [List.cons_append, skipSpace, hc, if_true]
    exact ih fun d hd => h d (List.mem_cons_of_mem _ hd)

theorem skipSpace_cons {c : Byte} (h : isSpace c = false) (t : List Byte) : skipSpace (c :: t) = c :: t := by
  simp [skipSpace, h]

theorem skipSpace_all {s : List Byte} (h : IsSpaces s) : skipSpace s = [] := by
  have := skipSpace_spaces h []
  simpa [skipSpace] using this

theorem skipUntil_spaces {s : List Byte} (h : IsSpaces s) (c : Byte) (hc : c = 44 ∨ c = 125) (t : List Byte) :
    skipUntil [44, 125] (s ++ c :: t) = (true, c :: t) := by
  induction s with
  | nil => rcases hc with rfl | rfl <;> simp [skipUntil]
  | cons d s ih =>
    have := ih fun d hd => h d (List.mem_cons_of_mem _ hd)
    rcases h d (by simp) with rfl | rfl | rfl | rfl <;> simpa [skipUntil] using this

theorem value_head {v : List Byte} (hj : Json .value v) : ∃ c r, v = c :: r ∧ isSpace c = false := by
  cases hj with
  | word hne hw =>
    cases v with
    | nil => exact absurd rfl hne
    | cons c v =>
      refine ⟨c, v, rfl, ?_⟩
      have := hw c (by simp)
      cases hs : isSpace c with
      | false => rfl
      | true =>
        exfalso
        simp [isSpace] at hs
        rcases hs with ((rfl | rfl) | rfl) | rfl <;> (revert this; unfold IsWordChar; decide)
  | string _ => exact ⟨_, _, rfl, by decide⟩
  | emptyArray _ => exact ⟨_, _, rfl, by decide⟩
  | array _ => exact ⟨_, _, rfl, by decide⟩
  | emptyObject _ => exact ⟨_, _, rfl, by decide⟩
  | object _ => exact ⟨_, _, rfl, by decide⟩

/-- A text that is found whole as a value, whatever follows it. -/
def Scans (v : List Byte) : Prop :=
  (∃ c r, v = c :: r ∧ isSpace c = false) ∧ ∀ s, ∃ n0, ∀ n, n0 ≤ n → ∀ after, findValue after n (v ++ s) = .ok v s

/-- A member that is read. -/
def _root_.Verif.Spec.Member.Reads (m : Member) : Prop :=
  IsSpaces m.s1 ∧ StringText m.key ∧ IsSpaces m.s2 ∧ IsSpaces m.s3 ∧ Scans m.value ∧ IsSpaces m.s4

theorem scans_json {v : List Byte} (hj : Json .value v) (hh : v.head? = some 91 ∨ v.head? = some 123 ∨ v.head? = some 34 ∨ v = str "null") :
    Scans v := ⟨value_head hj, findValue_text hj hh⟩

theorem _root_.Verif.Spec.Member.Ok.reads {m : Member} (h : m.Ok) : m.Reads := by
  obtain ⟨h1, h2, h3, h4, h5, h6, h7⟩ := h
  exact ⟨h1, h2, h3, h4, scans_json h5 h7, h6⟩

/-- One member. -/
theorem member_run (m : Member) (h : m.Reads) (w w' : MdView) (hw : applyPair ([34] ++ m.key ++ [34]) m.value w = some w')
    (c : Byte) (hc : c = 44 ∨ c = 125) (s : List Byte) :
    ∃ n0, ∀ n, n0 ≤ n → ∀ after, jsonLoop after (n + 1) w (m.text ++ c :: s) = jsonLoop after n w' (if c = 44 then s else c :: s) := by
  obtain ⟨h1, h2, h3, h4, h5, h6⟩ := h
  obtain ⟨n0, hv⟩ := h5.2 (m.s4 ++ c :: s)
  refine ⟨n0, fun n hn after => ?_⟩
  have hne : ∃ d r, m.text ++ c :: s = d :: r ∧ d ≠ 125 := by
    unfold Member.text
    cases hs : m.s1 with
    | nil => exact ⟨34, _, rfl, by decide⟩
    | cons d r =>
      refine ⟨d, _, rfl, ?_⟩
      have := dull_space (h1 d (by simp [hs]))
      exact this.2.2.2.2.2
  obtain ⟨d, r, he, hd⟩ := hne
  have k1 : skipSpace (m.text ++ c :: s) = [34] ++ m.key ++ [34] ++ (m.s2 ++ [58] ++ m.s3 ++ m.value ++ m.s4 ++ c :: s) := by
    have : m.text ++ c :: s = m.s1 ++ (34 :: (m.key ++ [34] ++ (m.s2 ++ [58] ++ m.s3 ++ m.value ++ m.s4 ++ c :: s))) := by
      simp [Member.text]
    rw [this, skipSpace_spaces h1, skipSpace_cons (by decide)]
    simp
  have k2 : skipSpace (m.s2 ++ [58] ++ m.s3 ++ m.value ++ m.s4 ++ c :: s) = 58 :: (m.s3 ++ (m.value ++ (m.s4 ++ c :: s))) := by
    have : m.s2 ++ [58] ++ m.s3 ++ m.value ++ m.s4 ++ c :: s = m.s2 ++ (58 :: (m.s3 ++ (m.value ++ (m.s4 ++ c :: s)))) := by simp
    rw [this, skipSpace_spaces h3, skipSpace_cons (by decide)]
  have k3 : skipSpace (m.s3 ++ (m.value ++ (m.s4 ++ c :: s))) = m.value ++ (m.s4 ++ c :: s) := by
    obtain ⟨d, r, e, hs⟩ := h5.1
    rw [skipSpace_spaces h4, e, List.cons_append, skipSpace_cons hs]
  rw [he, jsonLoop, if_neg hd, ← he, k1, findString_text after h2]
  simp only [PRes.bind, k2, parseChar, if_true, k3, hv n hn after, hw, skipUntil_spaces h6 c hc]
  rcases hc with rfl | rfl <;> simp

/-- All members. -/
theorem members_run : ∀ (ms : List Member), ms ≠ [] → (∀ m ∈ ms, m.Reads) → ∀ (w w' : MdView) (s : List Byte),
    ms.foldlM (fun w m => applyPair ([34] ++ m.key ++ [34]) m.value w) w = some w' →
    ∃ n0, ∀ n, n0 ≤ n → ∀ after, jsonLoop after n w (membersText ms ++ 125 :: s) = .ok w' s := by
  intro ms
  induction ms with
  | nil => intro h; exact absurd rfl h
  | cons m ms ih =>
    intro _ hok w w' s hf
    rw [List.foldlM_cons] at hf
    cases hw : applyPair ([34] ++ m.key ++ [34]) m.value w with
    | none => rw [hw] at hf; cases hf
    | some w1 =>
      rw [hw] at hf
      have hf : ms.foldlM (fun w m => applyPair ([34] ++ m.key ++ [34]) m.value w) w1 = some w' := hf
      cases ms with
      | nil =>
        obtain ⟨n0, h⟩ := member_run m (hok m (by simp)) w w1 hw 125 (.inr rfl) s
        refine ⟨n0 + 2, fun n hn after => ?_⟩
        obtain ⟨k, rfl⟩ : ∃ k, n = k + 2 := ⟨n - 2, by omega⟩
        have := h (k + 1) (by omega) after
        have e : membersText [m] = m.text := rfl
        rw [e, this]
        simp at hf
        simp [jsonLoop, hf]
      | cons m' ms =>
        obtain ⟨n1, h1⟩ := ih (by simp) (fun m hm => hok m (List.mem_cons_of_mem _ hm)) w1 w' s hf
        obtain ⟨n0, h⟩ := member_run m (hok m (by simp)) w w1 hw 44 (.inl rfl) (membersText (m' :: ms) ++ 125 :: s)
        refine ⟨n0 + n1 + 1, fun n hn after => ?_⟩
        obtain ⟨k, rfl⟩ : ∃ k, n = k + 1 := ⟨n - 1, by omega⟩
        have a := h k (by omega) after
        have b := h1 k (by omega) after
        have e : membersText (m :: m' :: ms) ++ 125 :: s = m.text ++ 44 :: (membersText (m' :: ms) ++ 125 :: s) := by
          simp [membersText]
        rw [e, a]
        simpa using b

/-- Viewing well-formed metadata. -/
theorem metadata_views (s : List Byte) (ms : List Member) (s' : List Byte) (hs : IsSpaces s) (hs' : IsSpaces s') (hok : ∀ m ∈ ms, m.Reads)
    (w' : MdView) (hf : ms.foldlM (fun w m => applyPair ([34] ++ m.key ++ [34]) m.value w) ⟨0, 0, []⟩ = some w') :
    Views (metadataText s ms s') (if w'.crs = [] then { w' with crsType := 0 } else w') := by
  have hloop : ∃ n0, ∀ n, n0 ≤ n → ∀ after, jsonLoop after n ⟨0, 0, []⟩ (skipSpace (membersText ms ++ 125 :: s')) = .ok w' s' := by
    cases ms with
    | nil =>
      refine ⟨1, fun n hn after => ?_⟩
      obtain ⟨k, rfl⟩ : ∃ k, n = k + 1 := ⟨n - 1, by omega⟩
      simp at hf
      show jsonLoop after (k + 1) ⟨0, 0, []⟩ (skipSpace (125 :: s')) = _
      rw [skipSpace_cons (by decide)]
      simp [jsonLoop, hf]
    | cons m ms =>
      have hm := hok m (by simp)
      let m0 : Member := { m with s1 := [] }
      have hm0 : m0.Reads := ⟨by intro c h; simp [m0] at h, hm.2⟩
      have hok0 : ∀ x ∈ m0 :: ms, x.Reads := by
        intro x hx
        rcases List.mem_cons.mp hx with rfl | hx
        · exact hm0
        · exact hok x (List.mem_cons_of_mem _ hx)
      have e : skipSpace (membersText (m :: ms) ++ 125 :: s') = membersText (m0 :: ms) ++ 125 :: s' := by
        have hx : ∀ r, skipSpace (m.text ++ r) = m0.text ++ r := by
          intro r
          have : m.text ++ r = m.s1 ++ (34 :: (m.key ++ [34] ++ m.s2 ++ [58] ++ m.s3 ++ m.value ++ m.s4 ++ r)) := by simp [Member.text]
          rw [this, skipSpace_spaces hm.1, skipSpace_cons (by decide)]
          simp [Member.text, m0]
        cases ms with
        | nil => exact hx _
        | cons m' ms =>
          have := hx (44 :: (membersText (m' :: ms) ++ 125 :: s'))
          simpa [membersText] using this
      rw [e]
      exact members_run (m0 :: ms) (by simp) hok0 ⟨0, 0, []⟩ w' s' hf
  obtain ⟨n0, h⟩ := hloop
  refine ⟨n0, fun n hn after => ?_⟩
  have hl := h n hn after
  have e : metadataText s ms s' = s ++ 123 :: (membersText ms ++ 125 :: s') := by simp [metadataText]
  have hlen : (metadataText s ms s').length ≠ 0 := by rw [e]; simp
  rw [metadataViewInit, if_neg hlen, e, metadataViewInitJson, skipSpace_spaces hs, skipSpace_cons (by decide), parseJson]
  simp only [parseChar, if_true, PRes.bind, hl, skipSpace_all hs', ne_eq, not_true, if_false, List.length_eq_zero_iff]

end Verif
