import Verif.Spec.Metadata
/-!
# Proofs about parsing metadata
-/
namespace Verif
open Spec

/-! ## What lies behind the text -/

/-- What a parser returns when the byte behind the text may not be read, and when it may. -/
def AgreeM {α : Type} (r r' : PRes α) : Prop := (r ≠ .oob ∧ r' = r) ∨ (r = .oob ∧ r' = .err)

theorem AgreeM.refl_ne {α : Type} {r : PRes α} (h : r ≠ .oob) : AgreeM r r := Or.inl ⟨h, rfl⟩

theorem AgreeM.bind {α β : Type} {r r' : PRes α} {f f' : α → List Byte → PRes β} (h : AgreeM r r') (hf : ∀ a s, AgreeM (f a s) (f' a s)) :
    AgreeM (r.bind f) (r'.bind f') := by
  rcases h with ⟨h, rfl⟩ | ⟨rfl, rfl⟩
  · cases r' with
    | ok a s => exact hf a s
    | err => exact .inl ⟨by simp [PRes.bind], rfl⟩
    | oob => exact absurd rfl h
    | stuck => exact .inl ⟨by simp [PRes.bind], rfl⟩
  · exact .inr ⟨rfl, rfl⟩

theorem pastEnd_agree {α : Type} (c : Byte) : AgreeM (pastEnd none : PRes α) (pastEnd (some c)) := .inr ⟨rfl, rfl⟩

theorem findString_agree (c : Byte) (s : List Byte) : AgreeM (findString none s) (findString (some c) s) := by
  cases s with
  | nil => exact pastEnd_agree c
  | cons d s =>
    refine .inl ⟨?_, rfl⟩
    simp only [findString]
    split
    · simp
    · cases stringBody false s <;> simp

theorem nestLoop_agree (c : Byte) : ∀ (n : Nat) (obj : Bool) (s : List Byte), AgreeM (nestLoop none n obj s) (nestLoop (some c) n obj s) := by
  intro n
  induction n with
  | zero => intro obj s; exact .refl_ne (by simp [nestLoop])
  | succ n ih =>
    intro obj s
    simp only [nestLoop]
    by_cases hs : s = []
    · simp only [hs, if_true]; exact .refl_ne (by simp)
    · simp only [hs, if_false]
      rcases hu : skipUntil (nestItems obj) s with ⟨b, _ | ⟨d, s'⟩⟩
      · cases b <;> exact ih obj []
      · cases b
        · exact ih obj _
        · simp only
          by_cases h1 : d = 34
          · simp only [h1, if_true]; exact (findString_agree c _).bind fun _ _ => ih _ _
          · simp only [h1, if_false]
            by_cases h2 : d = 91
            · simp only [h2, if_true]; exact (ih _ _).bind fun _ _ => ih _ _
            · simp only [h2, if_false]
              by_cases h3 : d = 123
              · simp only [h3, if_true]; exact (ih _ _).bind fun _ _ => ih _ _
              · simp only [h3, if_false]
                by_cases h4 : d = (if obj then 125 else 93)
                · simp only [h4, if_true]; exact .refl_ne (by simp)
                · simp only [h4, if_false]; exact ih _ _

theorem findNest_agree (c : Byte) (n : Nat) (obj : Bool) (s : List Byte) : AgreeM (findNest none n obj s) (findNest (some c) n obj s) := by
  cases s with
  | nil => exact pastEnd_agree c
  | cons d s =>
    simp only [findNest]
    by_cases h : d ≠ (if obj then 123 else 91)
    · simp only [if_pos h]; exact .refl_ne (by simp)
    · simp only [if_neg h]; exact (nestLoop_agree c n obj s).bind fun _ _ => .refl_ne (by simp)

theorem findNull_ne_oob (s : List Byte) : findNull s ≠ .oob := by
  unfold findNull; split
  · simp
  · split <;> simp

theorem findValue_agree (c : Byte) (n : Nat) (s : List Byte) : AgreeM (findValue none n s) (findValue (some c) n s) := by
  cases s with
  | nil => exact pastEnd_agree c
  | cons d s =>
    simp only [findValue]
    split
    · exact findNest_agree c n false _
    · split
      · exact findNest_agree c n true _
      · split
        · exact findString_agree c _
        · split
          · exact .refl_ne (findNull_ne_oob _)
          · exact .refl_ne (by simp)

theorem parseChar_ne_oob (c : Byte) (s : List Byte) : parseChar c s ≠ .oob := by
  cases s with
  | nil => simp [parseChar]
  | cons d s => simp only [parseChar]; split <;> simp

theorem jsonLoop_agree (c : Byte) : ∀ (n : Nat) (w : MdView) (s : List Byte), AgreeM (jsonLoop none n w s) (jsonLoop (some c) n w s) := by
  intro n
  induction n with
  | zero => intro w s; exact .refl_ne (by simp [jsonLoop])
  | succ n ih =>
    intro w s
    cases s with
    | nil => exact .refl_ne (by simp [jsonLoop])
    | cons d s =>
      simp only [jsonLoop]
      split
      · exact .refl_ne (by simp)
      · refine (findString_agree c _).bind fun k s1 => ?_
        refine AgreeM.bind (.refl_ne (parseChar_ne_oob _ _)) fun _ s2 => ?_
        refine (findValue_agree c n _).bind fun v s3 => ?_
        cases applyPair k v w with
        | none => exact .refl_ne (by simp)
        | some w' =>
          simp only
          cases (skipUntil [44, 125] s3).2 with
          | nil => exact pastEnd_agree c
          | cons e s4 =>
            simp only
            split
            · exact ih _ _
            · exact ih _ _

theorem metadata_agree (c : Byte) (n : Nat) (text : List Byte) : AgreeM (metadataViewInit none n text) (metadataViewInit (some c) n text) := by
  simp only [metadataViewInit]
  by_cases h : text.length = 0
  · simp only [h, if_true]; exact .refl_ne (by simp)
  · simp only [h, if_false, metadataViewInitJson, parseJson]
    refine AgreeM.bind (AgreeM.bind (.refl_ne (parseChar_ne_oob _ _)) fun _ _ => jsonLoop_agree c n _ _) fun w s => ?_
    refine .refl_ne ?_
    split <;> simp

/-! ## Returning -/

theorem skipSpace_len (s : List Byte) : (skipSpace s).length ≤ s.length := by
  induction s with
  | nil => simp [skipSpace]
  | cons c s ih =>
    simp only [skipSpace]
    split
    · simp only [List.length_cons]; omega
    · simp

theorem skipSpace_mem {s : List Byte} {c : Byte} (h : c ∈ skipSpace s) : c ∈ s := by
  induction s with
  | nil => simp [skipSpace] at h
  | cons d s ih =>
    simp only [skipSpace] at h
    split at h
    · exact List.mem_cons_of_mem _ (ih h)
    · exact h

theorem skipUntil_len (items s : List Byte) : (skipUntil items s).2.length ≤ s.length := by
  induction s with
  | nil => simp [skipUntil]
  | cons c s ih =>
    simp only [skipUntil]
    split
    · simp
    · split
      · simp
      · simp only [List.length_cons]; omega

theorem skipUntil_mem {items s : List Byte} {c : Byte} (h : c ∈ (skipUntil items s).2) : c ∈ s := by
  induction s with
  | nil => simp [skipUntil] at h
  | cons d s ih =>
    simp only [skipUntil] at h
    split at h
    · exact h
    · split at h
      · exact h
      · exact List.mem_cons_of_mem _ (ih h)

theorem skipUntil_false {items s : List Byte} (h0 : (0 : Byte) ∉ s) (h : (skipUntil items s).1 = false) : (skipUntil items s).2 = [] := by
  induction s with
  | nil => simp [skipUntil]
  | cons d s ih =>
    have hd : d ≠ 0 := fun h => h0 (by simp [h])
    simp only [skipUntil, if_neg hd] at h ⊢
    by_cases hc : items.contains d = true
    · rw [if_pos hc] at h; cases h
    · rw [if_neg hc] at h ⊢
      exact ih (fun h => h0 (List.mem_cons_of_mem _ h)) h

theorem skipUntil_true {items s : List Byte} (h : (skipUntil items s).1 = true) : ∃ c s', (skipUntil items s).2 = c :: s' ∧ c ∈ items := by
  induction s with
  | nil => simp [skipUntil] at h
  | cons d s ih =>
    simp only [skipUntil] at h ⊢
    by_cases hd : d = 0
    · simp [hd] at h
    · simp only [if_neg hd] at h ⊢
      by_cases hc : items.contains d = true
      · rw [if_pos hc]; exact ⟨d, s, rfl, by simpa using hc⟩
      · rw [if_neg hc] at h ⊢
        exact ih h

theorem stringBody_sub : ∀ (s : List Byte) (esc : Bool) (rest : List Byte), stringBody esc s = some rest → rest.length < s.length ∧ ∀ c ∈ rest, c ∈ s := by
  intro s
  induction s with
  | nil => intro esc rest h; simp [stringBody] at h
  | cons d s ih =>
    intro esc rest h
    simp only [stringBody] at h
    split at h
    · obtain ⟨h1, h2⟩ := ih _ _ h
      exact ⟨by simp only [List.length_cons]; omega, fun c hc => List.mem_cons_of_mem _ (h2 c hc)⟩
    · split at h
      · cases h; exact ⟨by simp, fun c hc => List.mem_cons_of_mem _ hc⟩
      · obtain ⟨h1, h2⟩ := ih _ _ h
        exact ⟨by simp only [List.length_cons]; omega, fun c hc => List.mem_cons_of_mem _ (h2 c hc)⟩

/-- A result that is not the lack of steps, and that leaves less than there was. -/
def Returns {α : Type} (s : List Byte) (r : PRes α) : Prop :=
  r ≠ .stuck ∧ ∀ a rest, r = .ok a rest → rest.length < s.length ∧ ∀ c ∈ rest, c ∈ s

theorem Returns.bind {α β : Type} {s : List Byte} {r : PRes α} {f : α → List Byte → PRes β} (h : Returns s r)
    (hf : ∀ a rest, rest.length < s.length → (∀ c ∈ rest, c ∈ s) → Returns s (f a rest)) : Returns s (r.bind f) := by
  cases r with
  | ok a rest => exact hf a rest (h.2 a rest rfl).1 (h.2 a rest rfl).2
  | err => exact ⟨by simp [PRes.bind], by simp [PRes.bind]⟩
  | oob => exact ⟨by simp [PRes.bind], by simp [PRes.bind]⟩
  | stuck => exact absurd rfl h.1

theorem Returns.weaken {α : Type} {s t : List Byte} {r : PRes α} (h : Returns t r) (hl : t.length ≤ s.length) (hm : ∀ c ∈ t, c ∈ s) : Returns s r :=
  ⟨h.1, fun a rest e => ⟨Nat.lt_of_lt_of_le (h.2 a rest e).1 hl, fun c hc => hm c ((h.2 a rest e).2 c hc)⟩⟩

theorem returns_err {α : Type} (s : List Byte) : Returns s (.err : PRes α) := ⟨by simp, by simp⟩

theorem returns_pastEnd {α : Type} (after : Option Byte) (s : List Byte) : Returns s (pastEnd after : PRes α) := by
  cases after <;> exact ⟨by simp [pastEnd], by simp [pastEnd]⟩

theorem findString_returns (after : Option Byte) (s : List Byte) : Returns s (findString after s) := by
  cases s with
  | nil => exact returns_pastEnd _ _
  | cons d s =>
    simp only [findString]
    split
    · exact returns_err _
    · cases h : stringBody false s with
      | none => exact returns_err _
      | some rest =>
        obtain ⟨h1, h2⟩ := stringBody_sub _ _ _ h
        refine ⟨by simp, fun a r e => ?_⟩
        simp only [PRes.ok.injEq] at e
        obtain ⟨-, rfl⟩ := e
        exact ⟨by simp only [List.length_cons]; omega, fun c hc => List.mem_cons_of_mem _ (h2 c hc)⟩

theorem nestLoop_returns (after : Option Byte) : ∀ (n : Nat) (obj : Bool) (s : List Byte), (0 : Byte) ∉ s → s.length < n →
    Returns s (nestLoop after n obj s) := by
  intro n
  induction n with
  | zero => intro obj s _ h; omega
  | succ n ih =>
    intro obj s h0 hn
    simp only [nestLoop]
    by_cases hs : s = []
    · simp only [hs, if_true]; exact returns_err _
    simp only [hs, if_false]
    have hpos : 0 < s.length := List.length_pos_iff.mpr hs
    have hl := skipUntil_len (nestItems obj) s
    have hm := fun c => @skipUntil_mem (nestItems obj) s c
    have hf := @skipUntil_false (nestItems obj) s h0
    have ht := @skipUntil_true (nestItems obj) s
    have hnil : Returns s (nestLoop after n obj []) := (ih obj [] (by simp) (by simp; omega)).weaken (by simp) (by simp)
    rcases hu : skipUntil (nestItems obj) s with ⟨b, s1⟩
    rw [hu] at hl hm hf ht
    cases b with
    | false =>
      have : s1 = [] := hf rfl
      subst this
      exact hnil
    | true =>
      obtain ⟨d, s', e, hd⟩ := ht rfl
      cases e
      have hlen : s'.length < s.length := by simp only [List.length_cons] at hl; omega
      have hsub : ∀ c ∈ s', c ∈ s := fun c hc => hm c (List.mem_cons_of_mem _ hc)
      have hrec : ∀ (o : Bool) (r : List Byte), r.length < s.length → (∀ c ∈ r, c ∈ s) → Returns s (nestLoop after n o r) :=
        fun o r h1 h2 => (ih o r (fun h => h0 (h2 _ h)) (by omega)).weaken (by omega) h2
      simp only
      by_cases h1 : d = 34
      · simp only [h1, if_true]
        subst h1
        exact ((findString_returns after _).weaken hl hm).bind fun _ r h1 h2 => hrec obj r h1 h2
      simp only [h1, if_false]
      by_cases h2 : d = 91
      · simp only [h2, if_true]
        exact (hrec false s' hlen hsub).bind fun _ r h1 h2 => hrec obj r h1 h2
      simp only [h2, if_false]
      by_cases h3 : d = 123
      · simp only [h3, if_true]
        exact (hrec true s' hlen hsub).bind fun _ r h1 h2 => hrec obj r h1 h2
      simp only [h3, if_false]
      by_cases h4 : d = (if obj then 125 else 93)
      · simp only [h4, if_true]
        refine ⟨by simp, fun a r e => ?_⟩
        simp only [PRes.ok.injEq] at e
        obtain ⟨-, rfl⟩ := e
        exact ⟨hlen, hsub⟩
      · exfalso
        cases obj <;> simp [nestItems] at hd <;> rcases hd with h | h | h | h <;> simp_all

theorem findNest_returns (after : Option Byte) (n : Nat) (obj : Bool) (s : List Byte) (h0 : (0 : Byte) ∉ s) (hn : s.length < n) :
    Returns s (findNest after n obj s) := by
  cases s with
  | nil => exact returns_pastEnd _ _
  | cons d s =>
    simp only [findNest]
    by_cases hd : d ≠ (if obj then 123 else 91)
    · rw [if_pos hd]; exact returns_err _
    · rw [if_neg hd]
      have := nestLoop_returns after n obj s (fun h => h0 (List.mem_cons_of_mem _ h)) (by simp at hn; omega)
      refine (this.weaken (by simp) (fun c hc => List.mem_cons_of_mem _ hc)).bind fun a r h1 h2 => ?_
      refine ⟨by simp, fun a r' e => ?_⟩
      simp only [PRes.ok.injEq] at e
      obtain ⟨-, rfl⟩ := e
      exact ⟨h1, h2⟩

theorem findNull_returns (s : List Byte) : Returns s (findNull s) := by
  unfold findNull
  split
  · exact returns_err _
  · split
    · exact returns_err _
    · refine ⟨by simp, fun a r' e => ?_⟩
      simp only [PRes.ok.injEq] at e
      obtain ⟨-, rfl⟩ := e
      exact ⟨by simp only [List.length_drop]; omega, fun c hc => List.mem_of_mem_drop hc⟩

theorem findValue_returns (after : Option Byte) (n : Nat) (s : List Byte) (h0 : (0 : Byte) ∉ s) (hn : s.length < n) :
    Returns s (findValue after n s) := by
  cases s with
  | nil => exact returns_pastEnd _ _
  | cons d s =>
    simp only [findValue]
    split
    · exact findNest_returns after n false _ h0 hn
    · split
      · exact findNest_returns after n true _ h0 hn
      · split
        · exact findString_returns after _
        · split
          · exact findNull_returns _
          · exact returns_err _

theorem parseChar_returns (c : Byte) (s : List Byte) : Returns s (parseChar c s) := by
  cases s with
  | nil => exact returns_err _
  | cons d s =>
    simp only [parseChar]
    split
    · refine ⟨by simp, fun a r' e => ?_⟩
      simp only [PRes.ok.injEq] at e
      obtain ⟨-, rfl⟩ := e
      exact ⟨by simp, fun c hc => List.mem_cons_of_mem _ hc⟩
    · exact returns_err _

theorem jsonLoop_returns (after : Option Byte) : ∀ (n : Nat) (w : MdView) (s : List Byte), (0 : Byte) ∉ s → s.length < n →
    Returns s (jsonLoop after n w s) := by
  intro n
  induction n with
  | zero => intro w s _ h; omega
  | succ n ih =>
    intro w s h0 hn
    cases s with
    | nil => exact returns_err _
    | cons d s =>
      simp only [jsonLoop]
      generalize hS : d :: s = S at *
      have sp : ∀ t : List Byte, t.length ≤ S.length → (∀ c ∈ t, c ∈ S) → (skipSpace t).length ≤ S.length ∧ ∀ c ∈ skipSpace t, c ∈ S :=
        fun t h1 h2 => ⟨Nat.le_trans (skipSpace_len t) h1, fun c hc => h2 c (skipSpace_mem hc)⟩
      split
      · refine ⟨by simp, fun a r' e => ?_⟩
        simp only [PRes.ok.injEq] at e
        obtain ⟨-, rfl⟩ := e
        rw [← hS]
        exact ⟨by simp, fun c hc => List.mem_cons_of_mem _ hc⟩
      · have a1 := sp S (Nat.le_refl _) (fun c h => h)
        refine ((findString_returns after _).weaken a1.1 a1.2).bind fun k s1 l1 m1 => ?_
        have a2 := sp s1 (by omega) m1
        refine ((parseChar_returns _ _).weaken a2.1 a2.2).bind fun _ s2 l2 m2 => ?_
        have a3 := sp s2 (by omega) m2
        have l3' := skipSpace_len s2
        refine ((findValue_returns after n _ (fun h => h0 (a3.2 _ h)) (by omega)).weaken a3.1 a3.2).bind fun v s3 l3 m3 => ?_
        cases applyPair k v w with
        | none => exact returns_err _
        | some w' =>
          simp only
          have l4 := skipUntil_len [44, 125] s3
          have m4 := fun c => @skipUntil_mem [44, 125] s3 c
          cases hu : (skipUntil [44, 125] s3).2 with
          | nil => exact returns_pastEnd _ _
          | cons e s4 =>
            rw [hu] at l4 m4
            simp only [List.length_cons] at l4
            have hr : ∀ t : List Byte, t.length < S.length → (∀ c ∈ t, c ∈ S) → Returns S (jsonLoop after n w' t) :=
              fun t h1 h2 => (ih w' t (fun h => h0 (h2 _ h)) (by omega)).weaken (by omega) h2
            simp only
            by_cases he : e = 44
            · rw [if_pos he]; exact hr _ (by omega) (fun c hc => m3 c (m4 c (List.mem_cons_of_mem _ hc)))
            · rw [if_neg he]; exact hr _ (by simp only [List.length_cons]; omega) (fun c hc => m3 c (m4 c hc))

theorem metadata_returns (after : Option Byte) (n : Nat) (text : List Byte) (h0 : (0 : Byte) ∉ text) (hn : text.length < n) :
    metadataViewInit after n text ≠ .stuck := by
  simp only [metadataViewInit]
  split
  · simp
  · simp only [metadataViewInitJson, parseJson]
    have sp := skipSpace_len text
    have h1 : Returns text ((parseChar 123 (skipSpace text)).bind fun _ s1 => jsonLoop after n ⟨0, 0, []⟩ (skipSpace s1)) := by
      refine ((parseChar_returns _ _).weaken sp (fun c hc => skipSpace_mem hc)).bind fun _ s1 l1 m1 => ?_
      have sp1 := skipSpace_len s1
      exact (jsonLoop_returns after n _ _ (fun h => h0 (m1 _ (skipSpace_mem h))) (by omega)).weaken (by omega) (fun c hc => m1 _ (skipSpace_mem hc))
    generalize ((parseChar 123 (skipSpace text)).bind fun _ s1 => jsonLoop after n ⟨0, 0, []⟩ (skipSpace s1)) = r at h1
    cases r with
    | ok a s => simp only [PRes.bind]; split <;> simp
    | err => simp [PRes.bind]
    | oob => simp [PRes.bind]
    | stuck => exact absurd rfl h1.1

/-! ## More steps -/

theorem PRes.bind_more {α β : Type} {r r' : PRes α} {f f' : α → List Byte → PRes β} (h : r ≠ .stuck → r' = r)
    (hf : ∀ a s, f a s ≠ .stuck → f' a s = f a s) (hb : r.bind f ≠ .stuck) : r'.bind f' = r.bind f := by
  cases r with
  | ok a s => rw [h (by simp)]; exact hf a s hb
  | err => rw [h (by simp)]; rfl
  | oob => rw [h (by simp)]; rfl
  | stuck => exact absurd rfl hb

theorem nestLoop_more (after : Option Byte) : ∀ (n : Nat) (obj : Bool) (s : List Byte), nestLoop after n obj s ≠ .stuck →
    nestLoop after (n + 1) obj s = nestLoop after n obj s := by
  intro n
  induction n with
  | zero => intro obj s h; exact absurd rfl h
  | succ n ih =>
    intro obj s h
    conv => lhs; rw [nestLoop]
    conv => rhs; rw [nestLoop]
    rw [nestLoop] at h
    by_cases hs : s = []
    · simp only [hs, if_true]
    simp only [hs, if_false] at h ⊢
    rcases hu : skipUntil (nestItems obj) s with ⟨b, _ | ⟨d, s'⟩⟩
    · simp only [hu] at h
      cases b <;> exact ih _ _ h
    · simp only [hu] at h
      cases b with
      | false => exact ih _ _ h
      | true =>
        simp only at h ⊢
        by_cases h1 : d = 34
        · simp only [h1, if_true] at h ⊢; exact PRes.bind_more (fun _ => rfl) (fun _ _ => ih _ _) h
        simp only [h1, if_false] at h ⊢
        by_cases h2 : d = 91
        · simp only [h2, if_true] at h ⊢; exact PRes.bind_more (ih _ _) (fun _ _ => ih _ _) h
        simp only [h2, if_false] at h ⊢
        by_cases h3 : d = 123
        · simp only [h3, if_true] at h ⊢; exact PRes.bind_more (ih _ _) (fun _ _ => ih _ _) h
        simp only [h3, if_false] at h ⊢
        by_cases h4 : d = (if obj then 125 else 93)
        · simp only [h4, if_true]
        · simp only [h4, if_false] at h ⊢; exact ih _ _ h

theorem findNest_more (after : Option Byte) (n : Nat) (obj : Bool) (s : List Byte) (h : findNest after n obj s ≠ .stuck) :
    findNest after (n + 1) obj s = findNest after n obj s := by
  cases s with
  | nil => rfl
  | cons d s =>
    simp only [findNest] at h ⊢
    by_cases hd : d ≠ (if obj then 123 else 91)
    · simp only [if_pos hd]
    · simp only [if_neg hd] at h ⊢
      exact PRes.bind_more (nestLoop_more after n obj s) (fun _ _ _ => rfl) h

theorem findValue_more (after : Option Byte) (n : Nat) (s : List Byte) (h : findValue after n s ≠ .stuck) :
    findValue after (n + 1) s = findValue after n s := by
  cases s with
  | nil => rfl
  | cons d s =>
    simp only [findValue] at h ⊢
    by_cases h1 : d = 91
    · simp only [h1, if_true] at h ⊢; exact findNest_more _ _ _ _ h
    simp only [h1, if_false] at h ⊢
    by_cases h2 : d = 123
    · simp only [h2, if_true] at h ⊢; exact findNest_more _ _ _ _ h
    simp only [h2, if_false]

theorem jsonLoop_more (after : Option Byte) : ∀ (n : Nat) (w : MdView) (s : List Byte), jsonLoop after n w s ≠ .stuck →
    jsonLoop after (n + 1) w s = jsonLoop after n w s := by
  intro n
  induction n with
  | zero => intro w s h; exact absurd rfl h
  | succ n ih =>
    intro w s h
    cases s with
    | nil => rfl
    | cons d s =>
      conv => lhs; rw [jsonLoop]
      conv => rhs; rw [jsonLoop]
      rw [jsonLoop] at h
      by_cases hd : d = 125
      · simp only [hd, if_true]
      simp only [hd, if_false] at h ⊢
      refine PRes.bind_more (fun _ => rfl) (fun k s1 h => ?_) h
      refine PRes.bind_more (fun _ => rfl) (fun _ s2 h => ?_) h
      refine PRes.bind_more (findValue_more after n _) (fun v s3 h => ?_) h
      cases ha : applyPair k v w with
      | none => rfl
      | some w' =>
        simp only [ha] at h ⊢
        cases hu : (skipUntil [44, 125] s3).2 with
        | nil => rfl
        | cons e s4 =>
          simp only [hu] at h ⊢
          by_cases he : e = 44
          · simp only [he, if_true] at h ⊢; exact ih _ _ h
          · simp only [he, if_false] at h ⊢; exact ih _ _ h

theorem metadata_more (after : Option Byte) (n : Nat) (text : List Byte) (h : metadataViewInit after n text ≠ .stuck) (k : Nat) :
    metadataViewInit after (n + k) text = metadataViewInit after n text := by
  induction k with
  | zero => rfl
  | succ k ih =>
    rw [← ih] at h ⊢
    show metadataViewInit after (n + k + 1) text = _
    simp only [metadataViewInit] at h ⊢
    by_cases ht : text.length = 0
    · simp only [ht, if_true]
    · simp only [ht, if_false, metadataViewInitJson, parseJson] at h ⊢
      refine PRes.bind_more ?_ (fun _ _ _ => rfl) h
      exact PRes.bind_more (fun _ => rfl) (fun _ _ h => jsonLoop_more after _ _ _ h)

end Verif
