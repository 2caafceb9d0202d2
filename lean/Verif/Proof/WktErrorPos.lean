import Verif.Proof.WktLex
import Verif.Proof.WktErrorAgree
/-!
# What the WKT reader has read when it stops
-/
namespace Verif
open Spec

/-- The text ends with a character of a word. -/
def EndsWord (p : List Byte) : Prop := ∃ x, p.getLast? = some x ∧ isWordChar x = true

/-- `c` can follow `p` without changing its last token. -/
def FollowOk (p c : List Byte) : Prop := (EndsWord p → startsEdge c = true) ∧ (p.getLast? = some 40 → startsTight c = true)

/-- The tokens of `p` are `d`, whatever follows. -/
def Lexed (p : List Byte) (d : List Tok) : Prop := ∀ c, FollowOk p c → lex (p ++ c) = d ++ lex c

theorem getLast_snoc (p : List Byte) {a : List Byte} (ha : a ≠ []) : (p ++ a).getLast? = a.getLast? := by
  rw [List.getLast?_append]
  cases h : a.getLast? with
  | none => exact absurd (List.getLast?_eq_none_iff.mp h) ha
  | some x => rfl

theorem endsWord_snoc (p : List Byte) {a : List Byte} (ha : a ≠ []) : EndsWord (p ++ a) ↔ EndsWord a := by
  unfold EndsWord; rw [getLast_snoc p ha]

theorem endsWord_all {w : List Byte} (hw : w ≠ []) (h : ∀ c ∈ w, isWordChar c = true) : EndsWord w := by
  cases hx : w.getLast? with
  | none => exact absurd (List.getLast?_eq_none_iff.mp hx) hw
  | some x => exact ⟨x, hx, h x (List.mem_of_getLast? hx)⟩

/-- Where the reader stands: `d` are the tokens before. -/
structure RdPos (blob : List Byte) (r : WktR) (d : List Tok) : Prop where
  le : r.pos ≤ blob.length
  left : r.left = (blob.length : Int) - r.pos
  lexed : Lexed (blob.take r.pos) d
  fits : FollowOk (blob.take r.pos) (blob.drop r.pos)

/-- The text before does not end with a character of a word. -/
def NotWord (blob : List Byte) (r : WktR) : Prop := ¬ EndsWord (blob.take r.pos)

section
variable {blob : List Byte}

theorem RdPos.at {r d} (h : RdPos blob r d) : At blob r (lex (blob.drop r.pos)) := ⟨h.le, h.left, rfl⟩

theorem take_move {k : Nat} {a b : List Byte} (h : blob.drop k = a ++ b) : blob.take (k + a.length) = blob.take k ++ a := by
  rw [List.take_add, h, List.take_left]

theorem RdPos.move {r d d'} (h : RdPos blob r d) {a b : List Byte} (hd : blob.drop r.pos = a ++ b)
    (hl : Lexed (blob.take r.pos ++ a) d') (hf : FollowOk (blob.take r.pos ++ a) b) : RdPos blob (r.move a.length) d' := by
  have ha := h.at.move hd
  refine ⟨ha.le, ha.left, ?_, ?_⟩
  · simp only [WktR.move]
    rw [take_move hd]; exact hl
  · simp only [WktR.move]
    rw [take_move hd, drop_split hd]; exact hf

/-- Same position. -/
theorem RdPos.same {r r' d} (h : RdPos blob r d) (hp : r'.pos = r.pos) (hl : r'.left = r.left) : RdPos blob r' d := by
  refine ⟨by rw [hp]; exact h.le, by rw [hp, hl]; exact h.left, by rw [hp]; exact h.lexed, by rw [hp]; exact h.fits⟩

theorem lex_white {s : List Byte} (h : ∀ c ∈ s, isSpace c = true) (c : List Byte) : lex (s ++ c) = lex c := by
  induction s with
  | nil => rfl
  | cons x s ih => rw [List.cons_append, lex_space (h x (by simp)), ih (fun y hy => h y (by simp [hy]))]

theorem space_not_word {c : Byte} (h : isSpace c = true) : isWordChar c = false := by
  simp [isWordChar, h]

theorem last_spaces {s : List Byte} (hs : s ≠ []) (h : ∀ c ∈ s, isSpace c = true) :
    ∃ x, s.getLast? = some x ∧ isSpace x = true := by
  cases hx : s.getLast? with
  | none => exact absurd (List.getLast?_eq_none_iff.mp hx) hs
  | some x => exact ⟨x, rfl, h x (List.mem_of_getLast? hx)⟩

theorem not_endsWord_spaces (p : List Byte) {s : List Byte} (hs : s ≠ []) (h : ∀ c ∈ s, isSpace c = true) : ¬ EndsWord (p ++ s) := by
  rw [endsWord_snoc p hs]
  rintro ⟨x, hx, hw⟩
  obtain ⟨y, hy, hsp⟩ := last_spaces hs h
  rw [hx] at hy
  cases hy
  rw [space_not_word hsp] at hw
  cases hw

theorem follow_spaces (p : List Byte) {s : List Byte} (hs : s ≠ []) (h : ∀ c ∈ s, isSpace c = true) (c : List Byte) : FollowOk (p ++ s) c := by
  refine ⟨fun hw => absurd hw (not_endsWord_spaces p hs h), fun ho => ?_⟩
  rw [getLast_snoc p hs] at ho
  obtain ⟨y, hy, hsp⟩ := last_spaces hs h
  rw [ho] at hy
  cases hy
  simp [isSpace] at hsp

/-- Whitespace after anything but an opening parenthesis. -/
theorem lexed_spaces {p d} (h : Lexed p d) (ho : p.getLast? ≠ some 40) {s : List Byte} (hs : ∀ c ∈ s, isSpace c = true) :
    Lexed (p ++ s) d := by
  by_cases hn : s = []
  · subst hn; rw [List.append_nil]; exact h
  intro c _
  rw [List.append_assoc, h (s ++ c) ⟨fun _ => ?_, fun e => absurd e ho⟩, lex_white hs]
  cases s with
  | nil => exact absurd rfl hn
  | cons x s => simp only [List.cons_append, startsEdge]; rw [space_not_word (hs x (by simp))]; rfl

theorem span_spaces (cs : List Byte) : cs = cs.takeWhile isSpace ++ cs.dropWhile isSpace ∧ ∀ c ∈ cs.takeWhile isSpace, isSpace c = true :=
  ⟨List.takeWhile_append_dropWhile.symm, fun c hc => List.all_eq_true.mp List.all_takeWhile c hc⟩

theorem skip_run {r ts} (h : At blob r ts) :
    wkrSkip blob r = .ok () (r.move ((blob.drop r.pos).takeWhile isSpace).length) :=
  skipLoop_run (blob.drop r.pos) _ r rfl h.lenDrop (by have := h.lenDrop; omega)

/-- Skipping whitespace. -/
theorem rdpos_skip {r d} (h : RdPos blob r d) : ∃ r', wkrSkip blob r = .ok () r' ∧ RdPos blob r' d ∧ Tight blob r' ∧ r'.nv = r.nv ∧
    (NotWord blob r → NotWord blob r') := by
  obtain ⟨hs, hall⟩ := span_spaces (blob.drop r.pos)
  refine ⟨_, skip_run h.at, ?_, ?_, rfl, ?_⟩
  · by_cases hn : (blob.drop r.pos).takeWhile isSpace = []
    · rw [hn]; exact h.same rfl (by simp [WktR.move])
    have ho : (blob.take r.pos).getLast? ≠ some 40 := by
      intro ho
      have := h.fits.2 ho
      rw [hs] at this
      cases hc : (blob.drop r.pos).takeWhile isSpace with
      | nil => exact hn hc
      | cons x s =>
        rw [hc, List.cons_append] at this
        simp only [startsTight] at this
        rw [hall x (by rw [hc]; simp)] at this
        cases this
    exact h.move hs (lexed_spaces h.lexed ho hall) (follow_spaces _ hn hall _)
  · unfold Tight
    simp only [WktR.move]
    rw [drop_split hs]; exact tight_drop_space _
  · intro hw
    unfold NotWord
    simp only [WktR.move]
    rw [take_move hs]
    by_cases hn : (blob.drop r.pos).takeWhile isSpace = []
    · rw [hn, List.append_nil]; exact hw
    · exact not_endsWord_spaces _ hn hall

theorem punct_char {c : Byte} (h : c = 40 ∨ c = 41 ∨ c = 44) : isWordChar c = false ∧ isSpace c = false := by
  rcases h with rfl | rfl | rfl <;> decide

theorem notWord_punct (p : List Byte) {c : Byte} (h : c = 40 ∨ c = 41 ∨ c = 44) : ¬ EndsWord (p ++ [c]) := by
  rw [endsWord_snoc p (by simp)]
  rintro ⟨x, hx, hw⟩
  simp only [List.getLast?_singleton, Option.some.injEq] at hx
  subst hx
  rw [(punct_char h).1] at hw
  cases hw

theorem follow_punct (p : List Byte) {c : Byte} (h : c = 40 ∨ c = 41 ∨ c = 44) (cs : List Byte) : FollowOk p (c :: cs) := by
  refine ⟨fun _ => ?_, fun _ => ?_⟩
  · simp only [startsEdge]; rw [(punct_char h).1]; rfl
  · simp only [startsTight]; rw [(punct_char h).2]; rfl

/-- The token of a closing parenthesis or a comma. -/
def punctTok (c : Byte) : Tok := if c = 41 then .closing else .comma

theorem lexed_punct {p d} (h : Lexed p d) {c : Byte} (hc : c = 41 ∨ c = 44) : Lexed (p ++ [c]) (d ++ [punctTok c]) := by
  intro cs _
  rw [List.append_assoc, List.singleton_append, h _ (follow_punct p (Or.inr hc) cs), List.append_assoc, List.singleton_append]
  rcases hc with rfl | rfl
  · rw [lex_close]; rfl
  · rw [lex_comma]; rfl

theorem rdpos_punct {r d} (h : RdPos blob r d) {c : Byte} {cs : List Byte} (hc : c = 41 ∨ c = 44) (hd : blob.drop r.pos = c :: cs) :
    RdPos blob (r.move 1) (d ++ [punctTok c]) ∧ NotWord blob (r.move 1) := by
  constructor
  · refine h.move (a := [c]) hd (lexed_punct h.lexed hc) ⟨fun hw => absurd hw (notWord_punct _ (Or.inr hc)), fun ho => ?_⟩
    rw [getLast_snoc _ (by simp)] at ho
    simp only [List.getLast?_singleton, Option.some.injEq] at ho
    rcases hc with rfl | rfl <;> cases ho
  · unfold NotWord
    show ¬ EndsWord (blob.take (r.pos + [c].length))
    rw [take_move hd]; exact notWord_punct _ (Or.inr hc)

theorem lexed_open {p d} (h : Lexed p d) : Lexed (p ++ [40]) (d ++ [.opening true]) := by
  intro cs hf
  have ht := hf.2 (by rw [getLast_snoc _ (by simp)]; rfl)
  rw [List.append_assoc, List.singleton_append, h _ (follow_punct p (Or.inl rfl) cs), List.append_assoc, List.singleton_append, lex_open, ht]

theorem lexed_open_spaces {p d} (h : Lexed p d) {s : List Byte} (hn : s ≠ []) (hs : ∀ c ∈ s, isSpace c = true) :
    Lexed (p ++ 40 :: s) (d ++ [.opening false]) := by
  intro cs _
  have ht : startsTight (s ++ cs) = false := by
    cases s with
    | nil => exact absurd rfl hn
    | cons x s => simp only [List.cons_append, startsTight]; rw [hs x (by simp)]; rfl
  rw [List.append_assoc, List.cons_append, h _ (follow_punct p (Or.inl rfl) _), List.append_assoc, List.singleton_append, lex_open, ht, lex_white hs]

/-- An opening parenthesis and whitespace. -/
theorem rdpos_open {r d} (h : RdPos blob r d) {cs : List Byte} (hd : blob.drop r.pos = 40 :: cs) : ∃ r',
    wkrSkip blob (r.move 1) = .ok () r' ∧ RdPos blob r' (d ++ [.opening (startsTight cs)]) ∧ Tight blob r' ∧ r'.nv = r.nv ∧ NotWord blob r' ∧
    r' = (r.move 1).move (cs.takeWhile isSpace).length := by
  have ha := h.at.move (a := [40]) hd
  have hd1 : blob.drop (r.move 1).pos = cs := by
    show blob.drop (r.pos + [40].length) = cs
    exact drop_split (a := [40]) hd
  have hr := skip_run ha
  rw [show ([40] : List Byte).length = 1 from rfl, hd1] at hr
  obtain ⟨hs, hall⟩ := span_spaces cs
  have hp1 : blob.take (r.move 1).pos = blob.take r.pos ++ [40] := take_move (a := [40]) hd
  have hmv : ((r.move 1).move (cs.takeWhile isSpace).length).pos = r.pos + (40 :: cs.takeWhile isSpace).length := by
    simp only [WktR.move, List.length_cons]; omega
  have hd2 : blob.drop r.pos = (40 :: cs.takeWhile isSpace) ++ cs.dropWhile isSpace := by rw [hd, List.cons_append, ← hs]
  have hpt : blob.take ((r.move 1).move (cs.takeWhile isSpace).length).pos = blob.take r.pos ++ 40 :: cs.takeWhile isSpace := by
    rw [hmv, take_move hd2]
  have hpd : blob.drop ((r.move 1).move (cs.takeWhile isSpace).length).pos = cs.dropWhile isSpace := by
    rw [hmv, drop_split hd2]
  have hnw : NotWord blob ((r.move 1).move (cs.takeWhile isSpace).length) := by
    unfold NotWord
    rw [hpt]
    by_cases hn : cs.takeWhile isSpace = []
    · rw [hn]; exact notWord_punct _ (Or.inl rfl)
    · rw [show ∀ p : List Byte, p ++ 40 :: cs.takeWhile isSpace = (p ++ [40]) ++ cs.takeWhile isSpace by intro p; simp]
      exact not_endsWord_spaces _ hn hall
  have hti : Tight blob ((r.move 1).move (cs.takeWhile isSpace).length) := by
    unfold Tight; rw [hpd]; exact tight_drop_space _
  refine ⟨_, hr, ⟨?_, ?_, ?_, ?_⟩, hti, rfl, hnw, rfl⟩
  · have hl := congrArg List.length hd2
    rw [List.length_drop, List.length_append] at hl
    have := h.le
    rw [hmv]
    simp only [List.length_cons] at hl ⊢
    omega
  · have := h.left
    simp only [WktR.move]; omega
  · rw [hpt]
    by_cases hn : cs.takeWhile isSpace = []
    · rw [hn]
      have : startsTight cs = true := by
        cases cs with
        | nil => rfl
        | cons x cs =>
          simp only [startsTight]
          cases hx : isSpace x with
          | false => rfl
          | true => rw [List.takeWhile_cons, if_pos hx] at hn; cases hn
      rw [this]
      exact lexed_open h.lexed
    · have : startsTight cs = false := by
        cases cs with
        | nil => exact absurd rfl hn
        | cons x cs =>
          simp only [startsTight]
          cases hx : isSpace x with
          | true => rfl
          | false => rw [List.takeWhile_cons, if_neg (by simp [hx])] at hn; exact absurd rfl hn
      rw [this]
      exact lexed_open_spaces h.lexed hn hall
  · rw [hpt]
    refine ⟨fun hw => ?_, fun _ => by rw [hpd]; exact tight_drop_space _⟩
    rw [← hpt] at hw
    exact absurd hw hnw

/-- A word. -/
theorem rdpos_word {r d} (h : RdPos blob r d) {w b : List Byte} (hd : blob.drop r.pos = w ++ b) (hw : w ≠ []) (hall : ∀ c ∈ w, isWordChar c = true)
    (hb : startsEdge b = true) : RdPos blob (r.move w.length) (d ++ [.word w]) ∧ EndsWord (blob.take (r.move w.length).pos) := by
  have hew : EndsWord (blob.take r.pos ++ w) := (endsWord_snoc _ hw).mpr (endsWord_all hw hall)
  have hhd : ∃ x w', w = x :: w' ∧ isWordChar x = true := by
    cases w with
    | nil => exact absurd rfl hw
    | cons x w' => exact ⟨x, w', rfl, hall x (by simp)⟩
  obtain ⟨x, w', hxw, hx⟩ := hhd
  have hxs : isSpace x = false := by
    cases hsp : isSpace x with
    | false => rfl
    | true => rw [space_not_word hsp] at hx; cases hx
  have hnp : ¬ EndsWord (blob.take r.pos) := by
    intro he
    have := h.fits.1 he
    rw [hd, hxw, List.cons_append] at this
    simp only [startsEdge, hx] at this
    cases this
  constructor
  · refine h.move hd ?_ ⟨fun _ => hb, fun ho => ?_⟩
    · intro c hf
      rw [List.append_assoc, h.lexed (w ++ c) ⟨fun he => absurd he hnp, fun _ => ?_⟩, lex_word hall hw (hf.1 hew), List.append_assoc,
        List.singleton_append]
      rw [hxw, List.cons_append]
      simp only [startsTight, hxs]; rfl
    · rw [getLast_snoc _ hw] at ho
      have := hall 40 (List.mem_of_getLast? ho)
      simp [isWordChar] at this
  · show EndsWord (blob.take (r.pos + w.length))
    rw [take_move hd]; exact hew

theorem span_word (cs : List Byte) : cs = cs.takeWhile isWordChar ++ cs.dropWhile isWordChar ∧
    (∀ c ∈ cs.takeWhile isWordChar, isWordChar c = true) ∧ startsEdge (cs.dropWhile isWordChar) = true :=
  ⟨List.takeWhile_append_dropWhile.symm, fun c hc => List.all_eq_true.mp List.all_takeWhile c hc, edge_drop_word cs⟩
end

end Verif
