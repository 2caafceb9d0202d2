import Verif.Spec.WktGrammar
import Verif.Model.WktReader
/-!
# The WKT reader's scanning functions in terms of tokens
-/
namespace Verif
open Spec

/-- Characters of words. -/
def isWordChar (c : Byte) : Bool := !(c = 0 || isSpace c || c = 40 || c = 41 || c = 44)

theorem isSpace_eq (c : Byte) : wkrIsSpace c = isSpace c := rfl

theorem isSep_eq (c : Byte) : isWordChar c = (!(decide (c = 0)) && !wkrIsSep c) := by
  simp only [isWordChar, wkrIsSep, isSpace]
  rw [Bool.eq_iff_iff]
  simp only [Bool.not_eq_true', Bool.or_eq_false_iff, decide_eq_false_iff_not, Bool.and_eq_true]
  constructor
  · rintro ⟨⟨⟨⟨a, ⟨⟨⟨b, c⟩, d⟩, e⟩⟩, f⟩, g⟩, h⟩
    exact ⟨a, ⟨⟨⟨⟨⟨b, d⟩, c⟩, e⟩, h⟩, f⟩, g⟩
  · rintro ⟨a, ⟨⟨⟨⟨⟨b, d⟩, c⟩, e⟩, h⟩, f⟩, g⟩
    exact ⟨⟨⟨⟨a, ⟨⟨⟨b, c⟩, d⟩, e⟩⟩, f⟩, g⟩, h⟩

/-- Does not begin with a word character. -/
def startsEdge : List Byte → Bool
  | c :: _ => !isWordChar c
  | [] => true

theorem lexFrom_word (w : List Byte) : ∀ (acc rest : List Byte), (∀ c ∈ w, isWordChar c = true) →
    lexFrom acc (w ++ rest) = lexFrom (acc ++ w) rest := by
  induction w with
  | nil => intro acc rest _; simp
  | cons c w ih =>
    intro acc rest h
    have hc := h c (by simp)
    simp only [isWordChar, Bool.not_eq_true', Bool.or_eq_false_iff, decide_eq_false_iff_not] at hc
    obtain ⟨⟨⟨⟨h0, h1⟩, h2⟩, h3⟩, h4⟩ := hc
    rw [List.cons_append, lexFrom, if_neg h0, if_neg (by simp [h1]), if_neg h2, if_neg h3, if_neg h4, ih _ _ (fun c' h' => h c' (by simp [h']))]
    simp

theorem lexFrom_edge (acc cs : List Byte) (h : startsEdge cs = true) : lexFrom acc cs = wordTok acc ++ lex cs := by
  have hn : wordTok [] = [] := rfl
  cases cs with
  | nil => simp [lexFrom, lex, hn]
  | cons c cs =>
    simp only [startsEdge, isWordChar, Bool.not_not, Bool.or_eq_true, decide_eq_true_eq] at h
    unfold lex
    simp only [lexFrom, hn, List.nil_append]
    by_cases h0 : c = 0
    · rw [if_pos h0, if_pos h0]; simp
    rw [if_neg h0, if_neg h0]
    by_cases h1 : isSpace c = true
    · rw [if_pos h1, if_pos h1]
    rw [if_neg h1, if_neg h1]
    by_cases h2 : c = 40
    · rw [if_pos h2, if_pos h2]
    rw [if_neg h2, if_neg h2]
    by_cases h3 : c = 41
    · rw [if_pos h3, if_pos h3]
    rw [if_neg h3, if_neg h3]
    by_cases h4 : c = 44
    · rw [if_pos h4, if_pos h4]
    · rcases h with (((h | h) | h) | h) | h <;> contradiction

theorem lex_word {w rest : List Byte} (h : ∀ c ∈ w, isWordChar c = true) (hw : w ≠ []) (he : startsEdge rest = true) :
    lex (w ++ rest) = .word w :: lex rest := by
  unfold lex
  rw [lexFrom_word w [] rest h, lexFrom_edge _ _ he]
  simp [wordTok, hw, lex]

theorem lex_space {c : Byte} {cs : List Byte} (h : isSpace c = true) : lex (c :: cs) = lex cs := by
  have h0 : c ≠ 0 := by intro hc; subst hc; simp [isSpace] at h
  unfold lex
  rw [lexFrom, if_neg h0, if_pos h]; rfl

theorem lex_drop_space (cs : List Byte) : lex (cs.dropWhile isSpace) = lex cs := by
  induction cs with
  | nil => rfl
  | cons c cs ih =>
    rw [List.dropWhile_cons]
    split
    · rename_i h; rw [lex_space h]; exact ih
    · rfl

theorem tight_drop_space (cs : List Byte) : startsTight (cs.dropWhile isSpace) = true := by
  induction cs with
  | nil => rfl
  | cons c cs ih =>
    rw [List.dropWhile_cons]
    split
    · exact ih
    · rename_i h; simp only [startsTight]; simpa using h

theorem edge_drop_word (cs : List Byte) : startsEdge (cs.dropWhile isWordChar) = true := by
  induction cs with
  | nil => rfl
  | cons c cs ih =>
    rw [List.dropWhile_cons]
    split
    · exact ih
    · rename_i h; simp only [startsEdge]; simpa using h

theorem lex_nil : lex [] = [] := rfl
theorem lex_nul (cs : List Byte) : lex (0 :: cs) = [] := rfl
theorem lex_open (cs : List Byte) : lex (40 :: cs) = .opening (startsTight cs) :: lex cs := rfl
theorem lex_close (cs : List Byte) : lex (41 :: cs) = .closing :: lex cs := rfl
theorem lex_comma (cs : List Byte) : lex (44 :: cs) = .comma :: lex cs := rfl

/-- The first token of a text that does not begin with whitespace. -/
inductive Head : List Byte → List Tok → Prop where
  | stop {cs : List Byte} : startsEdge cs = true → startsTight cs = true → (cs = [] ∨ ∃ t, cs = 0 :: t) → Head cs []
  | opening (cs : List Byte) (b : Bool) : b = startsTight cs → Head (40 :: cs) (.opening b :: lex cs)
  | closing (cs : List Byte) : Head (41 :: cs) (.closing :: lex cs)
  | comma (cs : List Byte) : Head (44 :: cs) (.comma :: lex cs)
  | word (w rest : List Byte) : w ≠ [] → (∀ c ∈ w, isWordChar c = true) → startsEdge rest = true → Head (w ++ rest) (.word w :: lex rest)

theorem head_cases (cs : List Byte) (h : startsTight cs = true) : Head cs (lex cs) := by
  by_cases he : startsEdge cs = true
  · cases cs with
    | nil => exact .stop he h (Or.inl rfl)
    | cons c cs =>
      simp only [startsTight] at h
      simp only [startsEdge, isWordChar, Bool.not_not, Bool.or_eq_true, decide_eq_true_eq] at he
      rcases he with (((h0 | h1) | h2) | h3) | h4
      · subst h0; exact .stop rfl rfl (Or.inr ⟨_, rfl⟩)
      · rw [h1] at h; cases h
      · subst h2; exact .opening cs _ rfl
      · subst h3; exact .closing cs
      · subst h4; exact .comma cs
  · have hs : cs.takeWhile isWordChar ++ cs.dropWhile isWordChar = cs := List.takeWhile_append_dropWhile
    have hw : cs.takeWhile isWordChar ≠ [] := by
      cases cs with
      | nil => simp [startsEdge] at he
      | cons c cs =>
        simp only [startsEdge, Bool.not_eq_true', Bool.not_eq_false] at he
        rw [List.takeWhile_cons, if_pos he]; simp
    have hall : ∀ c ∈ cs.takeWhile isWordChar, isWordChar c = true := fun c hc => List.all_eq_true.mp List.all_takeWhile c hc
    have hl := lex_word hall hw (edge_drop_word cs)
    have := Head.word _ _ hw hall (edge_drop_word cs)
    rw [hs] at hl this
    rw [hl]; exact this

/-! ## Positions -/

/-- The reader stands at `ts`. -/
structure At (blob : List Byte) (r : WktR) (ts : List Tok) : Prop where
  le : r.pos ≤ blob.length
  left : r.left = (blob.length : Int) - r.pos
  toks : lex (blob.drop r.pos) = ts

def Tight (blob : List Byte) (r : WktR) : Prop := startsTight (blob.drop r.pos) = true
def Edge (blob : List Byte) (r : WktR) : Prop := startsEdge (blob.drop r.pos) = true

/-- Only the position changed, not backwards. -/
structure Moved (r r' : WktR) : Prop where
  left : r'.left ≤ r.left
  nv : r'.nv = r.nv
  n : r'.n = r.n
  coords : r'.coords = r.coords

theorem Moved.refl (r) : Moved r r := ⟨Int.le_refl _, rfl, rfl, rfl⟩
theorem Moved.trans {a b c} (h : Moved a b) (h' : Moved b c) : Moved a c :=
  ⟨Int.le_trans h'.1 h.1, h'.2.trans h.2, h'.3.trans h.3, h'.4.trans h.4⟩

def WktR.move (r : WktR) (k : Nat) : WktR := { r with pos := r.pos + k, left := r.left - k }

theorem moved_move (r : WktR) (k : Nat) : Moved r (r.move k) := ⟨by simp only [WktR.move]; omega, rfl, rfl, rfl⟩

section
variable {blob : List Byte}

theorem At.lenDrop {r ts} (h : At blob r ts) : r.left = ((blob.drop r.pos).length : Int) := by
  rw [List.length_drop, h.left]; have := h.le; omega

theorem drop_split {r : WktR} {a b : List Byte} (h : blob.drop r.pos = a ++ b) : blob.drop (r.pos + a.length) = b := by
  rw [← List.drop_drop, h, List.drop_left]

theorem At.move {r ts} (h : At blob r ts) {a b : List Byte} (hd : blob.drop r.pos = a ++ b) :
    At blob (r.move a.length) (lex b) := by
  have hl := congrArg List.length hd
  rw [List.length_drop, List.length_append] at hl
  have := h.le
  refine ⟨by simp only [WktR.move]; omega, by simp only [WktR.move]; have := h.left; omega, ?_⟩
  simp only [WktR.move]
  rw [drop_split hd]

theorem get_drop {r : WktR} {c : Byte} {cs : List Byte} (h : blob.drop r.pos = c :: cs) : blob[r.pos]? = some c := by
  have := congrArg (fun l => l[0]?) h
  simpa using this

theorem skipLoop_run (cs : List Byte) : ∀ (fuel : Nat) (r : WktR), blob.drop r.pos = cs → r.left = (cs.length : Int) → cs.length < fuel →
    wkrSkipLoop blob fuel r = .ok () (r.move (cs.takeWhile isSpace).length) := by
  induction cs with
  | nil =>
    intro fuel r _ h1 h2
    obtain ⟨f, rfl⟩ : ∃ f, fuel = f + 1 := ⟨fuel - 1, by simp at h2; omega⟩
    simp only [wkrSkipLoop]
    rw [if_neg (by simp at h1; omega)]
    simp [WktR.move]
  | cons c cs ih =>
    intro fuel r h0 h1 h2
    obtain ⟨f, rfl⟩ : ∃ f, fuel = f + 1 := ⟨fuel - 1, by simp at h2; omega⟩
    simp only [List.length_cons] at h1 h2
    simp only [wkrSkipLoop]
    rw [if_pos (by omega), get_drop h0]
    simp only [List.takeWhile_cons]
    show (if isSpace c = true then _ else _) = _
    by_cases hc : isSpace c = true
    · rw [if_pos hc, if_pos hc, ih f _ (by simpa using drop_split (a := [c]) h0) (by simp only []; omega) (by omega)]
      simp only [WktR.move, List.length_cons]
      congr 2
      · omega
      · omega
    · rw [if_neg hc, if_neg hc]; simp [WktR.move]

theorem skip_at {r ts} (h : At blob r ts) : ∃ r', wkrSkip blob r = .ok () r' ∧ At blob r' ts ∧ Tight blob r' ∧ Moved r r' := by
  have hs : blob.drop r.pos = (blob.drop r.pos).takeWhile isSpace ++ (blob.drop r.pos).dropWhile isSpace :=
    List.takeWhile_append_dropWhile.symm
  refine ⟨_, skipLoop_run (blob.drop r.pos) _ r rfl h.lenDrop ?_, ?_, ?_, moved_move _ _⟩
  · have := h.lenDrop; omega
  · have := h.move hs
    rw [lex_drop_space, h.toks] at this
    exact this
  · unfold Tight
    simp only [WktR.move]
    rw [drop_split hs]
    exact tight_drop_space _

theorem takeWhile_take (p : Byte → Bool) : ∀ (l : List Byte) (n : Nat), (l.take n).takeWhile p = (l.takeWhile p).take n
  | [], n => by simp
  | a :: l, 0 => by simp
  | a :: l, n + 1 => by
    simp only [List.take_succ_cons, List.takeWhile_cons]
    split
    · rw [takeWhile_take p l n]; simp
    · simp

theorem untilLoop_run (cs : List Byte) : ∀ (fuel : Nat) (r : WktR) (m : Nat), blob.drop r.pos = cs → r.left = (m : Int) → m ≤ cs.length → m < fuel →
    wkrUntilLoop blob fuel r = .ok () (r.move ((cs.take m).takeWhile isWordChar).length) := by
  induction cs with
  | nil =>
    intro fuel r m _ h1 hm h2
    simp only [List.length_nil, Nat.le_zero] at hm
    subst hm
    obtain ⟨f, rfl⟩ : ∃ f, fuel = f + 1 := ⟨fuel - 1, by omega⟩
    simp only [wkrUntilLoop]
    rw [if_neg (by omega)]
    simp [WktR.move]
  | cons c cs ih =>
    intro fuel r m h0 h1 hm h2
    obtain ⟨f, rfl⟩ : ∃ f, fuel = f + 1 := ⟨fuel - 1, by omega⟩
    simp only [List.length_cons] at hm
    simp only [wkrUntilLoop]
    cases m with
    | zero => rw [if_neg (by omega)]; simp [WktR.move]
    | succ m =>
      rw [if_pos (by omega), get_drop h0]
      simp only [List.take_succ_cons, List.takeWhile_cons]
      have hw := isSep_eq c
      by_cases hc0 : c = 0
      · rw [if_pos hc0, if_neg (by rw [hw, decide_eq_true hc0]; simp)]; simp [WktR.move]
      rw [if_neg hc0]
      by_cases hs : wkrIsSep c = true
      · rw [if_pos hs, if_neg (by rw [hw, hs]; simp)]; simp [WktR.move]
      · rw [if_neg hs, if_pos (by rw [hw, decide_eq_false hc0]; simp [hs]), ih f _ m (by simpa using drop_split (a := [c]) h0) (by simp only []; omega) (by omega) (by omega)]
        simp only [WktR.move, List.length_cons]
        congr 2
        · omega
        · omega

theorem untilSep_at {r ts} (h : At blob r ts) :
    wkrUntilSep blob r = .ok () (r.move ((blob.drop r.pos).takeWhile isWordChar).length) := by
  unfold wkrUntilSep
  have hl := h.lenDrop
  rw [untilLoop_run (blob.drop r.pos) _ r (blob.drop r.pos).length rfl hl (Nat.le_refl _) (by omega), List.take_length]

theorem word_at {r ts} (h : At blob r ts) (max : Nat) :
    wkrWord blob max r = .ok (((blob.drop r.pos).takeWhile isWordChar).take max) r := by
  unfold wkrWord wkrUntilSep
  have hl := h.lenDrop
  have hrun : ∀ m : Nat, (if r.left > (max : Int) then (max : Int) else r.left) = (m : Int) → m ≤ (blob.drop r.pos).length → (blob.drop r.pos).take m = (blob.drop r.pos).take max →
      (match wkrUntilLoop blob ((if r.left > (max : Int) then (max : Int) else r.left).toNat + 1) { r with left := if r.left > (max : Int) then (max : Int) else r.left } with
      | .ok _ tmp => Res.ok ((blob.drop r.pos).take (tmp.pos - r.pos)) r
      | .err rc _ => .err rc r
      | .ub => .ub) = .ok (((blob.drop r.pos).takeWhile isWordChar).take max) r := by
    intro m e1 e2 e3
    rw [untilLoop_run (blob.drop r.pos) _ { r with left := if r.left > (max : Int) then (max : Int) else r.left } m rfl e1 e2 (by omega)]
    simp only [WktR.move]
    rw [show r.pos + ((List.take m (List.drop r.pos blob)).takeWhile isWordChar).length - r.pos = ((List.take m (List.drop r.pos blob)).takeWhile isWordChar).length by omega,
      e3, takeWhile_take]
    congr 1
    have hp : ((blob.drop r.pos).takeWhile isWordChar).take max <+: blob.drop r.pos :=
      (List.take_prefix _ _).trans (List.takeWhile_prefix _)
    exact (List.prefix_iff_eq_take.mp hp).symm
  by_cases hc : r.left > (max : Int)
  · exact hrun max (by rw [if_pos hc]) (by omega) rfl
  · refine hrun (blob.drop r.pos).length (by rw [if_neg hc]; exact hl) (Nat.le_refl _) ?_
    rw [List.take_length, List.take_of_length_le (by omega)]

theorem peek_at {r ts} (h : At blob r ts) :
    wkrPeek blob r = .ok ((blob.drop r.pos).head?.getD 0) r := by
  unfold wkrPeek
  have hl := h.lenDrop
  cases hd : blob.drop r.pos with
  | nil => rw [hd] at hl; rw [if_neg (by simp at hl; omega)]; rfl
  | cons c cs =>
    rw [hd] at hl
    rw [if_pos (by simp at hl; omega), get_drop hd]; rfl

theorem char_run {r ts} (h : At blob r ts) (c : Byte) :
    wkrChar blob c r = (match blob.drop r.pos with
      | [] => .err EINVAL r
      | d :: _ => if d = c then .ok () (r.move 1) else .err EINVAL r) := by
  unfold wkrChar
  have hl := h.lenDrop
  cases hd : blob.drop r.pos with
  | nil => rw [hd] at hl; rw [if_neg (by simp at hl; omega)]
  | cons d cs =>
    rw [hd] at hl
    rw [if_pos (by simp at hl; omega), get_drop hd]; rfl

/-! ## Primitives by token -/

/-- The token for a punctuation character. -/
theorem punct_at {r ts} (h : At blob r ts) (ht : Tight blob r) {c : Byte} {k : Tok} (hk : c = 41 ∧ k = .closing ∨ c = 44 ∧ k = .comma) :
    match ts with
    | [] => wkrChar blob c r = .err EINVAL r
    | t :: ts' => if t = k then ∃ r', wkrChar blob c r = .ok () r' ∧ At blob r' ts' ∧ Moved r r' ∧ r'.left < r.left
        else wkrChar blob c r = .err EINVAL r := by
  have hh := head_cases _ ht
  rw [h.toks] at hh
  have hr := char_run h c
  generalize hd : blob.drop r.pos = cs at hh hr
  have hm : ∀ a b, cs = a :: b → At blob (r.move 1) (lex b) ∧ Moved r (r.move 1) ∧ (r.move 1).left < r.left := by
    intro a b hab
    refine ⟨h.move (a := [a]) (by rw [hd, hab]; rfl), moved_move _ _, ?_⟩
    simp only [WktR.move]; omega
  cases hh with
  | stop he _ h3 =>
    rcases h3 with rfl | ⟨t, rfl⟩
    · exact hr
    · simp only [] at hr ⊢
      rw [if_neg (by rcases hk with ⟨rfl, _⟩ | ⟨rfl, _⟩ <;> decide)] at hr
      exact hr
  | opening cs b hb =>
    simp only [] at hr ⊢
    rcases hk with ⟨rfl, rfl⟩ | ⟨rfl, rfl⟩
    · rw [if_neg (by decide)] at hr; rw [if_neg (by simp)]; exact hr
    · rw [if_neg (by decide)] at hr; rw [if_neg (by simp)]; exact hr
  | closing cs =>
    simp only [] at hr ⊢
    rcases hk with ⟨rfl, rfl⟩ | ⟨rfl, rfl⟩
    · rw [if_pos rfl] at hr ⊢
      exact ⟨_, hr, hm _ _ rfl⟩
    · rw [if_neg (by decide)] at hr; rw [if_neg (by simp)]; exact hr
  | comma cs =>
    simp only [] at hr ⊢
    rcases hk with ⟨rfl, rfl⟩ | ⟨rfl, rfl⟩
    · rw [if_neg (by decide)] at hr; rw [if_neg (by simp)]; exact hr
    · rw [if_pos rfl] at hr ⊢
      exact ⟨_, hr, hm _ _ rfl⟩
  | word w rest h1 h2 h3 =>
    cases w with
    | nil => exact absurd rfl h1
    | cons d w =>
      have hwd := h2 d (by simp)
      simp only [List.cons_append] at hr ⊢
      rcases hk with ⟨rfl, rfl⟩ | ⟨rfl, rfl⟩
      · rw [if_neg (by intro hd; subst hd; simp [isWordChar] at hwd)] at hr; rw [if_neg (by simp)]; exact hr
      · rw [if_neg (by intro hd; subst hd; simp [isWordChar] at hwd)] at hr; rw [if_neg (by simp)]; exact hr

/-- The word at the reader's position; empty if there is none. -/
theorem wordHere {r ts} (h : At blob r ts) (ht : Tight blob r) :
    (∃ w ts', ts = .word w :: ts' ∧ w ≠ [] ∧ (blob.drop r.pos).takeWhile isWordChar = w ∧ At blob (r.move w.length) ts' ∧ Edge blob (r.move w.length)) ∨
    ((∀ w ts', ts ≠ .word w :: ts') ∧ (blob.drop r.pos).takeWhile isWordChar = []) := by
  have hh := head_cases _ ht
  rw [h.toks] at hh
  generalize hd : blob.drop r.pos = cs at hh
  have hedge : ∀ cs : List Byte, startsEdge cs = true → cs.takeWhile isWordChar = [] := by
    intro cs hc
    cases cs with
    | nil => rfl
    | cons c cs =>
      simp only [startsEdge, Bool.not_eq_true'] at hc
      rw [List.takeWhile_cons, if_neg (by simp [hc])]
  cases hh with
  | stop he _ _ => exact Or.inr ⟨by simp, hedge _ he⟩
  | opening cs b hb => exact Or.inr ⟨by simp, hedge _ (by simp [startsEdge]; decide)⟩
  | closing cs => exact Or.inr ⟨by simp, hedge _ (by simp [startsEdge]; decide)⟩
  | comma cs => exact Or.inr ⟨by simp, hedge _ (by simp [startsEdge]; decide)⟩
  | word w rest h1 h2 h3 =>
    refine Or.inl ⟨w, _, rfl, h1, ?_, h.move hd, ?_⟩
    · rw [List.takeWhile_append_of_pos h2, hedge _ h3, List.append_nil]
    · unfold Edge
      simp only [WktR.move]
      rw [drop_split hd]; exact h3

/-- `EMPTY`. -/
theorem empty_at {r ts} (h : At blob r ts) (ht : Tight blob r) :
    match ts with
    | .word w :: ts' => if w = str "EMPTY" then ∃ r', wkrEmpty blob r = .ok () r' ∧ At blob r' ts' ∧ Moved r r'
        else wkrEmpty blob r = .err EINVAL r
    | _ => wkrEmpty blob r = .err EINVAL r := by
  have hr : wkrEmpty blob r = if ((blob.drop r.pos).takeWhile isWordChar).take 6 = str "EMPTY" then .ok () (r.move 5) else .err EINVAL r := by
    unfold wkrEmpty
    rw [M.bind_ok (word_at h 6)]
    split <;> rfl
  have h5 : (str "EMPTY").length = 5 := by decide
  rcases wordHere h ht with ⟨w, ts', rfl, h1, h2, h3, -⟩ | ⟨h1, h2⟩
  · rw [h2] at hr
    simp only []
    by_cases hw : w = str "EMPTY"
    · rw [if_pos hw]
      rw [hw] at hr h3
      rw [if_pos (by decide)] at hr
      rw [h5] at h3
      exact ⟨_, hr, h3, moved_move _ _⟩
    · rw [if_neg hw]
      rw [if_neg] at hr
      · exact hr
      · intro hc
        apply hw
        have hl := congrArg List.length hc
        rw [List.length_take, h5] at hl
        rw [← hc, List.take_of_length_le (by omega)]
  · rw [h2, if_neg (by decide)] at hr
    split
    · exact absurd rfl (h1 _ _)
    · exact hr

theorem take_eq_short {w k : List Byte} {n : Nat} (hk : k.length < n) : w.take n = k ↔ w = k := by
  constructor
  · intro hc
    have hl := congrArg List.length hc
    rw [List.length_take] at hl
    rw [← hc, List.take_of_length_le (by omega)]
  · intro hc; subst hc; rw [List.take_of_length_le (by omega)]

theorem type_take (w : List Byte) : wkrType (w.take 19) = wkrType w := by
  have e : ∀ k : List Byte, k.length < 19 → (w.take 19 = k ↔ w = k) := fun k => take_eq_short
  unfold wkrType
  simp only [e (str "POINT") (by decide), e (str "LINESTRING") (by decide), e (str "POLYGON") (by decide), e (str "MULTIPOINT") (by decide),
    e (str "MULTILINESTRING") (by decide), e (str "MULTIPOLYGON") (by decide), e (str "GEOMETRYCOLLECTION") (by decide)]

theorem dims_take (w : List Byte) : wkrDims (w.take 3) = wkrDims w := by
  have e : ∀ k : List Byte, k.length < 3 → (w.take 3 = k ↔ w = k) := fun k => take_eq_short
  unfold wkrDims
  simp only [e (str "Z") (by decide), e (str "M") (by decide), e (str "ZM") (by decide)]

theorem type_take_len {w : List Byte} {gt : Nat} (h : wkrType w = some gt) : w.take 19 = w := by
  refine List.take_of_length_le ?_
  unfold wkrType at h
  split at h
  · rename_i e; subst e; decide
  split at h
  · rename_i e; subst e; decide
  split at h
  · rename_i e; subst e; decide
  split at h
  · rename_i e; subst e; decide
  split at h
  · rename_i e; subst e; decide
  split at h
  · rename_i e; subst e; decide
  split at h
  · rename_i e; subst e; decide
  · cases h

/-- Dimensions word at the front of `ts`, and what follows. -/
def dimsToks (ts : List Tok) : Nat × Nat × List Tok :=
  match ts with
  | .word w :: ts' => if w = str "Z" ∨ w = str "M" ∨ w = str "ZM" then ((wkrDims w).1, (wkrDims w).2.1, ts') else (1, 2, ts)
  | _ => (1, 2, ts)

/-- Keyword and dimensions. -/
theorem tag_at {r ts} (h : At blob r ts) :
    match ts with
    | .word w :: ts' => (match wkrType w with
      | none => ∃ r', wkrTag blob r = .err EINVAL r'
      | some gt => ∃ r', wkrTag blob r = .ok (gt, (dimsToks ts').1) r' ∧ At blob r' (dimsToks ts').2.2 ∧ r'.nv = (dimsToks ts').2.1 ∧
          r'.left < r.left)
    | _ => ∃ r', wkrTag blob r = .err EINVAL r' := by
  obtain ⟨r1, e1, a1, t1, m1⟩ := skip_at h
  have hr : wkrTag blob r = (match wkrType (((blob.drop r1.pos).takeWhile isWordChar).take 19) with
      | none => .err EINVAL r1
      | some gt => (do
          wkrAdvance (((blob.drop r1.pos).takeWhile isWordChar).take 19).length
          wkrSkip blob
          let w ← wkrWord blob 3
          M.modify fun r => { r with nv := (wkrDims w).2.1 }
          wkrAdvance (wkrDims w).2.2
          pure (gt, (wkrDims w).1)) r1) := by
    unfold wkrTag
    rw [M.bind_ok e1, M.bind_ok (word_at a1 19)]
    cases wkrType (((blob.drop r1.pos).takeWhile isWordChar).take 19) <;> rfl
  rcases wordHere a1 t1 with ⟨w, ts', rfl, h1, h2, h3, -⟩ | ⟨h1, h2⟩
  · rw [h2, type_take] at hr
    simp only []
    cases hg : wkrType w with
    | none => rw [hg] at hr; exact ⟨_, hr⟩
    | some gt =>
      rw [hg] at hr
      simp only [] at hr ⊢
      rw [type_take_len hg] at hr
      obtain ⟨r2, e2, a2, t2, m2⟩ := skip_at h3
      rw [M.bind_ok (m := wkrAdvance w.length) (s := r1) (a := ()) (s' := r1.move w.length) rfl, M.bind_ok e2, M.bind_ok (word_at a2 3), dims_take] at hr
      have hlt : r2.left < r.left := by
        have q1 := m2.left
        have q2 := m1.left
        simp only [WktR.move] at q1
        have : 0 < w.length := List.length_pos_iff.mpr h1
        omega
      rcases wordHere a2 t2 with ⟨w', ts'', rfl, g1, g2, g3, -⟩ | ⟨g1, g2⟩
      · rw [g2] at hr
        simp only [dimsToks]
        by_cases hz : w' = str "Z" ∨ w' = str "M" ∨ w' = str "ZM"
        · rw [if_pos hz]
          have hlen : (wkrDims w').2.2 = w'.length := by rcases hz with rfl | rfl | rfl <;> decide
          rw [hlen] at hr
          have a3 : At blob { r2.move w'.length with nv := (wkrDims w').2.1 } ts'' := ⟨g3.le, g3.left, g3.toks⟩
          refine ⟨_, hr, a3, rfl, ?_⟩
          show r2.left - _ < _
          omega
        · rw [if_neg hz]
          have hd : wkrDims w' = (1, 2, 0) := by
            unfold wkrDims
            rw [if_neg (fun e => hz (Or.inl e)), if_neg (fun e => hz (Or.inr (Or.inl e))), if_neg (fun e => hz (Or.inr (Or.inr e)))]
          rw [hd] at hr
          have a3 : At blob { r2.move 0 with nv := 2 } (.word w' :: ts'') := ⟨a2.le, by simp only [WktR.move]; have := a2.left; omega, a2.toks⟩
          refine ⟨_, hr, a3, rfl, ?_⟩
          show r2.left - _ < _
          omega
      · rw [g2] at hr
        have hd : dimsToks ts' = (1, 2, ts') := by
          unfold dimsToks
          split
          · exact absurd rfl (g1 _ _)
          · rfl
        rw [hd]
        have a3 : At blob { r2.move 0 with nv := 2 } ts' := ⟨a2.le, by simp only [WktR.move]; have := a2.left; omega, a2.toks⟩
        refine ⟨_, hr, a3, rfl, ?_⟩
        show r2.left - _ < _
        omega
  · rw [h2] at hr
    have : wkrTag blob r = .err EINVAL r1 := by rw [hr]; rfl
    split
    · exact absurd rfl (h1 _ _)
    · exact ⟨_, this⟩

end
end Verif
