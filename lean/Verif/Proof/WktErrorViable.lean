import Verif.Proof.WktErrorPos
/-!
# Where the WKT reader stops, the text could have gone on
-/
namespace Verif
open Spec

/-- Tokens that can be written down: words are words, and no space follows opening parentheses. -/
def PlainToks (ts : List Tok) : Prop := ∀ t ∈ ts, match t with
  | .opening b => b = true
  | .word w => w ≠ [] ∧ ∀ c ∈ w, isWordChar c = true
  | _ => True

theorem PlainToks.append {a b} (ha : PlainToks a) (hb : PlainToks b) : PlainToks (a ++ b) := by
  intro t ht
  rcases List.mem_append.mp ht with h | h
  · exact ha t h
  · exact hb t h

theorem PlainToks.nil : PlainToks [] := by intro t ht; cases ht

theorem PlainToks.cons {t ts} (h : PlainToks [t]) (hs : PlainToks ts) : PlainToks (t :: ts) := PlainToks.append (a := [t]) h hs

theorem plain_opening : PlainToks [.opening true] := by intro t ht; simp only [List.mem_singleton] at ht; subst ht; rfl
theorem plain_closing : PlainToks [.closing] := by intro t ht; simp only [List.mem_singleton] at ht; subst ht; trivial
theorem plain_comma : PlainToks [.comma] := by intro t ht; simp only [List.mem_singleton] at ht; subst ht; trivial
theorem plain_word {w : List Byte} (h : w ≠ []) (h2 : ∀ c ∈ w, isWordChar c = true) : PlainToks [.word w] := by
  intro t ht; simp only [List.mem_singleton] at ht; subst ht; exact ⟨h, h2⟩

section
variable (parse : List Byte → Option Dbl) (blob : List Byte)

/-- `ts` begins with what is wanted, and that can be written after `p`. -/
def GoesOn (p : List Byte) (w : WkWant) (ts : List Tok) : Prop :=
  match w with
  | .char c => ∃ tl, (c = 40 ∧ ts = .opening true :: tl) ∨ ((c = 41 ∨ c = 44) ∧ ts = punctTok c :: tl)
  | .whitespace => EndsWord p ∧ ∃ n tl, ts = .word n :: tl ∧ (parse n).isSome
  | .openingOrEmpty => ∃ tl, ts = .opening true :: tl
  | .number => ¬ EndsWord p ∧ ∃ n tl, ts = .word n :: tl ∧ (parse n).isSome
  | .geometryType => ¬ EndsWord p ∧ ∃ tl, ts = .word (str "POINT") :: tl
  | .endOfInput => False
  | .internal => False

theorem GoesOn.append {p w a} (b : List Tok) (h : GoesOn parse p w a) : GoesOn parse p w (a ++ b) := by
  cases w with
  | char c =>
    obtain ⟨tl, ⟨h1, rfl⟩ | ⟨h1, rfl⟩⟩ := h
    · exact ⟨tl ++ b, Or.inl ⟨h1, rfl⟩⟩
    · exact ⟨tl ++ b, Or.inr ⟨h1, rfl⟩⟩
  | whitespace => obtain ⟨h0, n, tl, rfl, h1⟩ := h; exact ⟨h0, n, tl ++ b, rfl, h1⟩
  | openingOrEmpty => obtain ⟨tl, rfl⟩ := h; exact ⟨tl ++ b, rfl⟩
  | number => obtain ⟨h0, n, tl, rfl, h1⟩ := h; exact ⟨h0, n, tl ++ b, rfl, h1⟩
  | geometryType => obtain ⟨h0, tl, rfl⟩ := h; exact ⟨h0, tl ++ b, rfl⟩
  | endOfInput => exact h
  | internal => exact h

/-- After the tokens `d`: either tokens of `L` were read, or the reader stopped at a place from where tokens of `L` could have
been completed. -/
def VRes (P : WktR → Prop) (d : List Tok) (L : List Tok → Prop) : EpRes Unit → Prop
  | .ok _ r' => ∃ t, L t ∧ RdPos blob r' (d ++ t) ∧ P r'
  | .err w k => k ≤ blob.length ∧ ∃ t1 t2, Lexed (blob.take k) (d ++ t1) ∧ L (t1 ++ t2) ∧ PlainToks t2 ∧ GoesOn parse (blob.take k) w t2
  | .ub => True
end

theorem Ep.bind_ok {α β : Type} {e : Ep α} {f : α → Ep β} {r r' : WktR} {a : α} (h : e r = .ok a r') : (e >>= f) r = f a r' := by
  rw [Ep.bind_run, h]

theorem Ep.bind_err {α β : Type} {e : Ep α} {f : α → Ep β} {r : WktR} {w k} (h : e r = .err w k) : (e >>= f) r = .err w k := by
  rw [Ep.bind_run, h]

theorem Ep.bind_ub {α β : Type} {e : Ep α} {f : α → Ep β} {r : WktR} (h : e r = .ub) : (e >>= f) r = .ub := by
  rw [Ep.bind_run, h]

theorem Ep.of_ok {α : Type} {w : WkWant} {m : M WktR α} {r r' : WktR} {a : α} (h : m r = .ok a r') : Ep.of w m r = .ok a r' := by
  rw [Ep.of_run, h]

theorem Ep.safe_ok {α : Type} {m : M WktR α} {r r' : WktR} {a : α} (h : m r = .ok a r') : Ep.safe m r = .ok a r' := Ep.of_ok h

theorem Ep.of_err {α : Type} {w : WkWant} {m : M WktR α} {r r' : WktR} {rc} (h : m r = .err rc r') : Ep.of w m r = .err w r'.pos := by
  rw [Ep.of_run, h]

theorem Ep.of_ub {α : Type} {w : WkWant} {m : M WktR α} {r : WktR} (h : m r = .ub) : Ep.of w m r = .ub := by
  rw [Ep.of_run, h]

section
variable {parse : List Byte → Option Dbl} {blob : List Byte}

theorem VRes.mono {P Q d} {L L' : List Tok → Prop} {x} (h : VRes parse blob P d L x) (hL : ∀ t, L t → L' t) (hP : ∀ r, P r → Q r) :
    VRes parse blob Q d L' x := by
  cases x with
  | ok a r' => obtain ⟨t, h1, h2, h3⟩ := h; exact ⟨t, hL t h1, h2, hP _ h3⟩
  | err w k => obtain ⟨hk, t1, t2, h1, h2, h3, h4⟩ := h; exact ⟨hk, t1, t2, h1, hL _ h2, h3, h4⟩
  | ub => trivial

theorem VRes.shift {P d} {L : List Tok → Prop} (t : List Tok) {x} (h : VRes parse blob P (d ++ t) (fun u => L (t ++ u)) x) :
    VRes parse blob P d L x := by
  cases x with
  | ok a r' => obtain ⟨u, h1, h2, h3⟩ := h; exact ⟨t ++ u, h1, by rw [← List.append_assoc]; exact h2, h3⟩
  | err w k =>
    obtain ⟨hk, t1, t2, h1, h2, h3, h4⟩ := h
    exact ⟨hk, t ++ t1, t2, by rw [← List.append_assoc]; exact h1, by rw [List.append_assoc]; exact h2, h3, h4⟩
  | ub => trivial

theorem VRes.bind {P Q d} {L1 L : List Tok → Prop} {e : Ep Unit} {f : Unit → Ep Unit} {r : WktR} (h1 : VRes parse blob P d L1 (e r))
    (hw : ∀ t, L1 t → ∃ t3, PlainToks t3 ∧ L (t ++ t3))
    (h2 : ∀ r' t, L1 t → RdPos blob r' (d ++ t) → P r' → VRes parse blob Q (d ++ t) (fun u => L (t ++ u)) (f () r')) :
    VRes parse blob Q d L ((e >>= f) r) := by
  cases he : e r with
  | ok a r' =>
    rw [Ep.bind_ok he]
    rw [he] at h1
    obtain ⟨t, q1, q2, q3⟩ := h1
    exact (h2 r' t q1 q2 q3).shift
  | err w k =>
    rw [Ep.bind_err he]
    rw [he] at h1
    obtain ⟨hk, t1, t2, q1, q2, q3, q4⟩ := h1
    obtain ⟨t3, p1, p2⟩ := hw _ q2
    exact ⟨hk, t1, t2 ++ t3, q1, by rw [← List.append_assoc]; exact p2, q3.append p1, q4.append _ _⟩
  | ub => rw [Ep.bind_ub he]; trivial

/-- A step that does not read anything. -/
def Silent (e : Ep Unit) : Prop := ∀ r, e r = .ub ∨ ∃ r', e r = .ok () r' ∧ r'.pos = r.pos ∧ r'.left = r.left ∧ r'.nv = r.nv

theorem silent_reset : Silent epReset := fun r => Or.inr ⟨{ r with n := 0 }, rfl, rfl, rfl, rfl⟩

theorem silent_flush : Silent epFlush := by
  intro r
  unfold epFlush
  split
  · split
    · exact Or.inr ⟨_, rfl, rfl, rfl, rfl⟩
    · exact Or.inl rfl
  · exact Or.inr ⟨_, rfl, rfl, rfl, rfl⟩

theorem VRes.silent {Q d} {L : List Tok → Prop} {e : Ep Unit} {f : Unit → Ep Unit} {r : WktR} (he : Silent e) (hp : RdPos blob r d)
    (h2 : ∀ r', r'.pos = r.pos → RdPos blob r' d → r'.nv = r.nv → VRes parse blob Q d L (f () r')) : VRes parse blob Q d L ((e >>= f) r) := by
  rcases he r with h | ⟨r', h, q1, q2, q3⟩
  · rw [Ep.bind_ub h]; trivial
  · rw [Ep.bind_ok h]; exact h2 r' q1 (hp.same q1 q2) q3

theorem VRes.skip {Q d} {L : List Tok → Prop} {f : Unit → Ep Unit} {r : WktR} (hp : RdPos blob r d)
    (h2 : ∀ r', RdPos blob r' d → Tight blob r' → r'.nv = r.nv → (NotWord blob r → NotWord blob r') → VRes parse blob Q d L (f () r')) :
    VRes parse blob Q d L ((Ep.safe (wkrSkip blob) >>= f) r) := by
  obtain ⟨r', h, q1, q2, q3, q4⟩ := rdpos_skip hp
  rw [Ep.bind_ok (Ep.safe_ok h)]
  exact h2 r' q1 q2 q3 q4

theorem VRes.peek {Q d} {L : List Tok → Prop} {f : Byte → Ep Unit} {r : WktR} (hp : RdPos blob r d)
    (h2 : VRes parse blob Q d L (f ((blob.drop r.pos).head?.getD 0) r)) :
    VRes parse blob Q d L ((Ep.safe (wkrPeek blob) >>= f) r) := by
  rw [Ep.bind_ok (Ep.safe_ok (peek_at hp.at))]
  exact h2

theorem head_is {cs : List Byte} {c : Byte} (h : cs.head?.getD 0 = c) (hc : c ≠ 0) : ∃ tl, cs = c :: tl := by
  cases cs with
  | nil => exact absurd h.symm hc
  | cons x tl => exact ⟨tl, by rw [← (show x = c from h)]⟩

/-! ## Numbers -/

/-- `k` numbers. -/
def NumToks (parse : List Byte → Option Dbl) (k : Nat) (ts : List Tok) : Prop :=
  ∃ ws : List (List Byte), ts = ws.map Tok.word ∧ ws.length = k ∧ ∀ w ∈ ws, (parse w).isSome

/-- A number that can be written down. -/
def ANumber (parse : List Byte → Option Dbl) (w : List Byte) : Prop := (parse w).isSome ∧ w ≠ [] ∧ ∀ c ∈ w, isWordChar c = true

theorem nums_rep {w : List Byte} (hw : ANumber parse w) (k : Nat) : NumToks parse k ((List.replicate k w).map Tok.word) ∧
    PlainToks ((List.replicate k w).map Tok.word) := by
  refine ⟨⟨_, rfl, List.length_replicate, fun v hv => ?_⟩, fun t ht => ?_⟩
  · rw [List.eq_of_mem_replicate hv]; exact hw.1
  · obtain ⟨v, hv, rfl⟩ := List.mem_map.mp ht
    rw [List.eq_of_mem_replicate hv]; exact hw.2

theorem ordinate_run (hpe : parse [] = none) {r d} (h : RdPos blob r d) (i : Nat) :
    wkrOrdinate parse blob i r = .ub ∨ wkrOrdinate parse blob i r = .err EINVAL r ∨
    ∃ r' w, wkrOrdinate parse blob i r = .ok () r' ∧ (parse w).isSome ∧ RdPos blob r' (d ++ [.word w]) ∧ EndsWord (blob.take r'.pos) ∧ r'.nv = r.nv := by
  obtain ⟨hs, hall, hedge⟩ := span_word (blob.drop r.pos)
  have hr : wkrOrdinate parse blob i r = (match parse ((blob.drop r.pos).takeWhile isWordChar) with
      | none => .err EINVAL r
      | some x => if 64 * i + r.n < 256 then
          .ok () { r.move ((blob.drop r.pos).takeWhile isWordChar).length with coords := fun k => if k = 64 * i + r.n then x else r.coords k }
        else .ub) := by
    unfold wkrOrdinate
    rw [untilSep_at h.at]
    simp only [WktR.move]
    rw [show r.pos + ((blob.drop r.pos).takeWhile isWordChar).length - r.pos = ((blob.drop r.pos).takeWhile isWordChar).length by omega,
      ← (List.prefix_iff_eq_take.mp (List.takeWhile_prefix (l := blob.drop r.pos) isWordChar))]
    cases parse ((blob.drop r.pos).takeWhile isWordChar) <;> rfl
  cases hp : parse ((blob.drop r.pos).takeWhile isWordChar) with
  | none => rw [hp] at hr; exact Or.inr (Or.inl hr)
  | some x =>
    rw [hp] at hr
    simp only [] at hr
    split at hr
    · have hne : (blob.drop r.pos).takeWhile isWordChar ≠ [] := by
        intro hn; rw [hn, hpe] at hp; cases hp
      obtain ⟨q1, q2⟩ := rdpos_word h hs hne hall hedge
      exact Or.inr (Or.inr ⟨_, _, hr, by rw [hp]; rfl, q1.same rfl rfl, q2, rfl⟩)
    · exact Or.inl hr

theorem space_run {r d} (h : RdPos blob r d) : wkrSpace blob r = .err EINVAL r ∨
    ∃ r', wkrSpace blob r = .ok () r' ∧ RdPos blob r' d ∧ NotWord blob r' ∧ r'.nv = r.nv := by
  unfold wkrSpace
  have hl := h.at.lenDrop
  cases hd : blob.drop r.pos with
  | nil => rw [hd] at hl; rw [if_neg (by simp at hl; omega)]; exact Or.inl rfl
  | cons c cs =>
    rw [hd] at hl
    rw [if_pos (by simp at hl; omega), get_drop hd]
    simp only []
    by_cases hc : isSpace c = true
    · rw [if_pos (by rw [isSpace_eq]; exact hc)]
      obtain ⟨r', e, q1, _, q3, _⟩ := rdpos_skip h
      refine Or.inr ⟨r', e, q1, ?_, q3⟩
      have e' := skip_run h.at
      rw [e] at e'
      cases e'
      obtain ⟨hs, hall⟩ := span_spaces (blob.drop r.pos)
      unfold NotWord
      simp only [WktR.move]
      rw [take_move hs]
      refine not_endsWord_spaces _ ?_ hall
      rw [hd, List.takeWhile_cons, if_pos hc]; simp
    · rw [if_neg (by rw [isSpace_eq]; exact hc)]; exact Or.inl rfl

theorem vres_ordinates (hpe : parse [] = none) {w0 : List Byte} (hw0 : ANumber parse w0) : ∀ (k i : Nat) (r : WktR) (d : List Tok), RdPos blob r d →
    EndsWord (blob.take r.pos) → VRes parse blob (fun r' => r'.nv = r.nv) d (NumToks parse k) (epOrdinates parse blob i k r) := by
  intro k
  induction k with
  | zero =>
    intro i r d h _
    exact ⟨[], ⟨[], rfl, rfl, by simp⟩, by rw [List.append_nil]; exact h, rfl⟩
  | succ k ih =>
    intro i r d h he
    rw [epOrdinates]
    have hrep := nums_rep hw0
    rcases space_run h with e | ⟨r1, e, p1, n1, v1⟩
    · rw [Ep.bind_err (Ep.of_err e)]
      refine ⟨h.le, [], _, by rw [List.append_nil]; exact h.lexed, (hrep (k + 1)).1, (hrep (k + 1)).2, he, w0, _, rfl, hw0.1⟩
    · rw [Ep.bind_ok (Ep.of_ok e)]
      rcases ordinate_run hpe p1 i with e2 | e2 | ⟨r2, w, e2, s2, p2, w2, v2⟩
      · rw [Ep.bind_ub (Ep.of_ub e2)]; trivial
      · rw [Ep.bind_err (Ep.of_err e2)]
        exact ⟨p1.le, [], _, by rw [List.append_nil]; exact p1.lexed, (hrep (k + 1)).1, (hrep (k + 1)).2, n1, w0, _, rfl, hw0.1⟩
      · rw [Ep.bind_ok (Ep.of_ok e2)]
        refine VRes.shift [.word w] ((ih (i + 1) r2 _ p2 w2).mono ?_ fun r' hr' => by rw [hr', v2, v1])
        rintro t ⟨ws, rfl, hl, hs⟩
        refine ⟨w :: ws, rfl, by rw [List.length_cons, hl], fun v hv => ?_⟩
        rcases List.mem_cons.mp hv with rfl | hv
        · exact s2
        · exact hs v hv

/-- A coordinate. -/
def CoordLang (parse : List Byte → Option Dbl) (d : Dims) (t : List Tok) : Prop := ∃ c, CoordToks parse d c t

theorem coord_of_nums {d : Dims} {t : List Tok} (h : NumToks parse d.n t) : CoordLang parse d t := by
  obtain ⟨ws, rfl, hl, hs⟩ := h
  refine ⟨ws.map fun w => (parse w).getD 0, by rw [List.length_map, hl], ws, rfl, ?_⟩
  rw [List.map_map]
  refine List.map_congr_left fun w hw => ?_
  obtain ⟨x, hx⟩ := Option.isSome_iff_exists.mp (hs w hw)
  simp [hx]

theorem dims_n (d : Dims) : ∃ m, d.n = m + 1 := by cases d <;> exact ⟨_, rfl⟩

theorem coord_wit {w0 : List Byte} (hw0 : ANumber parse w0) (d : Dims) : ∃ t, CoordLang parse d t ∧ PlainToks t :=
  ⟨_, coord_of_nums (nums_rep hw0 d.n).1, (nums_rep hw0 d.n).2⟩

theorem vres_coordinate (hpe : parse [] = none) {w0 : List Byte} (hw0 : ANumber parse w0) (dm : Dims) {r d} (h : RdPos blob r d)
    (hn : NotWord blob r) (hv : r.nv = dm.n) :
    VRes parse blob (fun r' => r'.nv = dm.n) d (CoordLang parse dm) (epCoordinate parse blob r) := by
  obtain ⟨m, hm⟩ := dims_n dm
  unfold epCoordinate
  rw [Ep.bind_ok (Ep.safe_ok (m := fun r => .ok r.n r) (r := r) (r' := r) (a := r.n) rfl)]
  refine VRes.silent (e := if r.n = 64 then epFlush else pure ()) ?_ h ?_
  · split
    · exact silent_flush
    · exact fun r => Or.inr ⟨r, rfl, rfl, rfl, rfl⟩
  intro r1 e1 p1 v1
  have hn1 : NotWord blob r1 := by unfold NotWord; rw [e1]; exact hn
  rcases ordinate_run hpe p1 0 with e2 | e2 | ⟨r2, w, e2, s2, p2, w2, v2⟩
  · rw [Ep.bind_ub (Ep.of_ub e2)]; trivial
  · rw [Ep.bind_err (Ep.of_err e2)]
    have hrep := nums_rep hw0 dm.n
    refine ⟨p1.le, [], _, by rw [List.append_nil]; exact p1.lexed, coord_of_nums hrep.1, hrep.2, hn1, w0, (List.replicate m w0).map Tok.word, ?_, hw0.1⟩
    rw [hm, List.replicate_succ]; rfl
  · rw [Ep.bind_ok (Ep.of_ok e2), Ep.bind_ok (Ep.safe_ok (m := fun r => .ok r.nv r) (r := r2) (r' := r2) (a := r2.nv) rfl)]
    refine VRes.shift [.word w] ?_
    have hnv : r2.nv = dm.n := by rw [v2, v1, hv]
    have hk : r2.nv - 1 = m := by rw [hnv, hm]; rfl
    rw [hk]
    have hL : ∀ t, NumToks parse m t → CoordLang parse dm ([.word w] ++ t) := by
      rintro t ⟨ws, rfl, hl, hs⟩
      refine coord_of_nums ⟨w :: ws, rfl, by rw [List.length_cons, hl, hm], fun v hv => ?_⟩
      rcases List.mem_cons.mp hv with rfl | hv
      · exact s2
      · exact hs v hv
    refine VRes.bind (vres_ordinates hpe hw0 m 1 r2 _ p2 w2) (fun t ht => ⟨[], .nil, by rw [List.append_nil]; exact hL t ht⟩) ?_
    intro r3 t ht p3 v3
    refine ⟨[], by show CoordLang parse dm ([.word w] ++ (t ++ [])); rw [List.append_nil]; exact hL t ht, ?_, ?_⟩
    · rw [List.append_nil]; exact p3.same rfl rfl
    · show r3.nv = _
      rw [v3, hnv]

/-! ## Lists -/

/-- Further items, each after a comma. -/
inductive TailLang (L : List Tok → Prop) : List Tok → Prop where
  | nil : TailLang L []
  | cons {a b : List Tok} : L a → TailLang L b → TailLang L (.comma :: (a ++ b))

/-- Items separated by commas. -/
def SepLang (L : List Tok → Prop) (t : List Tok) : Prop := ∃ a b, L a ∧ TailLang L b ∧ t = a ++ b

theorem char_cases {r d} (h : RdPos blob r d) {c : Byte} : wkrChar blob c r = .err EINVAL r ∨
    ∃ cs, blob.drop r.pos = c :: cs ∧ wkrChar blob c r = .ok () (r.move 1) := by
  rw [char_run h.at]
  cases hd : blob.drop r.pos with
  | nil => exact Or.inl rfl
  | cons x cs =>
    simp only []
    by_cases hx : x = c
    · subst hx; rw [if_pos rfl]; exact Or.inr ⟨cs, rfl, rfl⟩
    · rw [if_neg hx]; exact Or.inl rfl

/-- The reader stands at a closing parenthesis. -/
def BeforeClose (blob : List Byte) (r : WktR) : Prop := ∃ cs, blob.drop r.pos = 41 :: cs

variable {K : Nat → Prop} {item : Ep Unit} {L : List Tok → Prop}

/-- Items are read from `L`. -/
def ItemOk (parse : List Byte → Option Dbl) (blob : List Byte) (K : Nat → Prop) (item : Ep Unit) (L : List Tok → Prop) : Prop :=
  ∀ r d, RdPos blob r d → NotWord blob r → K r.nv → VRes parse blob (fun r' => K r'.nv) d L (item r)

theorem vres_loop (hi : ItemOk parse blob K item L) (hwit : ∃ t, L t ∧ PlainToks t) : ∀ (fuel : Nat) (r : WktR) (d : List Tok), RdPos blob r d →
    K r.nv → VRes parse blob (fun r' => K r'.nv ∧ BeforeClose blob r') d (TailLang L) (epLoop blob item fuel r) := by
  intro fuel
  induction fuel with
  | zero => intro r d _ _; trivial
  | succ f ih =>
    intro r d h hk
    rw [epLoop]
    refine VRes.peek h ?_
    split
    · rename_i hc
      exact ⟨[], .nil, by rw [List.append_nil]; exact h, hk, head_is hc (by decide)⟩
    refine VRes.skip h fun r1 p1 _ v1 _ => ?_
    rcases char_cases p1 (c := 44) with e | ⟨cs, hd, e⟩
    · rw [Ep.bind_err (show epChar blob 44 r1 = _ from Ep.of_err e)]
      obtain ⟨t, ht, hpl⟩ := hwit
      refine ⟨p1.le, [], .comma :: t, by rw [List.append_nil]; exact p1.lexed, ?_, PlainToks.cons plain_comma hpl, t, Or.inr ⟨Or.inr rfl, rfl⟩⟩
      have := TailLang.cons ht .nil
      rw [List.append_nil] at this
      exact this
    · rw [Ep.bind_ok (show epChar blob 44 r1 = _ from Ep.of_ok e)]
      obtain ⟨p2, n2⟩ := rdpos_punct p1 (Or.inr rfl) hd
      refine VRes.shift [.comma] ?_
      refine VRes.skip p2 fun r3 p3 _ v3 n3 => ?_
      refine VRes.bind (hi r3 _ p3 (n3 n2) (by rw [v3]; show K r1.nv; rw [v1]; exact hk)) (fun t ht => ⟨[], .nil, ?_⟩) ?_
      · have := TailLang.cons ht .nil
        exact this
      intro r4 t ht p4 k4
      refine VRes.skip p4 fun r5 p5 _ v5 _ => ?_
      exact (ih r5 _ p5 (by rw [v5]; exact k4)).mono (fun u hu => (show TailLang L (.comma :: (t ++ u)) from TailLang.cons ht hu)) fun _ h => h

theorem vres_items (hi : ItemOk parse blob K item L) (hwit : ∃ t, L t ∧ PlainToks t) {r d} (h : RdPos blob r d) (hn : NotWord blob r)
    (hk : K r.nv) : VRes parse blob (fun r' => K r'.nv ∧ BeforeClose blob r') d (SepLang L) (epItems blob item r) := by
  unfold epItems
  refine VRes.bind (hi r d h hn hk) (fun t ht => ⟨[], .nil, t, [], ht, .nil, rfl⟩) ?_
  intro r1 t ht p1 k1
  refine VRes.skip p1 fun r2 p2 _ v2 _ => ?_
  exact (vres_loop hi hwit _ r2 _ p2 (by rw [v2]; exact k1)).mono (fun u hu => ⟨t, u, ht, hu, rfl⟩) fun _ h => h

theorem vres_close {r d} (h : RdPos blob r d) (hc : BeforeClose blob r) :
    VRes parse blob (fun r' => r'.nv = r.nv) d (fun u => u = [.closing]) (Ep.safe (wkrAdvance 1) r) := by
  obtain ⟨cs, hd⟩ := hc
  exact ⟨_, rfl, (rdpos_punct h (Or.inl rfl) hd).1, rfl⟩

/-- `EMPTY` or items in parentheses. -/
def ListLang (L : List Tok → Prop) (t : List Tok) : Prop :=
  t = [.word (str "EMPTY")] ∨ ∃ b body, SepLang L body ∧ t = .opening b :: body ++ [.closing]

theorem sep_wit (hwit : ∃ t, L t ∧ PlainToks t) : ∃ t, SepLang L t ∧ PlainToks t := by
  obtain ⟨t, h1, h2⟩ := hwit
  exact ⟨t, ⟨t, [], h1, .nil, by simp⟩, h2⟩

theorem list_wit (hwit : ∃ t, L t ∧ PlainToks t) : ∃ tl, ListLang L (.opening true :: tl) ∧ PlainToks tl := by
  obtain ⟨t, h1, h2⟩ := sep_wit hwit
  exact ⟨t ++ [.closing], Or.inr ⟨true, t, h1, rfl⟩, h2.append plain_closing⟩

theorem list_wit' (hwit : ∃ t, L t ∧ PlainToks t) : ∃ t, ListLang L t ∧ PlainToks t := by
  obtain ⟨tl, h1, h2⟩ := list_wit hwit
  exact ⟨_, h1, PlainToks.cons plain_opening h2⟩

theorem empty_run {r d} (h : RdPos blob r d) : wkrEmpty blob r = .err EINVAL r ∨
    ∃ r', wkrEmpty blob r = .ok () r' ∧ RdPos blob r' (d ++ [.word (str "EMPTY")]) ∧ r'.nv = r.nv := by
  have hr : wkrEmpty blob r = if ((blob.drop r.pos).takeWhile isWordChar).take 6 = str "EMPTY" then .ok () (r.move 5) else .err EINVAL r := by
    unfold wkrEmpty
    rw [M.bind_ok (word_at h.at 6)]
    split <;> rfl
  by_cases hc : ((blob.drop r.pos).takeWhile isWordChar).take 6 = str "EMPTY"
  · rw [if_pos hc] at hr
    rw [take_eq_short (by decide)] at hc
    obtain ⟨hs, hall, hedge⟩ := span_word (blob.drop r.pos)
    rw [hc] at hs hall
    have hp := (rdpos_word h hs (by decide) hall hedge).1
    rw [show (str "EMPTY").length = 5 by decide] at hp
    exact Or.inr ⟨_, hr, hp, rfl⟩
  · rw [if_neg hc] at hr; exact Or.inl hr

theorem vres_emptyOr {content : Ep Unit} (hE : L [.word (str "EMPTY")]) (hwit : ∃ tl, L (.opening true :: tl) ∧ PlainToks tl)
    (hc : ∀ r d cs, RdPos blob r d → K r.nv → blob.drop r.pos = 40 :: cs → VRes parse blob (fun r' => K r'.nv) d L (content (r.move 1)))
    {r d} (h : RdPos blob r d) (hk : K r.nv) : VRes parse blob (fun r' => K r'.nv) d L (epEmptyOr blob content r) := by
  unfold epEmptyOr
  refine VRes.skip h fun r1 p1 _ v1 _ => ?_
  have hk1 : K r1.nv := by rw [v1]; exact hk
  refine VRes.peek p1 ?_
  split
  · rename_i h40
    obtain ⟨cs, hd⟩ := head_is h40 (by decide)
    exact hc r1 d cs p1 hk1 hd
  · rcases empty_run p1 with e | ⟨r2, e, p2, v2⟩
    · rw [Ep.of_err e]
      obtain ⟨tl, h1, h2⟩ := hwit
      exact ⟨p1.le, [], _, by rw [List.append_nil]; exact p1.lexed, h1, PlainToks.cons plain_opening h2, tl, rfl⟩
    · rw [Ep.of_ok e]
      exact ⟨_, hE, p2, by show K r2.nv; rw [v2]; exact hk1⟩

/-- Items and the closing parenthesis, after the opening one. -/
theorem vres_rest (hi : ItemOk parse blob K item L) (hwit : ∃ t, L t ∧ PlainToks t) {r d} (h : RdPos blob r d) (hn : NotWord blob r)
    (hk : K r.nv) (s : Ep Unit) (hs : Silent s) : VRes parse blob (fun r' => K r'.nv) d (fun u => ∃ body, SepLang L body ∧ u = body ++ [.closing])
      ((do epItems blob item; s; Ep.safe (wkrAdvance 1)) r) := by
  refine VRes.bind (vres_items hi hwit h hn hk) (fun t ht => ⟨[.closing], plain_closing, t, ht, rfl⟩) ?_
  rintro r1 t ht p1 ⟨k1, cs, hd⟩
  refine VRes.silent hs p1 fun r2 e2 p2 v2 => ?_
  exact (vres_close p2 ⟨cs, by rw [e2]; exact hd⟩).mono (fun u hu => by subst hu; exact ⟨t, ht, rfl⟩)
    fun r' hr' => by rw [hr', v2]; exact k1

theorem silent_nothing : Silent (pure ()) := fun r => Or.inr ⟨r, rfl, rfl, rfl, rfl⟩

theorem vres_group (hi : ItemOk parse blob K item L) (hwit : ∃ t, L t ∧ PlainToks t) {r d cs} (h : RdPos blob r d)
    (hk : K r.nv) (hd : blob.drop r.pos = 40 :: cs) :
    VRes parse blob (fun r' => K r'.nv) d (ListLang L) ((do Ep.safe (wkrSkip blob); epItems blob item; Ep.safe (wkrAdvance 1)) (r.move 1)) := by
  obtain ⟨r1, e1, p1, _, v1, n1, _⟩ := rdpos_open h hd
  rw [Ep.bind_ok (Ep.safe_ok e1)]
  refine VRes.shift [.opening (startsTight cs)] ?_
  refine (vres_rest hi hwit p1 n1 (by rw [v1]; exact hk) (pure ()) silent_nothing).mono ?_ fun _ h => h
  rintro u ⟨body, hb, rfl⟩
  exact Or.inr ⟨_, body, hb, rfl⟩

theorem vres_list (hi : ItemOk parse blob K item L) (hwit : ∃ t, L t ∧ PlainToks t) {r d} (h : RdPos blob r d)
    (hk : K r.nv) : VRes parse blob (fun r' => K r'.nv) d (ListLang L) (epList blob item r) :=
  vres_emptyOr (Or.inl rfl) (list_wit hwit) (fun _ _ _ h hk hd => vres_group hi hwit h hk hd) h hk

section
variable (hpe : parse [] = none) {w0 : List Byte} (hw0 : ANumber parse w0) (dm : Dims)
include hpe hw0

theorem coordinate_item : ItemOk parse blob (· = dm.n) (epCoordinate parse blob) (CoordLang parse dm) :=
  fun _ _ h hn hv => vres_coordinate hpe hw0 dm h hn hv

theorem vres_coordinates {r d} (h : RdPos blob r d) (hk : r.nv = dm.n) :
    VRes parse blob (fun r' => r'.nv = dm.n) d (ListLang (CoordLang parse dm)) (epCoordinates parse blob r) := by
  refine vres_emptyOr (K := (· = dm.n)) (Or.inl rfl) (list_wit (coord_wit hw0 dm)) ?_ h hk
  intro r d cs h hk hd
  obtain ⟨r1, e1, p1, _, v1, n1, _⟩ := rdpos_open h hd
  rw [Ep.bind_ok (Ep.safe_ok e1)]
  refine VRes.shift [.opening (startsTight cs)] ?_
  refine VRes.silent silent_reset p1 fun r2 e2 p2 v2 => ?_
  refine (vres_rest (coordinate_item hpe hw0 dm) (coord_wit hw0 dm) p2 (by unfold NotWord; rw [e2]; exact n1) (by rw [v2, v1]; exact hk)
    epFlush silent_flush).mono ?_ fun _ h => h
  rintro u ⟨body, hb, rfl⟩
  exact Or.inr ⟨_, body, hb, rfl⟩

/-- A point: `EMPTY` or one coordinate. -/
def PointLang (parse : List Byte → Option Dbl) (dm : Dims) (t : List Tok) : Prop := ∃ cs, PointToks parse dm cs t

omit hpe hw0 in
theorem point_of_coord {t : List Tok} (b : Bool) (h : CoordLang parse dm t) : PointLang parse dm (.opening b :: t ++ [.closing]) := by
  obtain ⟨c, hc⟩ := h
  exact ⟨[c], Or.inr ⟨b, c, t, rfl, hc, rfl⟩⟩

omit hpe in
theorem point_wit : ∃ tl, PointLang parse dm (.opening true :: tl) ∧ PlainToks tl := by
  obtain ⟨t, h1, h2⟩ := coord_wit hw0 dm
  exact ⟨t ++ [Tok.closing], (show PointLang parse dm (.opening true :: t ++ [.closing]) from point_of_coord dm true h1), h2.append plain_closing⟩

theorem vres_point {r d} (h : RdPos blob r d) (hk : r.nv = dm.n) :
    VRes parse blob (fun r' => r'.nv = dm.n) d (PointLang parse dm) (epPoint parse blob r) := by
  refine vres_emptyOr (K := (· = dm.n)) ⟨[], Or.inl ⟨rfl, rfl⟩⟩ (point_wit hw0 dm) ?_ h hk
  intro r d cs h hk hd
  obtain ⟨r1, e1, p1, _, v1, n1, _⟩ := rdpos_open h hd
  rw [Ep.bind_ok (Ep.safe_ok e1)]
  refine VRes.shift [.opening (startsTight cs)] ?_
  refine VRes.silent silent_reset p1 fun r2 e2 p2 v2 => ?_
  have hc : ∀ t, CoordLang parse dm t → PointLang parse dm ([.opening (startsTight cs)] ++ (t ++ [.closing])) :=
    fun t ht => point_of_coord dm _ ht
  refine VRes.bind (vres_coordinate hpe hw0 dm p2 (by unfold NotWord; rw [e2]; exact n1) (by rw [v2, v1]; exact hk))
    (fun t ht => ⟨[.closing], plain_closing, hc t ht⟩) ?_
  intro r3 t ht p3 v3
  refine VRes.silent silent_flush p3 fun r4 e4 p4 v4 => ?_
  refine VRes.skip p4 fun r5 p5 _ v5 _ => ?_
  have hv5 : r5.nv = dm.n := by rw [v5, v4]; exact v3
  rcases char_cases p5 (c := 41) with e | ⟨cs', hd', e⟩
  · rw [show epChar blob 41 r5 = _ from Ep.of_err e]
    exact ⟨p5.le, [], [.closing], by rw [List.append_nil]; exact p5.lexed, hc t ht, plain_closing, [], Or.inr ⟨Or.inl rfl, rfl⟩⟩
  · rw [show epChar blob 41 r5 = _ from Ep.of_ok e]
    exact ⟨[.closing], hc t ht, (rdpos_punct p5 (Or.inl rfl) hd').1, hv5⟩

/-! ## Multipoints -/

/-- A member with what stands before it. -/
def MemLang (parse : List Byte → Option Dbl) (k : MultiKind) (dm : Dims) (t : List Tok) : Prop :=
  ∃ g b, FitsMember k dm g ∧ BodyToks parse g b ∧ t = (if k = .collection then tagToks g else []) ++ b

/-- What follows the tag of a geometry made of others. -/
def MultiLang (parse : List Byte → Option Dbl) (k : MultiKind) (dm : Dims) (t : List Tok) : Prop := ∃ ps, BodyToks parse (.multi k dm ps) t

omit hpe hw0 in
theorem sep_of {α : Type} {P : α → List Tok → Prop} {t : List Tok} (h : SepLang (fun u => ∃ a, P a u) t) : ∃ xs, Separated P xs t := by
  obtain ⟨a, b, ⟨x, hx⟩, hb, rfl⟩ := h
  suffices key : ∀ b, TailLang (fun u => ∃ a, P a u) b → ∀ a x, P x a → ∃ xs, Separated P (x :: xs) (a ++ b) by
    obtain ⟨xs, h⟩ := key b hb a x hx; exact ⟨_, h⟩
  intro b hb
  induction hb with
  | nil => intro a x hx; exact ⟨[], Or.inl ⟨rfl, by rw [List.append_nil]; exact hx⟩⟩
  | cons hy _ ih =>
    intro a x hx
    obtain ⟨y, hy⟩ := hy
    obtain ⟨xs, hxs⟩ := ih _ y hy
    exact ⟨y :: xs, Or.inr ⟨a, _, hx, hxs, rfl⟩⟩

omit hpe hw0 in
theorem listed_of {α : Type} {P : α → List Tok → Prop} {t : List Tok} (h : ListLang (fun u => ∃ a, P a u) t) : ∃ xs, Listed P xs t := by
  rcases h with rfl | ⟨b, body, hb, rfl⟩
  · exact ⟨[], Or.inl ⟨rfl, rfl⟩⟩
  · obtain ⟨xs, hxs⟩ := sep_of hb
    exact ⟨xs, Or.inr ⟨b, body, hxs, rfl⟩⟩

omit hpe hw0 in
theorem members_of {k : MultiKind} {dm : Dims} {t : List Tok} (h : SepLang (MemLang parse k dm) t) : ∃ ps, MemberToks parse k dm ps t := by
  obtain ⟨a, b, ha, hb, rfl⟩ := h
  suffices key : ∀ b, TailLang (MemLang parse k dm) b → ∀ a, MemLang parse k dm a → ∃ ps, MemberToks parse k dm ps (a ++ b) from key b hb a ha
  intro b hb
  induction hb with
  | nil =>
    rintro a ⟨g, b, h1, h2, rfl⟩
    exact ⟨[g], by simp only [MemberToks]; exact ⟨h1, b, h2, Or.inl ⟨trivial, by rw [List.append_nil]⟩⟩⟩
  | cons hy _ ih =>
    rintro a ⟨g, b, h1, h2, rfl⟩
    obtain ⟨ps, hps⟩ := ih _ hy
    exact ⟨g :: ps, by simp only [MemberToks]; exact ⟨h1, b, h2, Or.inr ⟨_, hps, rfl⟩⟩⟩

omit hpe hw0 in
theorem multi_of_list {k : MultiKind} {dm : Dims} {t : List Tok} (h : ListLang (MemLang parse k dm) t) : MultiLang parse k dm t := by
  rcases h with rfl | ⟨b, body, hb, rfl⟩
  · exact ⟨[], by simp only [BodyToks]; exact Or.inl ⟨trivial, trivial⟩⟩
  · obtain ⟨ps, hps⟩ := members_of hb
    exact ⟨ps, by simp only [BodyToks]; exact Or.inr (Or.inl ⟨b, body, hps, rfl⟩)⟩

omit hpe hw0 in
theorem flat_of_sep {t : List Tok} (h : SepLang (CoordLang parse dm) t) : MultiLang parse .multipoint dm (.opening true :: t ++ [.closing]) := by
  obtain ⟨cs, hcs⟩ := sep_of h
  exact ⟨_, by simp only [BodyToks]; exact Or.inr (Or.inr ⟨rfl, cs, t, rfl, hcs, rfl⟩)⟩

omit hpe hw0 in
theorem mem_point {t : List Tok} (h : PointLang parse dm t) : MemLang parse .multipoint dm t := by
  obtain ⟨cs, hcs⟩ := h
  exact ⟨.point dm cs, t, rfl, by simp only [BodyToks]; exact hcs, rfl⟩

omit hpe hw0 in
theorem listLang_mono {L L' : List Tok → Prop} (h : ∀ t, L t → L' t) {t : List Tok} (ht : ListLang L t) : ListLang L' t := by
  have htail : ∀ t, TailLang L t → TailLang L' t := by
    intro t ht
    induction ht with
    | nil => exact .nil
    | cons h1 _ ih => exact .cons (h _ h1) ih
  rcases ht with rfl | ⟨b, body, ⟨x, y, hx, hy, rfl⟩, rfl⟩
  · exact Or.inl rfl
  · exact Or.inr ⟨b, _, ⟨x, y, h x hx, htail y hy, rfl⟩, rfl⟩

theorem flat_item : ItemOk parse blob (· = dm.n) (do epReset; epCoordinate parse blob; epFlush) (CoordLang parse dm) := by
  intro r d h hn hk
  refine VRes.silent silent_reset h fun r1 e1 p1 v1 => ?_
  refine VRes.bind (vres_coordinate hpe hw0 dm p1 (by unfold NotWord; rw [e1]; exact hn) (by rw [v1]; exact hk))
    (fun t ht => ⟨[], .nil, by rw [List.append_nil]; exact ht⟩) ?_
  intro r2 t ht p2 k2
  rcases silent_flush r2 with e | ⟨r3, e, q1, q2, q3⟩
  · rw [e]; trivial
  · rw [e]
    exact ⟨[], by show CoordLang parse dm (t ++ []); rw [List.append_nil]; exact ht, by rw [List.append_nil]; exact p2.same q1 q2,
      by show r3.nv = _; rw [q3]; exact k2⟩

theorem point_item : ItemOk parse blob (· = dm.n) (epPoint parse blob) (PointLang parse dm) :=
  fun _ _ h _ hk => vres_point hpe hw0 dm h hk

omit hpe in
theorem point_wit' : ∃ t, PointLang parse dm t ∧ PlainToks t := by
  obtain ⟨tl, h1, h2⟩ := point_wit hw0 dm
  exact ⟨_, h1, PlainToks.cons plain_opening h2⟩

/-- One character back. -/
def WktR.back (r : WktR) : WktR := { r with pos := r.pos - 1, left := r.left + 1 }

omit hpe hw0 in
/-- Going back over whitespace, one character. -/
theorem back_run {r d cs} (h : RdPos blob r d) (hd : blob.drop r.pos = 40 :: cs) :
    (cs.takeWhile isSpace = [] ∧ startsTight cs = true) ∨
    (∃ b x tl, isSpace x = true ∧ blob.drop (r.pos + (cs.takeWhile isSpace).length) = x :: tl ∧
      Lexed (blob.take (r.pos + (cs.takeWhile isSpace).length)) (d ++ [.opening b])) := by
  obtain ⟨hs, hall⟩ := span_spaces cs
  cases hn : cs.takeWhile isSpace with
  | nil =>
    refine Or.inl ⟨rfl, ?_⟩
    have := tight_drop_space cs
    rw [hn, List.nil_append] at hs
    rw [← hs] at this
    exact this
  | cons y ys =>
    refine Or.inr ?_
    obtain ⟨s, x, hsx⟩ : ∃ s x, cs.takeWhile isSpace = s ++ [x] :=
      ⟨_, _, (List.dropLast_concat_getLast (l := cs.takeWhile isSpace) (by rw [hn]; simp)).symm⟩
    have hlen : (y :: ys).length = (40 :: s).length := by rw [← hn, hsx]; simp
    have hx : isSpace x = true := hall x (by rw [hsx]; simp)
    have hs' : ∀ c ∈ s, isSpace c = true := fun c hc => hall c (by rw [hsx]; simp [hc])
    have hd2 : blob.drop r.pos = (40 :: s) ++ (x :: cs.dropWhile isSpace) := by
      have hcs : cs = s ++ x :: cs.dropWhile isSpace := by
        conv => lhs; rw [hs, hsx]
        simp
      rw [hd, List.cons_append, ← hcs]
    rw [hlen, take_move hd2, drop_split hd2]
    by_cases hsn : s = []
    · subst hsn; exact ⟨true, x, _, hx, rfl, lexed_open h.lexed⟩
    · exact ⟨false, x, _, hx, rfl, lexed_open_spaces h.lexed hsn hs'⟩

theorem vres_multipoint {r d} (h : RdPos blob r d) (hk : r.nv = dm.n) :
    VRes parse blob (fun r' => r'.nv = dm.n) d (MultiLang parse .multipoint dm) (epMultipoint parse blob r) := by
  have hwl : ∀ t, ListLang (PointLang parse dm) t → MultiLang parse .multipoint dm t :=
    fun t ht => multi_of_list (listLang_mono (fun u hu => mem_point dm hu) ht)
  have hw : ∃ tl, MultiLang parse .multipoint dm (.opening true :: tl) ∧ PlainToks tl := by
    obtain ⟨tl, h1, h2⟩ := list_wit (point_wit' hw0 dm)
    exact ⟨tl, hwl _ h1, h2⟩
  refine vres_emptyOr (K := (· = dm.n)) (hwl _ (Or.inl rfl)) hw ?_ h hk
  intro r d cs h hk hd
  obtain ⟨r1, e1, p1, _, v1, n1, rfl⟩ := rdpos_open h hd
  rw [Ep.bind_ok (Ep.safe_ok e1)]
  have hk1 : ((r.move 1).move (cs.takeWhile isSpace).length).nv = dm.n := hk
  rw [Ep.bind_ok (Ep.safe_ok (peek_at p1.at))]
  split
  · have hpos : ((r.move 1).move (cs.takeWhile isSpace).length).pos = r.pos + 1 + (cs.takeWhile isSpace).length := rfl
    rw [Ep.bind_ok (Ep.safe_ok (a := ()) (r' := ((r.move 1).move (cs.takeWhile isSpace).length).back)
      (if_neg (by rw [hpos]; omega)))]
    have hback : ((r.move 1).move (cs.takeWhile isSpace).length).back.pos = r.pos + (cs.takeWhile isSpace).length := by
      simp only [WktR.back, WktR.move]; omega
    unfold epMultipointFlat
    rcases back_run h hd with ⟨hn, ht⟩ | ⟨b, x, tl, hx, hd2, hl⟩
    · have hr : ((r.move 1).move (cs.takeWhile isSpace).length).back = r := by
        rw [hn]
        simp [WktR.move, WktR.back]
      rw [hr]
      rcases char_cases h (c := 40) with e | ⟨cs', _, e⟩
      · rw [char_run h.at, hd] at e
        simp at e
      rw [Ep.bind_ok (show epChar blob 40 r = _ from Ep.of_ok e)]
      have p2 : RdPos blob (r.move 1) (d ++ [.opening (startsTight cs)]) := by
        refine p1.same ?_ ?_
        · rw [hn]; rfl
        · rw [hn]; simp [WktR.move]
      have n2 : NotWord blob (r.move 1) := by
        rw [hn] at n1; exact n1
      rw [ht] at p2
      refine VRes.shift [.opening true] ?_
      refine (vres_rest (flat_item hpe hw0 dm) (coord_wit hw0 dm) p2 n2 hk (pure ()) silent_nothing).mono ?_ fun _ h => h
      rintro u ⟨body, hb, rfl⟩
      exact flat_of_sep dm hb
    · rw [← hback] at hd2 hl
      have e : wkrChar blob 40 ((r.move 1).move (cs.takeWhile isSpace).length).back =
          .err EINVAL ((r.move 1).move (cs.takeWhile isSpace).length).back := by
        unfold wkrChar
        split
        · rw [get_drop hd2]
          simp only []
          rw [if_neg (by rintro rfl; simp [isSpace] at hx)]
        · rfl
      rw [Ep.bind_err (show epChar blob 40 _ = _ from Ep.of_err e)]
      obtain ⟨t, ht1, ht2⟩ := point_wit hw0 dm
      have hle := p1.le
      rw [hpos] at hle
      refine ⟨by rw [hback]; omega, [.opening b], .opening true :: t ++ [.closing], hl, ?_,
        (PlainToks.cons plain_opening ht2).append plain_closing, t ++ [.closing], Or.inl ⟨rfl, rfl⟩⟩
      exact hwl _ (Or.inr ⟨b, .opening true :: t, ⟨_, [], ht1, .nil, by simp⟩, rfl⟩)
  · refine VRes.shift [.opening (startsTight cs)] ?_
    refine (vres_rest (point_item hpe hw0 dm) (point_wit' hw0 dm) p1 n1 hk1 (pure ()) silent_nothing).mono ?_ fun _ h => h
    rintro u ⟨body, hb, rfl⟩
    exact hwl _ (Or.inr ⟨_, body, hb, rfl⟩)
end
end
end Verif
