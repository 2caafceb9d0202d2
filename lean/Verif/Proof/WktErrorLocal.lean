import Verif.Proof.WktErrorViable
/-!
# The message of the WKT reader depends only on the text up to the mistake
-/
namespace Verif
open Spec

/-- End of the first token at or after byte `k`. -/
def tokEnd (t : List Byte) (k : Nat) : Nat :=
  k + ((t.drop k).takeWhile isSpace).length + (((t.drop k).dropWhile isSpace).takeWhile isWordChar).length

theorem tokEnd_ge (t : List Byte) (k : Nat) : k ≤ tokEnd t k := by unfold tokEnd; omega

theorem tokEnd_space {t : List Byte} {k : Nat} {c : Byte} {cs : List Byte} (h : t.drop k = c :: cs) (hc : isSpace c = true) :
    tokEnd t k = tokEnd t (k + 1) := by
  have h1 : t.drop (k + 1) = cs := by rw [← List.drop_drop, h]; rfl
  unfold tokEnd
  rw [h, h1, List.takeWhile_cons, if_pos hc, List.dropWhile_cons, if_pos hc, List.length_cons]
  omega

theorem tokEnd_tight {t : List Byte} {k : Nat} (h : startsTight (t.drop k) = true) :
    tokEnd t k = k + ((t.drop k).takeWhile isWordChar).length := by
  unfold tokEnd
  cases hd : t.drop k with
  | nil => simp
  | cons c cs =>
    rw [hd] at h
    simp only [startsTight, Bool.not_eq_true'] at h
    rw [List.takeWhile_cons, if_neg (by simp [h]), List.dropWhile_cons, if_neg (by simp [h])]
    simp

theorem word_short (cs : List Byte) : (cs.takeWhile isWordChar).length ≤ (cs.takeWhile isSpace).length + ((cs.dropWhile isSpace).takeWhile isWordChar).length := by
  cases cs with
  | nil => simp
  | cons c cs =>
    by_cases hc : isSpace c = true
    · rw [List.takeWhile_cons (p := isWordChar), if_neg (by rw [space_not_word hc]; simp)]; simp
    · rw [List.dropWhile_cons, if_neg hc]; omega

theorem tokEnd_succ (t : List Byte) (k : Nat) : tokEnd t k ≤ tokEnd t (k + 1) := by
  cases hd : t.drop k with
  | nil =>
    rw [tokEnd_tight (by rw [hd]; rfl), hd]
    have := tokEnd_ge t (k + 1)
    simp; omega
  | cons c cs =>
    by_cases hc : isSpace c = true
    · exact Nat.le_of_eq (tokEnd_space hd hc)
    · rw [tokEnd_tight (by rw [hd]; simp only [startsTight]; simpa using hc), hd, List.takeWhile_cons]
      have h1 : t.drop (k + 1) = cs := by rw [← List.drop_drop, hd]; rfl
      have := tokEnd_ge t (k + 1)
      split
      · have := word_short cs
        unfold tokEnd
        rw [h1, List.length_cons]; omega
      · simp; omega

theorem tokEnd_mono (t : List Byte) {k k' : Nat} (h : k ≤ k') : tokEnd t k ≤ tokEnd t k' := by
  induction h with
  | refl => exact Nat.le_refl _
  | step _ ih => exact Nat.le_trans ih (tokEnd_succ t _)

theorem takeWhile_local (f : Byte → Bool) : ∀ (l x y : List Byte), ((l ++ x).takeWhile f).length < l.length →
    (l ++ y).takeWhile f = (l ++ x).takeWhile f
  | [], _, _, h => by simp at h
  | c :: l, x, y, h => by
    simp only [List.cons_append, List.takeWhile_cons] at h ⊢
    split
    · rename_i hc
      rw [if_pos hc] at h
      rw [takeWhile_local f l x y (by simpa using h)]
    · rfl

section
variable (p x y : List Byte)

/-- The reader is at byte `pos` of the text, and knows how much is left. -/
def At1 (b : List Byte) (q : WktR) : Prop := q.pos ≤ b.length ∧ q.left = (b.length : Int) - q.pos

theorem At1.at {b : List Byte} {q : WktR} (h : At1 b q) : At b q (lex (b.drop q.pos)) := ⟨h.1, h.2, rfl⟩

/-- Same position in both texts. -/
def Twin (b : Prop) (q q' : WktR) : Prop := q'.pos = q.pos ∧ At1 (p ++ y) q' ∧ (b → q'.nv = q.nv)

/-- The first token at or after `k` ends inside the common part. -/
def InCommon (k : Nat) : Prop := tokEnd (p ++ x) k < p.length

/-- What the reader does on `p ++ x` it does on `p ++ y`, as far as it depends on `p` only. -/
def Loc (Pre Post : WktR → Prop) (b b' : Prop) {α : Type} (e e' : Ep α) : Prop :=
  ∀ q0, At1 (p ++ x) q0 → Pre q0 → match e q0 with
    | .ok a q => At1 (p ++ x) q ∧ Post q ∧ tokEnd (p ++ x) q0.pos ≤ tokEnd (p ++ x) q.pos ∧
        (InCommon p x q.pos → ∀ q0', Twin p y b q0 q0' → e' q0' = .ub ∨ ∃ q', e' q0' = .ok a q' ∧ Twin p y b' q q')
    | .err w k => tokEnd (p ++ x) q0.pos ≤ tokEnd (p ++ x) k ∧
        (InCommon p x k → ∀ q0', Twin p y b q0 q0' → e' q0' = .ub ∨ e' q0' = .err w k)
    | .ub => True

/-- Nothing is required. -/
def Anywhere (_ : WktR) : Prop := True
end

section
variable {p x y : List Byte}

theorem Loc.bind {Pre Mid Post : WktR → Prop} {b b1 b' : Prop} {α β : Type} {e e' : Ep α} {f f' : α → Ep β}
    (h : Loc p x y Pre Mid b b1 e e') (h2 : ∀ a, Loc p x y Mid Post b1 b' (f a) (f' a)) :
    Loc p x y Pre Post b b' (e >>= f) (e' >>= f') := by
  intro q0 ha hp
  have h1 := h q0 ha hp
  cases he : e q0 with
  | ub => rw [Ep.bind_ub he]; trivial
  | err w k =>
    rw [Ep.bind_err he]
    rw [he] at h1
    refine ⟨h1.1, fun hi q0' ht => ?_⟩
    rcases h1.2 hi q0' ht with g | g
    · exact Or.inl (Ep.bind_ub g)
    · exact Or.inr (Ep.bind_err g)
  | ok a q =>
    rw [Ep.bind_ok he]
    rw [he] at h1
    obtain ⟨a1, m1, t1, l1⟩ := h1
    have h3 := h2 a q a1 m1
    cases hf : f a q with
    | ub => trivial
    | err w k =>
      rw [hf] at h3
      refine ⟨Nat.le_trans t1 h3.1, fun hi q0' ht => ?_⟩
      rcases l1 (Nat.lt_of_le_of_lt h3.1 hi) q0' ht with g | ⟨q', g, ht'⟩
      · exact Or.inl (Ep.bind_ub g)
      · rw [Ep.bind_ok g]; exact h3.2 hi q' ht'
    | ok c q2 =>
      rw [hf] at h3
      obtain ⟨a2, m2, t2, l2⟩ := h3
      refine ⟨a2, m2, Nat.le_trans t1 t2, fun hi q0' ht => ?_⟩
      rcases l1 (Nat.lt_of_le_of_lt t2 hi) q0' ht with g | ⟨q', g, ht'⟩
      · exact Or.inl (Ep.bind_ub g)
      · rw [Ep.bind_ok g]; exact l2 hi q' ht'

theorem Loc.mono {Pre Pre' Post Post' : WktR → Prop} {b c b' c' : Prop} {α : Type} {e e' : Ep α} (h : Loc p x y Pre Post b b' e e')
    (h1 : ∀ q, Pre' q → Pre q) (h2 : ∀ q, Post q → Post' q) (hb : b → c) (hb' : c' → b') : Loc p x y Pre' Post' c c' e e' := by
  intro q0 ha hp
  have h0 := h q0 ha (h1 _ hp)
  have ht : ∀ {q q'}, Twin p y c q q' → Twin p y b q q' := fun h => ⟨h.1, h.2.1, fun hx => h.2.2 (hb hx)⟩
  have ht' : ∀ {q q'}, Twin p y b' q q' → Twin p y c' q q' := fun h => ⟨h.1, h.2.1, fun hx => h.2.2 (hb' hx)⟩
  cases he : e q0 with
  | ub => trivial
  | err w k => rw [he] at h0; exact ⟨h0.1, fun hi q0' t => h0.2 hi q0' (ht t)⟩
  | ok a q =>
    rw [he] at h0
    refine ⟨h0.1, h2 _ h0.2.1, h0.2.2.1, fun hi q0' t => ?_⟩
    rcases h0.2.2.2 hi q0' (ht t) with g | ⟨q', g, t'⟩
    · exact Or.inl g
    · exact Or.inr ⟨q', g, ht' t'⟩

theorem drop1 {k : Nat} (h : k ≤ p.length) (z : List Byte) : (p ++ z).drop k = p.drop k ++ z := List.drop_append_of_le_length h

/-- The characters before the end of the token are the same. -/
theorem local_run {f : Byte → Bool} {k : Nat} (h : k + (((p ++ x).drop k).takeWhile f).length < p.length) :
    ((p ++ y).drop k).takeWhile f = ((p ++ x).drop k).takeWhile f := by
  have hk : k ≤ p.length := by omega
  rw [drop1 hk] at h ⊢
  rw [drop1 hk]
  exact takeWhile_local f _ x y (by rw [List.length_drop]; omega)

theorem local_head {k : Nat} (h : k < p.length) : ((p ++ y).drop k).head? = ((p ++ x).drop k).head? := by
  rw [drop1 (by omega), drop1 (by omega)]
  cases hd : p.drop k with
  | nil =>
    have := congrArg List.length hd
    rw [List.length_drop] at this
    simp at this; omega
  | cons c cs => rfl

theorem local_word {k : Nat} (h : InCommon p x k) : ((p ++ y).drop k).takeWhile isWordChar = ((p ++ x).drop k).takeWhile isWordChar := by
  refine local_run (Nat.lt_of_le_of_lt ?_ h)
  have := word_short ((p ++ x).drop k)
  unfold tokEnd
  omega

theorem twin_at {b : Prop} {q q' : WktR} (h : Twin p y b q q') : At (p ++ y) q' (lex ((p ++ y).drop q'.pos)) := h.2.1.at

theorem Twin.move {b : Prop} {q q' : WktR} (h : Twin p y b q q') {k : Nat} (hk : q.pos + k ≤ p.length) : Twin p y b (q.move k) (q'.move k) := by
  obtain ⟨h1, h2, h3⟩ := h
  refine ⟨by simp only [WktR.move]; omega, ⟨?_, ?_⟩, h3⟩
  · simp only [WktR.move, List.length_append]; omega
  · have := h2.2
    simp only [WktR.move, List.length_append] at this ⊢; omega

theorem At1.move {b : List Byte} {q : WktR} (h : At1 b q) {k : Nat} (hk : q.pos + k ≤ b.length) : At1 b (q.move k) := by
  obtain ⟨h1, h2⟩ := h
  exact ⟨hk, by simp only [WktR.move]; omega⟩

theorem takeWhile_le (f : Byte → Bool) (b : List Byte) (k : Nat) (h : k ≤ b.length) : k + ((b.drop k).takeWhile f).length ≤ b.length := by
  have := (List.takeWhile_prefix (l := b.drop k) f).length_le
  rw [List.length_drop] at this
  omega

theorem loc_skip' (Pre : WktR → Prop) (Post : WktR → Prop) (b : Prop)
    (hpost : ∀ q, At1 (p ++ x) q → Pre q → Post (q.move (((p ++ x).drop q.pos).takeWhile isSpace).length)) :
    Loc p x y Pre Post b b (Ep.safe (wkrSkip (p ++ x))) (Ep.safe (wkrSkip (p ++ y))) := by
  intro q ha hp
  rw [Ep.safe_ok (skip_run ha.at)]
  have hle := takeWhile_le isSpace (p ++ x) q.pos ha.1
  refine ⟨ha.move hle, hpost q ha hp, tokEnd_mono _ (by simp only [WktR.move]; omega), fun hi q' ht => ?_⟩
  have hlt := Nat.lt_of_le_of_lt (tokEnd_ge _ _) hi
  simp only [WktR.move] at hlt
  have hs := local_run (y := y) hlt
  refine Or.inr ⟨_, Ep.safe_ok (skip_run (twin_at ht)), ?_⟩
  rw [ht.1, hs]
  exact ht.move (by omega)

theorem loc_skip (b : Prop) : Loc p x y Anywhere Anywhere b b (Ep.safe (wkrSkip (p ++ x))) (Ep.safe (wkrSkip (p ++ y))) :=
  loc_skip' _ _ b fun _ _ _ => trivial

/-- The next character, 0 at the end. -/
def nextIs (b : List Byte) (c : Byte) (q : WktR) : Prop := (b.drop q.pos).head?.getD 0 = c

theorem Loc.peek {Pre Post : WktR → Prop} {b b' : Prop} {β : Type} {f f' : Byte → Ep β}
    (h : ∀ c, Loc p x y (fun q => Pre q ∧ nextIs (p ++ x) c q) Post b b' (f c) (f' c)) :
    Loc p x y Pre Post b b' (Ep.safe (wkrPeek (p ++ x)) >>= f) (Ep.safe (wkrPeek (p ++ y)) >>= f') := by
  intro q ha hp
  rw [Ep.bind_ok (Ep.safe_ok (peek_at ha.at))]
  have h1 := h _ q ha ⟨hp, rfl⟩
  have key : ∀ q', Twin p y b q q' → tokEnd (p ++ x) q.pos < p.length →
      (Ep.safe (wkrPeek (p ++ y)) >>= f') q' = f' (((p ++ x).drop q.pos).head?.getD 0) q' := by
    intro q' ht hi
    rw [Ep.bind_ok (Ep.safe_ok (peek_at (twin_at ht))), ht.1, local_head (x := x) (Nat.lt_of_le_of_lt (tokEnd_ge _ _) hi)]
  cases he : f (((p ++ x).drop q.pos).head?.getD 0) q with
  | ub => trivial
  | err w k =>
    rw [he] at h1
    refine ⟨h1.1, fun hi q' ht => ?_⟩
    rw [key q' ht (Nat.lt_of_le_of_lt h1.1 hi)]
    exact h1.2 hi q' ht
  | ok a q2 =>
    rw [he] at h1
    refine ⟨h1.1, h1.2.1, h1.2.2.1, fun hi q' ht => ?_⟩
    rw [key q' ht (Nat.lt_of_le_of_lt h1.2.2.1 hi)]
    exact h1.2.2.2 hi q' ht

theorem next_some {b : List Byte} {c : Byte} (hc : c ≠ 0) {q : WktR} (h : nextIs b c q) : ∃ tl, b.drop q.pos = c :: tl := head_is h hc

theorem loc_advance (Post : WktR → Prop) (b : Prop) (c : Byte) (hc : c ≠ 0) (hpost : ∀ q, nextIs (p ++ x) c q → Post (q.move 1)) :
    Loc p x y (nextIs (p ++ x) c) Post b b (Ep.safe (wkrAdvance 1)) (Ep.safe (wkrAdvance 1)) := by
  intro q ha hn
  have he : ∀ q, Ep.safe (wkrAdvance 1) q = .ok () (q.move 1) := fun q => rfl
  rw [he]
  obtain ⟨tl, hd⟩ := next_some hc hn
  have hl := congrArg List.length hd
  rw [List.length_drop, List.length_cons] at hl
  refine ⟨ha.move (by omega), hpost q hn, tokEnd_mono _ (by simp only [WktR.move]; omega), fun hi q' ht => Or.inr ⟨_, he q', ?_⟩⟩
  have hlt := Nat.lt_of_le_of_lt (tokEnd_ge _ _) hi
  simp only [WktR.move] at hlt
  exact ht.move (by omega)

theorem loc_char (b : Prop) (c : Byte) :
    Loc p x y Anywhere Anywhere b b (epChar (p ++ x) c) (epChar (p ++ y) c) := by
  intro q ha _
  unfold epChar
  rw [Ep.of_run, char_run ha.at]
  have hsame : ∀ q', Twin p y b q q' → q.pos < p.length → ((p ++ y).drop q'.pos).head? = ((p ++ x).drop q.pos).head? := by
    intro q' ht h
    rw [ht.1]; exact local_head h
  cases hd : (p ++ x).drop q.pos with
  | nil =>
    refine ⟨Nat.le_refl _, fun hi q' ht => ?_⟩
    have hlt := Nat.lt_of_le_of_lt (tokEnd_ge _ _) hi
    have hl := congrArg List.length hd
    rw [List.length_drop, List.length_append] at hl
    simp at hl; omega
  | cons d cs =>
    simp only []
    have hl := congrArg List.length hd
    rw [List.length_drop, List.length_cons] at hl
    by_cases hdc : d = c
    · rw [if_pos hdc]
      refine ⟨ha.move (by omega), trivial, tokEnd_mono _ (by simp only [WktR.move]; omega), fun hi q' ht => Or.inr ⟨q'.move 1, ?_, ?_⟩⟩
      · have hlt := Nat.lt_of_le_of_lt (tokEnd_ge _ _) hi
        simp only [WktR.move] at hlt
        have := hsame q' ht (by omega)
        rw [hd] at this
        refine Ep.of_ok ?_
        rw [char_run (twin_at ht)]
        cases hd' : (p ++ y).drop q'.pos with
        | nil => rw [hd'] at this; cases this
        | cons d' cs' =>
          rw [hd'] at this
          simp only [List.head?_cons, Option.some.injEq] at this
          simp only []
          rw [if_pos (by rw [this, hdc])]
      · have hlt := Nat.lt_of_le_of_lt (tokEnd_ge _ _) hi
        simp only [WktR.move] at hlt
        exact ht.move (by omega)
    · rw [if_neg hdc]
      refine ⟨Nat.le_refl _, fun hi q' ht => Or.inr ?_⟩
      have hlt := Nat.lt_of_le_of_lt (tokEnd_ge _ _) hi
      have := hsame q' ht hlt
      rw [hd] at this
      show Ep.of _ _ q' = .err _ q.pos
      rw [← ht.1]
      refine Ep.of_err (rc := EINVAL) ?_
      rw [char_run (twin_at ht)]
      cases hd' : (p ++ y).drop q'.pos with
      | nil => rfl
      | cons d' cs' =>
        rw [hd'] at this
        simp only [List.head?_cons, Option.some.injEq] at this
        simp only []
        rw [if_neg (by rw [this]; exact hdc)]

theorem loc_silent {e : Ep Unit} (h : Silent e) (Pre : WktR → Prop) (hpre : ∀ q q', q'.pos = q.pos → Pre q → Pre q') (b : Prop) :
    Loc p x y Pre Pre b b e e := by
  intro q ha hp
  rcases h q with g | ⟨q1, g, g1, g2, g3⟩
  · rw [g]; trivial
  · rw [g]
    refine ⟨⟨by rw [g1]; exact ha.1, by rw [g2, g1]; exact ha.2⟩, hpre q q1 g1 hp, by rw [g1]; exact Nat.le_refl _, fun _ q' ht => ?_⟩
    rcases h q' with k | ⟨q1', k, k1, k2, k3⟩
    · exact Or.inl k
    · refine Or.inr ⟨q1', k, by rw [k1, g1]; exact ht.1, ⟨by rw [k1]; exact ht.2.1.1, by rw [k2, k1]; exact ht.2.1.2⟩, fun hb => by rw [k3, g3]; exact ht.2.2 hb⟩

theorem Loc.pure {α : Type} (a : α) (Pre : WktR → Prop) (b : Prop) : Loc p x y Pre Pre b b (Pure.pure a) (Pure.pure a) :=
  fun _ ha hp => ⟨ha, hp, Nat.le_refl _, fun _ q' ht => Or.inr ⟨q', rfl, ht⟩⟩

/-! ## Numbers and words -/

variable {parse : List Byte → Option Dbl}

theorem ordinate_eq {blob : List Byte} {r : WktR} (h : At1 blob r) (i : Nat) :
    wkrOrdinate parse blob i r = (match parse ((blob.drop r.pos).takeWhile isWordChar) with
      | none => .err EINVAL r
      | some x => if 64 * i + r.n < 256 then
          .ok () { r.move ((blob.drop r.pos).takeWhile isWordChar).length with coords := fun k => if k = 64 * i + r.n then x else r.coords k }
        else .ub) := by
  unfold wkrOrdinate
  rw [untilSep_at h.at]
  simp only [WktR.move]
  rw [show r.pos + ((blob.drop r.pos).takeWhile isWordChar).length - r.pos = ((blob.drop r.pos).takeWhile isWordChar).length by omega,
    ← (List.prefix_iff_eq_take.mp (List.takeWhile_prefix (l := blob.drop r.pos) isWordChar))]
  cases parse ((blob.drop r.pos).takeWhile isWordChar) <;> rfl

theorem loc_ordinate (b : Prop) (i : Nat) :
    Loc p x y Anywhere Anywhere b b (Ep.of .number (wkrOrdinate parse (p ++ x) i)) (Ep.of .number (wkrOrdinate parse (p ++ y) i)) := by
  intro q ha _
  rw [Ep.of_run, ordinate_eq ha]
  have hle := takeWhile_le isWordChar (p ++ x) q.pos ha.1
  cases hp : parse (((p ++ x).drop q.pos).takeWhile isWordChar) with
  | none =>
    refine ⟨Nat.le_refl _, fun hi q' ht => Or.inr ?_⟩
    have hw := local_word (y := y) hi
    show Ep.of _ _ q' = .err _ q.pos
    rw [← ht.1]
    refine Ep.of_err (rc := EINVAL) ?_
    rw [ordinate_eq ht.2.1, ht.1, hw, hp]
  | some v =>
    simp only []
    by_cases hn : 64 * i + q.n < 256
    · rw [if_pos hn]
      refine ⟨ha.move hle, trivial, tokEnd_mono _ (by simp only [WktR.move]; omega), fun hi q' ht => ?_⟩
      have hlt := Nat.lt_of_le_of_lt (tokEnd_ge _ _) hi
      simp only [WktR.move] at hlt
      have hw := local_run (y := y) hlt
      have hr := ordinate_eq (parse := parse) ht.2.1 i
      rw [ht.1, hw, hp] at hr
      simp only [] at hr
      by_cases hn' : 64 * i + q'.n < 256
      · rw [if_pos hn'] at hr
        exact Or.inr ⟨_, Ep.of_ok hr, ht.move (by omega)⟩
      · rw [if_neg hn'] at hr
        exact Or.inl (Ep.of_ub hr)
    · rw [if_neg hn]; trivial

theorem space_eq {blob : List Byte} {r : WktR} (h : At1 blob r) : wkrSpace blob r = (match (blob.drop r.pos).head? with
    | some c => if isSpace c = true then .ok () (r.move ((blob.drop r.pos).takeWhile isSpace).length) else .err EINVAL r
    | none => .err EINVAL r) := by
  unfold wkrSpace
  have hl := h.at.lenDrop
  cases hd : blob.drop r.pos with
  | nil => rw [hd] at hl; rw [if_neg (by simp at hl; omega)]; rfl
  | cons c cs =>
    rw [hd] at hl
    rw [if_pos (by simp at hl; omega), get_drop hd]
    simp only [List.head?_cons]
    by_cases hc : isSpace c = true
    · rw [if_pos (by rw [isSpace_eq]; exact hc), if_pos hc, skip_run h.at, hd]
    · rw [if_neg (by rw [isSpace_eq]; exact hc), if_neg hc]

theorem loc_space (b : Prop) :
    Loc p x y Anywhere Anywhere b b (Ep.of .whitespace (wkrSpace (p ++ x))) (Ep.of .whitespace (wkrSpace (p ++ y))) := by
  intro q ha _
  rw [Ep.of_run, space_eq ha]
  have hle := takeWhile_le isSpace (p ++ x) q.pos ha.1
  have hbad : ∀ q', Twin p y b q q' → InCommon p x q.pos → (∀ c, ((p ++ x).drop q.pos).head? = some c → isSpace c = false) →
      Ep.of .whitespace (wkrSpace (p ++ y)) q' = .err .whitespace q.pos := by
    intro q' ht hi hc
    rw [← ht.1]
    refine Ep.of_err (rc := EINVAL) ?_
    rw [space_eq ht.2.1, ht.1, local_head (x := x) (Nat.lt_of_le_of_lt (tokEnd_ge _ _) hi)]
    cases hh : ((p ++ x).drop q.pos).head? with
    | none => rfl
    | some c => simp only []; rw [if_neg (by simp [hc c hh])]
  cases hh : ((p ++ x).drop q.pos).head? with
  | none => exact ⟨Nat.le_refl _, fun hi q' ht => Or.inr (hbad q' ht hi (by intro c h; rw [hh] at h; cases h))⟩
  | some c =>
    simp only []
    by_cases hc : isSpace c = true
    · rw [if_pos hc]
      refine ⟨ha.move hle, trivial, tokEnd_mono _ (by simp only [WktR.move]; omega), fun hi q' ht => Or.inr ⟨q'.move (((p ++ x).drop q.pos).takeWhile isSpace).length, ?_, ?_⟩⟩
      · have hlt := Nat.lt_of_le_of_lt (tokEnd_ge _ _) hi
        simp only [WktR.move] at hlt
        refine Ep.of_ok ?_
        rw [space_eq ht.2.1, ht.1, local_run (y := y) hlt, local_head (x := x) (by omega), hh]
        simp only []
        rw [if_pos hc]
      · have hlt := Nat.lt_of_le_of_lt (tokEnd_ge _ _) hi
        simp only [WktR.move] at hlt
        exact ht.move (by omega)
    · rw [if_neg hc]
      refine ⟨Nat.le_refl _, fun hi q' ht => Or.inr (hbad q' ht hi ?_)⟩
      intro d h
      rw [hh] at h
      cases h
      simpa using hc

theorem epempty_eq {blob : List Byte} {r : WktR} (h : At1 blob r) : wkrEmpty blob r =
    if (blob.drop r.pos).takeWhile isWordChar = str "EMPTY" then .ok () (r.move 5) else .err EINVAL r := by
  unfold wkrEmpty
  rw [M.bind_ok (word_at h.at 6)]
  by_cases hc : (blob.drop r.pos).takeWhile isWordChar = str "EMPTY"
  · rw [if_pos hc, if_pos ((take_eq_short (by decide)).mpr hc)]; rfl
  · rw [if_neg hc, if_neg (fun h => hc ((take_eq_short (by decide)).mp h))]; rfl

theorem loc_empty (Pre : WktR → Prop) (b : Prop) :
    Loc p x y Pre Anywhere b b (Ep.of .openingOrEmpty (wkrEmpty (p ++ x))) (Ep.of .openingOrEmpty (wkrEmpty (p ++ y))) := by
  intro q ha _
  rw [Ep.of_run, epempty_eq ha]
  have hle := takeWhile_le isWordChar (p ++ x) q.pos ha.1
  by_cases hw : ((p ++ x).drop q.pos).takeWhile isWordChar = str "EMPTY"
  · rw [if_pos hw]
    rw [hw, show (str "EMPTY").length = 5 by decide] at hle
    refine ⟨ha.move hle, trivial, tokEnd_mono _ (by simp only [WktR.move]; omega), fun hi q' ht => Or.inr ⟨q'.move 5, ?_, ?_⟩⟩
    · have hlt := Nat.lt_of_le_of_lt (tokEnd_ge _ _) hi
      simp only [WktR.move] at hlt
      refine Ep.of_ok ?_
      rw [epempty_eq ht.2.1, ht.1, local_run (x := x) (by rw [hw, show (str "EMPTY").length = 5 by decide]; exact hlt), if_pos hw]
    · have hlt := Nat.lt_of_le_of_lt (tokEnd_ge _ _) hi
      simp only [WktR.move] at hlt
      exact ht.move (by omega)
  · rw [if_neg hw]
    refine ⟨Nat.le_refl _, fun hi q' ht => Or.inr ?_⟩
    show Ep.of _ _ q' = .err _ q.pos
    rw [← ht.1]
    refine Ep.of_err (rc := EINVAL) ?_
    rw [epempty_eq ht.2.1, ht.1, local_word hi, if_neg hw]

/-! ## Composition -/

/-- Ends of the white space and of the tag. -/
theorem tag_eq {blob : List Byte} {r : WktR} (h : At1 blob r) : ∃ r1, r1 = r.move ((blob.drop r.pos).takeWhile isSpace).length ∧ At1 blob r1 ∧
    wkrTag blob r = (match wkrType ((blob.drop r1.pos).takeWhile isWordChar) with
      | none => .err EINVAL r1
      | some gt =>
        let r2 := r1.move ((blob.drop r1.pos).takeWhile isWordChar).length
        let r3 := r2.move ((blob.drop r2.pos).takeWhile isSpace).length
        let d := wkrDims ((blob.drop r3.pos).takeWhile isWordChar)
        .ok (gt, d.1) ({ r3 with nv := d.2.1 }.move d.2.2)) := by
  refine ⟨_, rfl, h.move (takeWhile_le _ _ _ h.1), ?_⟩
  have h1 : At1 blob (r.move ((blob.drop r.pos).takeWhile isSpace).length) := h.move (takeWhile_le _ _ _ h.1)
  unfold wkrTag
  rw [M.bind_ok (skip_run h.at), M.bind_ok (word_at h1.at 19), type_take]
  generalize r.move ((blob.drop r.pos).takeWhile isSpace).length = r1 at h1
  cases hg : wkrType ((blob.drop r1.pos).takeWhile isWordChar) with
  | none => rfl
  | some gt =>
    simp only []
    rw [type_take_len hg]
    have h2 : At1 blob (r1.move ((blob.drop r1.pos).takeWhile isWordChar).length) := h1.move (takeWhile_le _ _ _ h1.1)
    rw [M.bind_ok (m := wkrAdvance _) (s := r1) (a := ()) (s' := r1.move ((blob.drop r1.pos).takeWhile isWordChar).length) rfl]
    generalize r1.move ((blob.drop r1.pos).takeWhile isWordChar).length = r2 at h2
    have h3 : At1 blob (r2.move ((blob.drop r2.pos).takeWhile isSpace).length) := h2.move (takeWhile_le _ _ _ h2.1)
    rw [M.bind_ok (skip_run h2.at), M.bind_ok (word_at h3.at 3), dims_take]
    rfl

theorem dims_short (w : List Byte) : (wkrDims w).2.2 ≤ w.length := by
  unfold wkrDims
  split; · rename_i h; rw [h]; decide
  split; · rename_i h; rw [h]; decide
  split; · rename_i h; rw [h]; decide
  simp

theorem loc_tag : Loc p x y Anywhere Anywhere False True (Ep.of .geometryType (wkrTag (p ++ x))) (Ep.of .geometryType (wkrTag (p ++ y))) := by
  intro q ha _
  obtain ⟨r1, e1, a1, ht⟩ := tag_eq ha
  have hp1 : q.pos ≤ r1.pos := by rw [e1]; simp only [WktR.move]; omega
  have key : r1.pos < p.length → ∀ q', Twin p y False q q' → ∃ r1', r1'.pos = r1.pos ∧ At1 (p ++ y) r1' ∧
      wkrTag (p ++ y) q' = (match wkrType (((p ++ y).drop r1'.pos).takeWhile isWordChar) with
      | none => .err EINVAL r1'
      | some gt =>
        let r2 := r1'.move (((p ++ y).drop r1'.pos).takeWhile isWordChar).length
        let r3 := r2.move (((p ++ y).drop r2.pos).takeWhile isSpace).length
        let d := wkrDims (((p ++ y).drop r3.pos).takeWhile isWordChar)
        .ok (gt, d.1) ({ r3 with nv := d.2.1 }.move d.2.2)) := by
    intro hlt q' tw
    obtain ⟨r1', e1', a1', ht'⟩ := tag_eq tw.2.1
    refine ⟨r1', ?_, a1', ht'⟩
    rw [e1] at hlt ⊢
    rw [e1']
    simp only [WktR.move] at hlt ⊢
    rw [tw.1, local_run hlt]
  rw [Ep.of_run, ht]
  cases hg : wkrType (((p ++ x).drop r1.pos).takeWhile isWordChar) with
  | none =>
    refine ⟨tokEnd_mono _ hp1, fun hi q' tw => Or.inr ?_⟩
    obtain ⟨r1', k1, _, k2⟩ := key (Nat.lt_of_le_of_lt (tokEnd_ge _ _) hi) q' tw
    show Ep.of _ _ q' = .err _ r1.pos
    rw [← k1]
    refine Ep.of_err (rc := EINVAL) ?_
    rw [k2, k1, local_word hi, hg]
  | some gt =>
    simp only []
    have a2 : At1 (p ++ x) (r1.move (((p ++ x).drop r1.pos).takeWhile isWordChar).length) := a1.move (takeWhile_le _ _ _ a1.1)
    have hp2 : (r1.move (((p ++ x).drop r1.pos).takeWhile isWordChar).length).pos = r1.pos + (((p ++ x).drop r1.pos).takeWhile isWordChar).length := rfl
    generalize hr2 : r1.move (((p ++ x).drop r1.pos).takeWhile isWordChar).length = r2 at a2 hp2
    have a3 : At1 (p ++ x) (r2.move (((p ++ x).drop r2.pos).takeWhile isSpace).length) := a2.move (takeWhile_le _ _ _ a2.1)
    have hp3 : (r2.move (((p ++ x).drop r2.pos).takeWhile isSpace).length).pos = r2.pos + (((p ++ x).drop r2.pos).takeWhile isSpace).length := rfl
    generalize hr3 : r2.move (((p ++ x).drop r2.pos).takeWhile isSpace).length = r3 at a3 hp3
    generalize hw : ((p ++ x).drop r3.pos).takeWhile isWordChar = w
    have hle := takeWhile_le isWordChar (p ++ x) r3.pos a3.1
    have hds := dims_short w
    rw [hw] at hle
    refine ⟨At1.move (q := { r3 with nv := (wkrDims w).2.1 }) ⟨a3.1, a3.2⟩ (Nat.le_trans (Nat.add_le_add_left hds _) hle), trivial, tokEnd_mono _ ?_, fun hi q' tw => ?_⟩
    · simp only [WktR.move]; omega
    have hi3 : InCommon p x r3.pos := Nat.lt_of_le_of_lt (tokEnd_mono _ (by simp only [WktR.move]; omega)) hi
    have hlt3 := Nat.lt_of_le_of_lt (tokEnd_ge _ _) hi3
    obtain ⟨r1', k1, b1, k2⟩ := key (by omega) q' tw
    rw [k1, local_run (x := x) (by omega), hg] at k2
    simp only [] at k2
    have b2 : At1 (p ++ y) (r1'.move (((p ++ x).drop r1.pos).takeWhile isWordChar).length) := by
      refine b1.move ?_
      rw [List.length_append]; omega
    have q2 : (r1'.move (((p ++ x).drop r1.pos).takeWhile isWordChar).length).pos = r2.pos := by
      rw [hp2, ← k1]; rfl
    generalize r1'.move (((p ++ x).drop r1.pos).takeWhile isWordChar).length = r2' at k2 b2 q2
    rw [q2, local_run (f := isSpace) (k := r2.pos) (x := x) (by omega)] at k2
    have b3 : At1 (p ++ y) (r2'.move (((p ++ x).drop r2.pos).takeWhile isSpace).length) := by
      refine b2.move ?_
      rw [List.length_append]; omega
    have q3 : (r2'.move (((p ++ x).drop r2.pos).takeWhile isSpace).length).pos = r3.pos := by
      rw [hp3, ← q2]; rfl
    generalize r2'.move (((p ++ x).drop r2.pos).takeWhile isSpace).length = r3' at k2 b3 q3
    have hww : ((p ++ y).drop r3'.pos).takeWhile isWordChar = w := by rw [q3, local_word hi3, hw]
    rw [hww] at k2
    refine Or.inr ⟨_, Ep.of_ok k2, ?_, At1.move (q := { r3' with nv := (wkrDims w).2.1 }) ⟨b3.1, b3.2⟩ ?_, fun _ => rfl⟩
    · simp only [WktR.move]; omega
    · have := Nat.lt_of_le_of_lt (tokEnd_ge _ _) hi
      simp only [WktR.move] at this
      rw [List.length_append]
      show r3'.pos + _ ≤ _
      omega

theorem Loc.ub_right {Pre Post : WktR → Prop} {b b' : Prop} {α : Type} {e e' : Ep α} (h : Loc p x y Pre Post b b' e e') :
    Loc p x y Pre Post b b' e (fun _ => .ub) := by
  intro q ha hp
  have h0 := h q ha hp
  cases he : e q with
  | ub => trivial
  | err w k => rw [he] at h0; exact ⟨h0.1, fun _ _ _ => Or.inl rfl⟩
  | ok a q2 => rw [he] at h0; exact ⟨h0.1, h0.2.1, h0.2.2.1, fun _ _ _ => Or.inl rfl⟩

theorem loc_silent2 {e e' : Ep Unit} (h : Silent e) (h' : Silent e') (Pre : WktR → Prop) (hpre : ∀ q q', q'.pos = q.pos → Pre q → Pre q') (b : Prop) :
    Loc p x y Pre Pre b b e e' := by
  intro q ha hp
  rcases h q with g | ⟨q1, g, g1, g2, g3⟩
  · rw [g]; trivial
  · rw [g]
    refine ⟨⟨by rw [g1]; exact ha.1, by rw [g2, g1]; exact ha.2⟩, hpre q q1 g1 hp, by rw [g1]; exact Nat.le_refl _, fun _ q' ht => ?_⟩
    rcases h' q' with k | ⟨q1', k, k1, k2, k3⟩
    · exact Or.inl k
    · refine Or.inr ⟨q1', k, by rw [k1, g1]; exact ht.1, ⟨by rw [k1]; exact ht.2.1.1, by rw [k2, k1]; exact ht.2.1.2⟩, fun hb => by rw [k3, g3]; exact ht.2.2 hb⟩

theorem Loc.read_n {Pre Post : WktR → Prop} {b b' : Prop} {β : Type} {f f' : Nat → Ep β} (h : ∀ n n', Loc p x y Pre Post b b' (f n) (f' n')) :
    Loc p x y Pre Post b b' (Ep.safe (fun r => .ok r.n r) >>= f) (Ep.safe (fun r => .ok r.n r) >>= f') := by
  intro q ha hp
  have h0 := fun n' => h q.n n' q ha hp
  show match f q.n q with | .ok a q2 => _ | .err w k => _ | .ub => True
  cases he : f q.n q with
  | ub => trivial
  | err w k =>
    rw [he] at h0
    exact ⟨(h0 0).1, fun hi q' ht => (h0 q'.n).2 hi q' ht⟩
  | ok a q2 =>
    rw [he] at h0
    exact ⟨(h0 0).1, (h0 0).2.1, (h0 0).2.2.1, fun hi q' ht => (h0 q'.n).2.2.2 hi q' ht⟩

theorem Loc.read_nv {Pre Post : WktR → Prop} {b' : Prop} {β : Type} {f f' : Nat → Ep β} (h : ∀ n, Loc p x y Pre Post True b' (f n) (f' n)) :
    Loc p x y Pre Post True b' (Ep.safe (fun r => .ok r.nv r) >>= f) (Ep.safe (fun r => .ok r.nv r) >>= f') := by
  intro q ha hp
  have h0 := h q.nv q ha hp
  have hv : ∀ q', Twin p y True q q' → (Ep.safe (fun r => .ok r.nv r) >>= f') q' = f' q.nv q' := by
    intro q' ht
    show f' q'.nv q' = _
    rw [ht.2.2 trivial]
  show match f q.nv q with | .ok a q2 => _ | .err w k => _ | .ub => True
  cases he : f q.nv q with
  | ub => trivial
  | err w k =>
    rw [he] at h0
    refine ⟨h0.1, fun hi q' ht => ?_⟩
    rw [hv q' ht]
    exact h0.2 hi q' ht
  | ok a q2 =>
    rw [he] at h0
    refine ⟨h0.1, h0.2.1, h0.2.2.1, fun hi q' ht => ?_⟩
    rw [hv q' ht]
    exact h0.2.2.2 hi q' ht

theorem Loc.pre {Pre Post : WktR → Prop} {b b' : Prop} {α : Type} {e e' : Ep α} (h : Loc p x y Anywhere Post b b' e e') :
    Loc p x y Pre Post b b' e e' := h.mono (fun _ _ => trivial) (fun _ h => h) id id

theorem Loc.post {Pre Post : WktR → Prop} {b b' : Prop} {α : Type} {e e' : Ep α} (h : Loc p x y Pre Post b b' e e') :
    Loc p x y Pre Anywhere b b' e e' := h.mono (fun _ h => h) (fun _ _ => trivial) id id

theorem loc_ordinates (b : Prop) : ∀ k i, Loc p x y Anywhere Anywhere b b (epOrdinates parse (p ++ x) i k) (epOrdinates parse (p ++ y) i k) := by
  intro k
  induction k with
  | zero => intro i; exact Loc.pure _ _ _
  | succ k ih => intro i; exact Loc.bind (loc_space b) fun _ => Loc.bind (loc_ordinate b i) fun _ => ih (i + 1)

theorem silent_if (c : Prop) [Decidable c] : Silent (if c then epFlush else Pure.pure ()) := by
  split
  · exact silent_flush
  · exact silent_nothing

theorem loc_coordinate : Loc p x y Anywhere Anywhere True True (epCoordinate parse (p ++ x)) (epCoordinate parse (p ++ y)) := by
  refine Loc.read_n fun n n' => ?_
  refine Loc.bind (loc_silent2 (silent_if _) (silent_if _) Anywhere (fun _ _ _ h => h) _) fun _ => ?_
  refine Loc.bind (loc_ordinate _ 0) fun _ => ?_
  refine Loc.read_nv fun nv => ?_
  refine Loc.bind (loc_ordinates _ _ _) fun _ => ?_
  exact loc_silent (e := Ep.safe (M.modify fun r => { r with n := r.n + 1 })) (fun q => Or.inr ⟨{ q with n := q.n + 1 }, rfl, rfl, rfl, rfl⟩) Anywhere (fun _ _ _ h => h) _

theorem loc_loop {b : Prop} {e e' : Ep Unit} (h : Loc p x y Anywhere Anywhere b b e e') : ∀ f f',
    Loc p x y Anywhere (nextIs (p ++ x) 41) b b (epLoop (p ++ x) e f) (epLoop (p ++ y) e' f') := by
  intro f
  induction f with
  | zero => intro f' q _ _; trivial
  | succ f ih =>
    have hs : ∀ f', Loc p x y Anywhere (nextIs (p ++ x) 41) b b (epLoop (p ++ x) e (f + 1)) (epLoop (p ++ y) e' (f' + 1)) := by
      intro f'
      refine Loc.peek fun c => ?_
      by_cases hc : c = 41
      · rw [if_pos hc, if_pos hc, hc]
        exact (Loc.pure _ (nextIs (p ++ x) 41) b).mono (fun _ h => h.2) (fun _ h => h) id id
      · rw [if_neg hc, if_neg hc]
        refine Loc.pre ?_
        refine Loc.bind (loc_skip b) fun _ => ?_
        refine Loc.bind (loc_char b 44) fun _ => ?_
        refine Loc.bind (loc_skip b) fun _ => ?_
        refine Loc.bind h fun _ => ?_
        exact Loc.bind (loc_skip b) fun _ => ih f'
    intro f'
    cases f' with
    | zero => exact (hs 0).ub_right
    | succ f' => exact hs f'

theorem loc_items {b : Prop} {e e' : Ep Unit} (h : Loc p x y Anywhere Anywhere b b e e') :
    Loc p x y Anywhere (nextIs (p ++ x) 41) b b (epItems (p ++ x) e) (epItems (p ++ y) e') := by
  refine Loc.bind h fun _ => ?_
  refine Loc.bind (loc_skip b) fun _ => ?_
  intro q ha hp
  have h0 := fun f' => loc_loop h (q.left.toNat + 1) f' q ha hp
  dsimp only
  cases he : epLoop (p ++ x) e (q.left.toNat + 1) q with
  | ub => trivial
  | err w k =>
    rw [he] at h0
    exact ⟨(h0 0).1, fun hi q' ht => (h0 (q'.left.toNat + 1)).2 hi q' ht⟩
  | ok a q2 =>
    rw [he] at h0
    exact ⟨(h0 0).1, (h0 0).2.1, (h0 0).2.2.1, fun hi q' ht => (h0 (q'.left.toNat + 1)).2.2.2 hi q' ht⟩

/-- The character before is an opening parenthesis or white space. -/
def PrevOk (b : List Byte) (q : WktR) : Prop := 0 < q.pos ∧ ∃ c tl, b.drop (q.pos - 1) = c :: tl ∧ (c = 40 ∨ isSpace c = true)

theorem prev_skip {b : List Byte} {q : WktR} (h : PrevOk b q) : PrevOk b (q.move ((b.drop q.pos).takeWhile isSpace).length) := by
  generalize hl : (b.drop q.pos).takeWhile isSpace = l
  rcases List.eq_nil_or_concat l with rfl | ⟨l', c, rfl⟩
  · exact h
  · rw [List.concat_eq_append] at hl ⊢
    refine ⟨by simp only [WktR.move]; have := h.1; omega, c, ?_⟩
    have hc : isSpace c = true := by
      have := List.all_takeWhile (p := isSpace) (l := b.drop q.pos)
      rw [hl, List.all_eq_true] at this
      exact this c (by simp)
    have hd := (List.takeWhile_append_dropWhile (p := isSpace) (l := b.drop q.pos)).symm
    rw [hl] at hd
    refine ⟨(b.drop q.pos).dropWhile isSpace, ?_, Or.inr hc⟩
    have : (q.move (l' ++ [c]).length).pos - 1 = q.pos + l'.length := by simp only [WktR.move, List.length_append, List.length_singleton]; omega
    rw [this, ← List.drop_drop]
    conv => lhs; rw [hd]
    rw [List.append_assoc, List.drop_left]
    rfl

theorem prev_open {b : List Byte} {q : WktR} (h : nextIs b 40 q) : PrevOk b (q.move 1) := by
  obtain ⟨tl, hd⟩ := next_some (by decide) h
  exact ⟨by simp only [WktR.move]; omega, 40, tl, by simpa only [WktR.move, Nat.add_sub_cancel] using hd, Or.inl rfl⟩

theorem loc_emptyOr {b : Prop} {e e' : Ep Unit} (h : Loc p x y (PrevOk (p ++ x)) Anywhere b b e e') :
    Loc p x y Anywhere Anywhere b b (epEmptyOr (p ++ x) e) (epEmptyOr (p ++ y) e') := by
  refine Loc.bind (loc_skip b) fun _ => ?_
  refine Loc.peek fun c => ?_
  by_cases hc : c = 40
  · rw [if_pos hc, if_pos hc, hc]
    refine (Loc.bind (loc_advance (PrevOk (p ++ x)) b 40 (by decide) fun q hq => prev_open hq) fun _ => h).mono (fun _ h => h.2) (fun _ h => h) id id
  · rw [if_neg hc, if_neg hc]
    exact loc_empty _ b

theorem loc_close (b : Prop) : Loc p x y (nextIs (p ++ x) 41) Anywhere b b (Ep.safe (wkrAdvance 1)) (Ep.safe (wkrAdvance 1)) :=
  loc_advance _ b 41 (by decide) fun _ _ => trivial

theorem loc_coordinates : Loc p x y Anywhere Anywhere True True (epCoordinates parse (p ++ x)) (epCoordinates parse (p ++ y)) := by
  refine loc_emptyOr (Loc.pre ?_)
  refine Loc.bind (loc_skip _) fun _ => ?_
  refine Loc.bind (loc_silent silent_reset _ (fun _ _ _ h => h) _) fun _ => ?_
  refine Loc.bind (loc_items loc_coordinate) fun _ => ?_
  refine Loc.bind (loc_silent silent_flush _ (fun q q' h hn => ?_) _) fun _ => loc_close _
  unfold nextIs at hn ⊢
  rw [h]; exact hn

theorem loc_point : Loc p x y Anywhere Anywhere True True (epPoint parse (p ++ x)) (epPoint parse (p ++ y)) := by
  refine loc_emptyOr (Loc.pre ?_)
  refine Loc.bind (loc_skip _) fun _ => ?_
  refine Loc.bind (loc_silent silent_reset _ (fun _ _ _ h => h) _) fun _ => ?_
  refine Loc.bind loc_coordinate fun _ => ?_
  refine Loc.bind (loc_silent silent_flush _ (fun _ _ _ h => h) _) fun _ => ?_
  exact Loc.bind (loc_skip _) fun _ => loc_char _ _

theorem loc_list {b : Prop} {e e' : Ep Unit} (h : Loc p x y Anywhere Anywhere b b e e') :
    Loc p x y Anywhere Anywhere b b (epList (p ++ x) e) (epList (p ++ y) e') := by
  refine loc_emptyOr (Loc.pre ?_)
  refine Loc.bind (loc_skip _) fun _ => ?_
  exact Loc.bind (loc_items h) fun _ => loc_close _

theorem Ep.bind_assoc {α β γ : Type} (e : Ep α) (f : α → Ep β) (g : β → Ep γ) : (e >>= fun a => f a >>= g) = ((e >>= f) >>= g) := by
  funext r
  rw [Ep.bind_run, Ep.bind_run, Ep.bind_run]
  cases e r <;> rfl

theorem Loc.assoc {Pre Post : WktR → Prop} {b b' : Prop} {α β γ : Type} {e e' : Ep α} {f f' : α → Ep β} {g g' : β → Ep γ}
    (h : Loc p x y Pre Post b b' ((e >>= f) >>= g) ((e' >>= f') >>= g')) :
    Loc p x y Pre Post b b' (e >>= fun a => f a >>= g) (e' >>= fun a => f' a >>= g') := by
  rw [Ep.bind_assoc, Ep.bind_assoc]; exact h

/-- One step back, then an opening parenthesis: the end of the token does not move back. -/
theorem loc_back (b : Prop) : Loc p x y (PrevOk (p ++ x)) Anywhere b b
    (Ep.safe (fun r => if r.pos = 0 then .ub else .ok () { r with pos := r.pos - 1, left := r.left + 1 }) >>= fun _ => epChar (p ++ x) 40)
    (Ep.safe (fun r => if r.pos = 0 then .ub else .ok () { r with pos := r.pos - 1, left := r.left + 1 }) >>= fun _ => epChar (p ++ y) 40) := by
  intro q ha hp
  obtain ⟨h0, c, tl, hd, hc⟩ := hp
  have hstep : ∀ {z : List Byte} {q : WktR}, 0 < q.pos → At1 z q → (Ep.safe (fun r => if r.pos = 0 then .ub else .ok () { r with pos := r.pos - 1, left := r.left + 1 }) >>= fun _ => epChar z 40) q =
      epChar z 40 { q with pos := q.pos - 1, left := q.left + 1 } := by
    intro z q h _
    rw [Ep.bind_ok (Ep.safe_ok (m := fun r : WktR => if r.pos = 0 then Res.ub else Res.ok () { r with pos := r.pos - 1, left := r.left + 1 }) (if_neg (by omega)))]
  have hback : ∀ {z : List Byte} {q : WktR}, 0 < q.pos → At1 z q → At1 z { q with pos := q.pos - 1, left := q.left + 1 } := by
    intro z q h ha
    refine ⟨?_, ?_⟩
    · have := ha.1; show q.pos - 1 ≤ _; omega
    · have := ha.2; show q.left + 1 = _ - ((q.pos - 1 : Nat) : Int); omega
  rw [hstep h0 ha]
  have hl := loc_char (p := p) (x := x) (y := y) b 40 { q with pos := q.pos - 1, left := q.left + 1 } (hback h0 ha) trivial
  have hrun : epChar (p ++ x) 40 { q with pos := q.pos - 1, left := q.left + 1 } =
      if c = 40 then .ok () ({ q with pos := q.pos - 1, left := q.left + 1 }.move 1) else .err (.char 40) (q.pos - 1) := by
    unfold epChar
    rw [Ep.of_run, char_run (hback h0 ha).at]
    simp only [hd]
    by_cases h40 : c = 40
    · simp only [if_pos h40]
    · simp only [if_neg h40]
  have htw : ∀ q', Twin p y b q q' → Twin p y b { q with pos := q.pos - 1, left := q.left + 1 } { q' with pos := q'.pos - 1, left := q'.left + 1 } := by
    intro q' ht
    exact ⟨by show q'.pos - 1 = q.pos - 1; rw [ht.1], hback (by rw [ht.1]; exact h0) ht.2.1, ht.2.2⟩
  rw [hrun] at hl ⊢
  by_cases h40 : c = 40
  · rw [if_pos h40] at hl ⊢
    refine ⟨hl.1, trivial, tokEnd_mono _ (by simp only [WktR.move]; omega), fun hi q' ht => ?_⟩
    rw [hstep (by rw [ht.1]; exact h0) ht.2.1]
    exact hl.2.2.2 hi _ (htw q' ht)
  · rw [if_neg h40] at hl ⊢
    refine ⟨?_, fun hi q' ht => ?_⟩
    · rw [tokEnd_space hd (hc.resolve_left h40), show q.pos - 1 + 1 = q.pos by omega]
      exact Nat.le_refl _
    · rw [hstep (by rw [ht.1]; exact h0) ht.2.1]
      exact hl.2 hi _ (htw q' ht)

theorem loc_multipoint : Loc p x y Anywhere Anywhere True True (epMultipoint parse (p ++ x)) (epMultipoint parse (p ++ y)) := by
  refine loc_emptyOr ?_
  refine Loc.bind (loc_skip' (PrevOk (p ++ x)) (PrevOk (p ++ x)) True fun q _ h => prev_skip h) fun _ => ?_
  refine Loc.peek fun c => ?_
  by_cases hc : c ≠ 40 ∧ c ≠ 69
  · rw [if_pos hc, if_pos hc]
    refine Loc.assoc ?_
    refine Loc.bind (Mid := Anywhere) (b1 := True) (Loc.mono (loc_back True) (fun _ h => And.left h) (fun _ h => h) id id) fun _ => ?_
    refine Loc.bind (loc_items ?_) fun _ => loc_close _
    refine Loc.bind (loc_silent silent_reset _ (fun _ _ _ h => h) _) fun _ => ?_
    exact Loc.bind loc_coordinate fun _ => loc_silent silent_flush _ (fun _ _ _ h => h) _
  · rw [if_neg hc, if_neg hc]
    exact Loc.pre (Loc.bind (loc_items loc_point) fun _ => loc_close _)

theorem loc_fail (w : WkWant) (Pre : WktR → Prop) (b b' : Prop) : Loc p x y Pre Anywhere b b' (Ep.of w (M.fail EINVAL) : Ep Unit) (Ep.of w (M.fail EINVAL)) := by
  intro q _ _
  refine ⟨Nat.le_refl _, fun _ q' ht => Or.inr ?_⟩
  show EpRes.err w q'.pos = .err w q.pos
  rw [ht.1]

theorem Loc.weak {Pre Post : WktR → Prop} {b' : Prop} {α : Type} {e e' : Ep α} (h : Loc p x y Pre Post True b' e e') :
    Loc p x y Pre Post True False e e' := h.mono (fun _ h => h) (fun _ h => h) id False.elim

theorem loc_content {e e' : Ep Unit} (ht : Loc p x y Anywhere Anywhere False False e e') (gt : Nat) :
    Loc p x y Anywhere Anywhere True False (epContent parse (p ++ x) e gt) (epContent parse (p ++ y) e' gt) := by
  unfold epContent
  split; · exact loc_point.weak
  split; · exact loc_coordinates.weak
  split; · exact (loc_list loc_coordinates).weak
  split; · exact loc_multipoint.weak
  split; · exact (loc_list loc_coordinates).weak
  split; · exact (loc_list (loc_list loc_coordinates)).weak
  split; · exact (loc_list ht).mono (fun _ h => h) (fun _ h => h) False.elim id
  exact loc_fail _ _ _ _

theorem loc_tagged : ∀ f f', Loc p x y Anywhere Anywhere False False (epTagged parse (p ++ x) f) (epTagged parse (p ++ y) f') := by
  intro f
  induction f with
  | zero => intro f' q _ _; trivial
  | succ f ih =>
    have hs : ∀ f', Loc p x y Anywhere Anywhere False False (epTagged parse (p ++ x) (f + 1)) (epTagged parse (p ++ y) (f' + 1)) :=
      fun f' => Loc.bind loc_tag fun t => loc_content (ih f') t.1
    intro f'
    cases f' with
    | zero => exact (hs 0).ub_right
    | succ f' => exact hs f'

theorem loc_feature (f f' : Nat) : Loc p x y Anywhere Anywhere False False (epFeature parse (p ++ x) f) (epFeature parse (p ++ y) f') := by
  refine Loc.bind (loc_tagged f f') fun _ => ?_
  refine Loc.bind (loc_skip _) fun _ => ?_
  refine Loc.peek fun c => Loc.pre ?_
  by_cases hc : c ≠ 0
  · rw [if_pos hc]; exact loc_fail _ _ _ _
  · rw [if_neg hc]; exact Loc.pure _ _ _
end
end Verif
