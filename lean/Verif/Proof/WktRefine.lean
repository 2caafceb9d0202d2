import Verif.Proof.WktTokens
/-!
# The WKT reader follows the parser on tokens
-/
namespace Verif
open Spec

/-- `m`, started in reader state `r`, makes the callbacks `t` and ends with `o`. -/
def Runs {α : Type} (m : ∀ σ : Type, Handler σ → Rd σ α) (r : WktR) (t : List Event) (o : Outcome (α × WktR)) : Prop :=
  Behaves (fun σ h => m σ h r) t o

theorem Runs.bind {α β : Type} {m : ∀ σ : Type, Handler σ → Rd σ α} {f : ∀ σ : Type, Handler σ → α → Rd σ β} {r r' : WktR} {a : α}
    {t1 t2 : List Event} {o : Outcome (β × WktR)} (h1 : Runs m r t1 (.done (a, r'))) (h2 : Runs (fun σ h => f σ h a) r' t2 o) :
    Runs (fun σ h => (m σ h >>= f σ h : Rd σ β)) r (t1 ++ t2) o :=
  Behaves.bind (p := fun σ h => m σ h r) (f := fun σ h (x : α × WktR) => f σ h x.1 x.2) h1 h2

theorem Runs.bind_fail {α β : Type} {m : ∀ σ : Type, Handler σ → Rd σ α} {f : ∀ σ : Type, Handler σ → α → Rd σ β} {r : WktR}
    {t1 : List Event} {rc : Code} (h1 : Runs m r t1 (.fail rc)) :
    Runs (fun σ h => (m σ h >>= f σ h : Rd σ β)) r t1 (.fail rc) :=
  Behaves.bind_fail (p := fun σ h => m σ h r) (f := fun σ h (x : α × WktR) => f σ h x.1 x.2) h1

theorem Runs.of_ok {α : Type} {m : M WktR α} {r r' : WktR} {a : α} (h : m r = .ok a r') :
    Runs (fun _ _ => Rd.of m) r [] (.done (a, r')) := by
  intro σ hd s
  show Rd.of m r s = _
  unfold Rd.of; rw [h]; rfl

theorem Runs.of_err {α : Type} {m : M WktR α} {r r' : WktR} {rc : Code} (h : m r = .err rc r') :
    Runs (fun _ _ => Rd.of m) r [] (.fail rc) := by
  intro σ hd s
  show Rd.of m r s = _
  unfold Rd.of; rw [h]; rfl

/-- A step without callbacks in front. -/
theorem Runs.step {α β : Type} {m : M WktR α} {f : ∀ σ : Type, Handler σ → α → Rd σ β} {r r' : WktR} {a : α}
    {t : List Event} {o : Outcome (β × WktR)} (h : m r = .ok a r') (h2 : Runs (fun σ h => f σ h a) r' t o) :
    Runs (fun σ h => (Rd.of m >>= f σ h : Rd σ β)) r t o :=
  Runs.bind (m := fun _ _ => Rd.of m) (Runs.of_ok h) h2

theorem Runs.step_err {α β : Type} {m : M WktR α} {f : ∀ σ : Type, Handler σ → α → Rd σ β} {r r' : WktR} {rc : Code}
    (h : m r = .err rc r') : Runs (fun σ h => (Rd.of m >>= f σ h : Rd σ β)) r [] (.fail rc) :=
  Runs.bind_fail (m := fun _ _ => Rd.of m) (Runs.of_err h)

theorem Runs.ret {α : Type} (a : α) (r : WktR) : Runs (fun σ _ => (pure a : Rd σ α)) r [] (.done (a, r)) := fun _ _ _ => rfl

theorem Runs.call (e : Event) (r : WktR) : Runs (fun _ h => Rd.call h e) r [e] (.done ((), r)) :=
  Behaves.bind (f := fun _ _ _ => Pure.pure ((), r)) (Behaves.call e) (Behaves.pure ((), r))

section
variable {blob : List Byte}

/-- The reader's run from `r` follows a result of the parser on tokens. -/
def Meets {χ : Type} (blob : List Byte) (r : WktR) (Q : χ → WktR → Prop) (m : ∀ σ : Type, Handler σ → Rd σ Unit) :
    List Event × Option (χ × List Tok) → Prop
  | (t, some (x, ts)) => ∃ r', Runs m r t (.done ((), r')) ∧ Q x r' ∧ At blob r' ts ∧ r'.left ≤ r.left
  | (t, none) => Runs m r t (.fail EINVAL)

/-- `m` follows `q` from every state that satisfies `P`. -/
def Ref {χ χ' : Type} (blob : List Byte) (F : Nat) (P : χ → WktR → Prop) (Q : χ' → WktR → Prop)
    (m : ∀ σ : Type, Handler σ → Rd σ Unit) (q : TkP χ χ') : Prop :=
  ∀ x r ts, P x r → At blob r ts → r.left < F → Meets blob r Q m (q x ts)

/-- Does not depend on the position. -/
def Stable {χ : Type} (P : χ → WktR → Prop) : Prop := ∀ x r r', Moved r r' → P x r → P x r'

def AndTight {χ : Type} (blob : List Byte) (P : χ → WktR → Prop) : χ → WktR → Prop := fun x r => P x r ∧ Tight blob r

/-- The next character is a closing parenthesis. -/
def AtClose (blob : List Byte) (r : WktR) : Prop := ∃ cs, blob.drop r.pos = 41 :: cs
def AndClose {χ : Type} (blob : List Byte) (P : χ → WktR → Prop) : χ → WktR → Prop := fun x r => P x r ∧ AtClose blob r

theorem Meets.mono {χ : Type} {r r1 : WktR} {Q Q' : χ → WktR → Prop} {m : ∀ σ : Type, Handler σ → Rd σ Unit} {res}
    (h : Meets blob r Q m res) (hq : ∀ x r, Q x r → Q' x r) : Meets blob r Q' m res := by
  obtain ⟨t, o⟩ := res
  cases o with
  | none => exact h
  | some p => obtain ⟨r', a, b, c⟩ := h; exact ⟨r', a, hq _ _ b, c⟩

theorem Meets.seq {χ χ' : Type} {F : Nat} {r : WktR} {Q : χ → WktR → Prop} {R : χ' → WktR → Prop} {m1 m2 : ∀ σ : Type, Handler σ → Rd σ Unit} {res}
    {q2 : TkP χ χ'} (hF : r.left < F) (h1 : Meets blob r Q m1 res) (h2 : Ref blob F Q R m2 q2) :
    Meets blob r R (fun σ h => (m1 σ h >>= fun _ => m2 σ h : Rd σ Unit)) (tkThen res q2) := by
  obtain ⟨t, o⟩ := res
  cases o with
  | none => exact Runs.bind_fail h1
  | some p =>
    obtain ⟨x, ts⟩ := p
    obtain ⟨r', a, b, c, d⟩ := h1
    have := h2 x r' ts b c (by omega)
    simp only [tkThen]
    generalize q2 x ts = res2 at this
    obtain ⟨t2, o2⟩ := res2
    cases o2 with
    | none => exact Runs.bind a this
    | some p2 =>
      obtain ⟨r'', a', b', c', d'⟩ := this
      exact ⟨r'', Runs.bind a a', b', c', by omega⟩

theorem Ref.seq {χ χ' χ'' : Type} {F : Nat} {P : χ → WktR → Prop} {Q : χ' → WktR → Prop} {R : χ'' → WktR → Prop}
    {m1 m2 : ∀ σ : Type, Handler σ → Rd σ Unit} {q1 : TkP χ χ'} {q2 : TkP χ' χ''} (h1 : Ref blob F P Q m1 q1) (h2 : Ref blob F Q R m2 q2) :
    Ref blob F P R (fun σ h => (m1 σ h >>= fun _ => m2 σ h : Rd σ Unit)) (tkSeq q1 q2) := by
  intro x r ts hp ha hF
  exact (h1 x r ts hp ha hF).seq hF h2

theorem Meets.step {χ α : Type} {r r1 : WktR} {Q : χ → WktR → Prop} {a : α} {m1 : M WktR α} {f : ∀ σ : Type, Handler σ → α → Rd σ Unit} {res}
    (h : m1 r = .ok a r1) (hl : r1.left ≤ r.left) (h2 : Meets blob r1 Q (fun σ h => f σ h a) res) :
    Meets blob r Q (fun σ h => (Rd.of m1 >>= f σ h : Rd σ Unit)) res := by
  obtain ⟨t, o⟩ := res
  cases o with
  | none => exact Runs.step h h2
  | some p =>
    obtain ⟨r', a, b, c, d⟩ := h2
    exact ⟨r', Runs.step h a, b, c, by omega⟩

/-- Skip whitespace first. -/
theorem Ref.skip {χ χ' : Type} {F : Nat} {P : χ → WktR → Prop} {Q : χ' → WktR → Prop} {m : ∀ σ : Type, Handler σ → Rd σ Unit} {q : TkP χ χ'}
    (hs : Stable P) (h : Ref blob F (AndTight blob P) Q m q) :
    Ref blob F P Q (fun σ h => (Rd.of (wkrSkip blob) >>= fun _ => m σ h : Rd σ Unit)) q := by
  intro x r ts hp ha hF
  obtain ⟨r1, e1, a1, t1, m1⟩ := skip_at ha
  exact Meets.step e1 m1.left (h x r1 ts ⟨hs _ _ _ m1 hp, t1⟩ a1 (by have := m1.left; omega))

theorem Ref.weaken {χ χ' : Type} {F : Nat} {P P' : χ → WktR → Prop} {Q Q' : χ' → WktR → Prop} {m : ∀ σ : Type, Handler σ → Rd σ Unit} {q : TkP χ χ'}
    (h : Ref blob F P Q m q) (hp : ∀ x r, P' x r → P x r) (hq : ∀ x r, Q x r → Q' x r) : Ref blob F P' Q' m q :=
  fun x r ts h1 h2 h3 => (h x r ts (hp _ _ h1) h2 h3).mono (r1 := r) hq

theorem Ref.call {χ : Type} {F : Nat} {P : χ → WktR → Prop} (e : Event) : Ref blob F P P (fun _ h => Rd.call h e) (tkCall e) :=
  fun _ r _ h1 h2 _ => ⟨r, Runs.call e r, h1, h2, Int.le_refl _⟩

theorem Ref.close {χ : Type} {F : Nat} {P : χ → WktR → Prop} (hs : Stable P) :
    Ref blob F (AndTight blob P) P (fun _ _ => Rd.of (wkrChar blob 41)) (tkTok .closing) := by
  rintro x r ts ⟨hp, ht⟩ ha -
  have := punct_at ha ht (c := 41) (k := .closing) (Or.inl ⟨rfl, rfl⟩)
  unfold tkTok
  cases ts with
  | nil => exact Runs.of_err this
  | cons t ts' =>
    simp only [] at this ⊢
    by_cases h : t = .closing
    · rw [if_pos h] at this ⊢
      obtain ⟨r', a, b, c, _⟩ := this
      exact ⟨r', Runs.of_ok a, hs _ _ _ c hp, b, c.left⟩
    · rw [if_neg h] at this ⊢
      exact Runs.of_err this

theorem Ref.advance {χ : Type} {F : Nat} {P : χ → WktR → Prop} (hs : Stable P) :
    Ref blob F (AndClose blob P) P (fun _ _ => Rd.of (wkrAdvance 1)) (tkTok .closing) := by
  rintro x r ts ⟨hp, cs, hc⟩ ha -
  have ht := ha.toks
  rw [hc, lex_close] at ht
  subst ht
  unfold tkTok
  simp only [if_true]
  exact ⟨r.move 1, Runs.of_ok rfl, hs _ _ _ (moved_move _ _) hp, ha.move (a := [41]) hc, (moved_move r 1).left⟩

/-- The next character and the next token. -/
theorem peek_tok {r : WktR} {ts : List Tok} (ha : At blob r ts) (ht : Tight blob r) :
    ∃ c, wkrPeek blob r = .ok c r ∧
      match ts with
      | [] => c = 0
      | .opening b :: ts' => c = 40 ∧ At blob (r.move 1) ts' ∧ (b = true ↔ Tight blob (r.move 1))
      | .closing :: _ => c = 41 ∧ AtClose blob r
      | .comma :: _ => c = 44
      | .word w :: _ => w.head? = some c ∧ isWordChar c = true := by
  refine ⟨_, peek_at ha, ?_⟩
  have hh := head_cases _ ht
  rw [ha.toks] at hh
  generalize hd : blob.drop r.pos = cs at hh
  cases hh with
  | stop _ _ h3 =>
    rcases h3 with rfl | ⟨t, rfl⟩ <;> rfl
  | opening cs b hb =>
    refine ⟨rfl, ha.move (a := [40]) hd, ?_⟩
    unfold Tight
    simp only [WktR.move]
    rw [show blob.drop (r.pos + 1) = cs from drop_split (a := [40]) hd, hb]
  | closing cs => exact ⟨rfl, cs, hd⟩
  | comma cs => rfl
  | word w rest h1 h2 _ =>
    cases w with
    | nil => exact absurd rfl h1
    | cons c w => exact ⟨rfl, h2 c (by simp)⟩

theorem word_not_punct {c : Byte} (h : isWordChar c = true) : c ≠ 0 ∧ c ≠ 40 ∧ c ≠ 41 ∧ c ≠ 44 := by
  refine ⟨?_, ?_, ?_, ?_⟩ <;> rintro rfl <;> exact absurd h (by decide)

theorem loop_ref {χ : Type} {F : Nat} {P : χ → WktR → Prop} {item : ∀ σ : Type, Handler σ → Rd σ Unit} {q : TkP χ χ} (hs : Stable P)
    (hi : Ref blob F (AndTight blob P) P item q) (f1 : Nat) : ∀ (f2 : Nat), ∀ x r ts, AndTight blob P x r → At blob r ts → r.left < F →
      r.left < f1 → r.left < f2 → Meets blob r (AndClose blob P) (fun σ h => wkrLoop blob (item σ h) f1) (tkLoop q f2 x ts) := by
  induction f1 with
  | zero => intro f2 x r ts _ ha _ h; have := ha.lenDrop; omega
  | succ f1 ih =>
    intro f2 x r ts ⟨hp, ht⟩ ha hF h1 h2
    obtain ⟨f2, rfl⟩ : ∃ k, f2 = k + 1 := ⟨f2 - 1, by have := ha.lenDrop; omega⟩
    obtain ⟨c, e, hc⟩ := peek_tok ha ht
    obtain ⟨r1, e1, a1, t1, m1⟩ := skip_at ha
    have hbad : c ≠ 41 → wkrChar blob 44 r1 = .err EINVAL r1 → Runs (fun σ h => wkrLoop blob (item σ h) (f1 + 1)) r [] (.fail EINVAL) := by
      intro hne he
      simp only [wkrLoop]
      refine Runs.step e ?_
      simp only [if_neg hne]
      exact Runs.step e1 (Runs.step_err he)
    have hp44 := punct_at a1 t1 (c := 44) (k := .comma) (Or.inr ⟨rfl, rfl⟩)
    cases ts with
    | nil =>
      exact hbad (by rw [hc]; decide) hp44
    | cons t ts' =>
      cases t with
      | opening b =>
        simp only [reduceCtorEq, if_false] at hp44
        exact hbad (by rw [hc.1]; decide) hp44
      | word w =>
        simp only [reduceCtorEq, if_false] at hp44
        exact hbad (word_not_punct hc.2).2.2.1 hp44
      | closing =>
        refine ⟨r, ?_, ⟨hp, hc.2⟩, ha, Int.le_refl _⟩
        simp only [wkrLoop]
        refine Runs.step e ?_
        simp only [if_pos hc.1]
        exact Runs.ret _ _
      | comma =>
        simp only [if_true] at hp44
        obtain ⟨r2, e2, a2, m2, l2⟩ := hp44
        obtain ⟨r3, e3, a3, t3, m3⟩ := skip_at a2
        have hm := m1.trans (m2.trans m3)
        have hl : r3.left < r.left := by have := m1.left; have := m3.left; omega
        have hi' := hi x r3 ts' ⟨hs _ _ _ hm hp, t3⟩ a3 (by omega)
        have hrest : Meets blob r3 (AndClose blob P) (fun σ h => (item σ h >>= fun _ => Rd.of (wkrSkip blob) >>= fun _ => wkrLoop blob (item σ h) f1 : Rd σ Unit))
            (tkSeq q (tkLoop q f2) x ts') := by
          refine Meets.seq (F := r3.left.toNat + 1) (by omega) hi' ?_
          intro x' r4 ts'' hp4 a4 l4
          obtain ⟨r5, e5, a5, t5, m5⟩ := skip_at a4
          have := m5.left
          have := a3.lenDrop
          exact Meets.step e5 m5.left (ih f2 x' r5 ts'' ⟨hs _ _ _ m5 hp4, t5⟩ a5 (by omega) (by omega) (by omega))
        have hgo : Meets blob r (AndClose blob P) (fun σ h => wkrLoop blob (item σ h) (f1 + 1)) (tkSeq q (tkLoop q f2) x ts') := by
          simp only [wkrLoop]
          refine Meets.step e (Int.le_refl _) ?_
          simp only [if_neg (show c ≠ 41 by rw [hc]; decide)]
          exact Meets.step e1 m1.left (Meets.step e2 m2.left (Meets.step e3 m3.left hrest))
        exact hgo

theorem Ref.items {χ : Type} {F : Nat} {P : χ → WktR → Prop} {item : ∀ σ : Type, Handler σ → Rd σ Unit} {q : TkP χ χ} (hs : Stable P)
    (hi : Ref blob F (AndTight blob P) P item q) :
    Ref blob F (AndTight blob P) (AndClose blob P) (fun σ h => wkrItems blob (item σ h)) (tkItems F q) := by
  refine Ref.seq hi (Ref.skip hs ?_)
  intro x r ts hp ha hF
  have := ha.lenDrop
  exact loop_ref hs hi (r.left.toNat + 1) F x r ts hp ha hF (by omega) hF

theorem Ref.emptyOr {χ : Type} {F : Nat} {P : χ → WktR → Prop} {content : ∀ σ : Type, Handler σ → Rd σ Unit} {q : Bool → TkP χ χ} (hs : Stable P)
    (hc : ∀ b, Ref blob F (fun x r => P x r ∧ r.pos ≠ 0 ∧ blob[r.pos - 1]? = some 40 ∧ (b = true ↔ Tight blob r)) P content (q b)) :
    Ref blob F P P (fun σ h => wkrEmptyOr blob (content σ h)) (tkEmptyOr q) := by
  refine Ref.skip hs ?_
  rintro x r ts ⟨hp, ht⟩ ha hF
  obtain ⟨c, e, h⟩ := peek_tok ha ht
  refine Meets.step e (Int.le_refl _) ?_
  have hem := empty_at ha ht
  unfold tkEmptyOr
  cases ts with
  | nil =>
    simp only [] at h hem ⊢
    subst h
    exact Runs.of_err hem
  | cons t ts' =>
    cases t with
    | closing =>
      simp only [] at h hem ⊢
      rw [h.1]
      exact Runs.of_err hem
    | comma =>
      simp only [] at h hem ⊢
      rw [h]
      exact Runs.of_err hem
    | word w =>
      simp only [] at h hem ⊢
      simp only [if_neg (word_not_punct h.2).2.1]
      by_cases hw : w = str "EMPTY"
      · rw [if_pos hw] at hem ⊢
        obtain ⟨r', a, b, c⟩ := hem
        exact ⟨r', Runs.of_ok a, hs _ _ _ c hp, b, c.left⟩
      · rw [if_neg hw] at hem ⊢
        exact Runs.of_err hem
    | opening b =>
      simp only [] at h ⊢
      obtain ⟨rfl, a, hb⟩ := h
      simp only [if_true]
      have hm := moved_move r 1
      refine Meets.step (r1 := r.move 1) rfl hm.left (hc b x (r.move 1) ts' ⟨hs _ _ _ hm hp, by simp [WktR.move], ?_, hb⟩ a (by have := hm.left; omega))
      have := head_cases _ ht
      rw [ha.toks] at this
      generalize hd : blob.drop r.pos = cs at this
      cases this with
      | opening cs _ _ => exact get_drop hd

end
end Verif
