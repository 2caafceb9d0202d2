import Verif.Proof.WktTokens
import Verif.Spec.WktGrammar
/-!
# What the parser on tokens accepts, and the callbacks it makes
-/
namespace Verif
open Spec

/-- `q` consumes tokens that stand for some `a`, making callbacks for `a`; if it fails, callbacks `Pre`. -/
def Snd {χ χ' α : Type} (q : TkP χ χ') (Tk : α → List Tok → Prop) (Tr : χ → α → List Event → χ' → Prop) (Pre : χ → List Event → Prop) : Prop :=
  ∀ x ts, (∀ t x' ts', q x ts = (t, some (x', ts')) → ∃ a body, ts = body ++ ts' ∧ Tk a body ∧ Tr x a t x') ∧
    (∀ t, q x ts = (t, none) → Pre x t)

inductive Steps {χ α : Type} (Tr : χ → α → List Event → χ → Prop) : χ → List α → List Event → χ → Prop where
  | nil (x : χ) : Steps Tr x [] [] x
  | cons {x y z : χ} {a : α} {as : List α} {t t' : List Event} : Tr x a t y → Steps Tr y as t' z → Steps Tr x (a :: as) (t ++ t') z

/-- Some items done, and the callbacks of a failed one. -/
def PreSteps {χ α : Type} (Tr : χ → α → List Event → χ → Prop) (Pre : χ → List Event → Prop) (x : χ) (t : List Event) : Prop :=
  ∃ as t1 y t2, Steps Tr x as t1 y ∧ (t2 = [] ∨ Pre y t2) ∧ t = t1 ++ t2

theorem PreSteps.cons {χ α : Type} {Tr : χ → α → List Event → χ → Prop} {Pre : χ → List Event → Prop} {x y : χ} {a : α} {t t' : List Event}
    (h : Tr x a t y) (h' : PreSteps Tr Pre y t') : PreSteps Tr Pre x (t ++ t') := by
  obtain ⟨as, t1, z, t2, q1, q2, rfl⟩ := h'
  exact ⟨a :: as, t ++ t1, z, t2, .cons h q1, q2, by simp⟩

theorem tkThen_some {χ χ' : Type} {r : List Event × Option (χ × List Tok)} {b : TkP χ χ'} {t x' ts'} (h : tkThen r b = (t, some (x', ts'))) :
    ∃ t1 y ts1 t2, r = (t1, some (y, ts1)) ∧ b y ts1 = (t2, some (x', ts')) ∧ t = t1 ++ t2 := by
  obtain ⟨t1, o⟩ := r
  cases o with
  | none => simp [tkThen] at h
  | some p =>
    obtain ⟨y, ts1⟩ := p
    simp only [tkThen, Prod.mk.injEq] at h
    exact ⟨t1, y, ts1, (b y ts1).1, rfl, by rw [← h.2], h.1.symm⟩

theorem tkThen_none {χ χ' : Type} {r : List Event × Option (χ × List Tok)} {b : TkP χ χ'} {t} (h : tkThen r b = (t, none)) :
    r = (t, none) ∨ ∃ t1 y ts1 t2, r = (t1, some (y, ts1)) ∧ b y ts1 = (t2, none) ∧ t = t1 ++ t2 := by
  obtain ⟨t1, o⟩ := r
  cases o with
  | none => simp only [tkThen, Prod.mk.injEq, and_true] at h; subst h; exact Or.inl rfl
  | some p =>
    obtain ⟨y, ts1⟩ := p
    simp only [tkThen, Prod.mk.injEq] at h
    exact Or.inr ⟨t1, y, ts1, (b y ts1).1, rfl, by rw [← h.2], h.1.symm⟩

/-- The rest of a list of items. -/
theorem loop_sound {χ α : Type} {q : TkP χ χ} {Tk : α → List Tok → Prop} {Tr : χ → α → List Event → χ → Prop} {Pre : χ → List Event → Prop}
    (h : Snd q Tk Tr Pre) (f : Nat) : ∀ x ts,
    (∀ t x' ts', tkLoop q f x ts = (t, some (x', ts')) → ∃ as body ts'', ts = body ++ ts' ∧ ts' = .closing :: ts'' ∧
      (as = [] ∧ body = [] ∨ ∃ b, body = .comma :: b ∧ Separated Tk as b) ∧ Steps Tr x as t x') ∧
    (∀ t, tkLoop q f x ts = (t, none) → PreSteps Tr Pre x t) := by
  induction f with
  | zero =>
    intro x ts
    refine ⟨?_, ?_⟩
    · intro t x' ts' he; simp [tkLoop] at he
    · intro t he
      simp only [tkLoop, Prod.mk.injEq, and_true] at he
      subst he
      exact ⟨[], [], x, [], .nil x, Or.inl rfl, rfl⟩
  | succ f ih =>
    intro x ts
    have hnone : PreSteps Tr Pre x [] := ⟨[], [], x, [], .nil x, Or.inl rfl, rfl⟩
    rw [tkLoop]
    cases ts with
    | nil =>
      refine ⟨?_, ?_⟩
      · intro t x' ts' he; simp at he
      · intro t he
        simp only [Prod.mk.injEq, and_true] at he
        subst he; exact hnone
    | cons k ts =>
      cases k with
      | opening b =>
        refine ⟨?_, ?_⟩
        · intro t x' ts' he; simp at he
        · intro t he
          simp only [Prod.mk.injEq, and_true] at he
          subst he; exact hnone
      | word w =>
        refine ⟨?_, ?_⟩
        · intro t x' ts' he; simp at he
        · intro t he
          simp only [Prod.mk.injEq, and_true] at he
          subst he; exact hnone
      | closing =>
        refine ⟨?_, ?_⟩
        · intro t x' ts' he
          simp only [Prod.mk.injEq, Option.some.injEq] at he
          obtain ⟨rfl, rfl, rfl⟩ := he
          exact ⟨[], [], ts, rfl, rfl, Or.inl ⟨rfl, rfl⟩, .nil _⟩
        · intro t he; simp at he
      | comma =>
        simp only [tkSeq]
        refine ⟨?_, ?_⟩
        · intro t x' ts' he
          obtain ⟨t1, y, ts1, t2, e1, e2, rfl⟩ := tkThen_some he
          obtain ⟨a, b1, rfl, k1, r1⟩ := (h x ts).1 _ _ _ e1
          obtain ⟨as, b2, ts'', rfl, rfl, k2, r2⟩ := (ih y ts1).1 _ _ _ e2
          refine ⟨a :: as, .comma :: b1 ++ b2, ts'', by simp, rfl, Or.inr ⟨b1 ++ b2, rfl, ?_⟩, .cons r1 r2⟩
          rcases k2 with ⟨rfl, rfl⟩ | ⟨b, rfl, k2⟩
          · exact Or.inl ⟨rfl, by simpa using k1⟩
          · exact Or.inr ⟨b1, b, k1, k2, rfl⟩
        · intro t he
          rcases tkThen_none he with e1 | ⟨t1, y, ts1, t2, e1, e2, rfl⟩
          · exact ⟨[], [], x, t, .nil x, Or.inr ((h x ts).2 _ e1), rfl⟩
          · obtain ⟨a, b1, rfl, k1, r1⟩ := (h x ts).1 _ _ _ e1
            exact PreSteps.cons r1 ((ih y ts1).2 _ e2)

theorem items_sound {χ α : Type} {q : TkP χ χ} {Tk : α → List Tok → Prop} {Tr : χ → α → List Event → χ → Prop} {Pre : χ → List Event → Prop}
    (h : Snd q Tk Tr Pre) (F : Nat) : Snd (tkItems F q) (Separated Tk) (Steps Tr) (PreSteps Tr Pre) := by
  intro x ts
  refine ⟨?_, ?_⟩
  · intro t x' ts' he
    obtain ⟨t1, y, ts1, t2, e1, e2, rfl⟩ := tkThen_some he
    obtain ⟨a, b1, rfl, k1, r1⟩ := (h x ts).1 _ _ _ e1
    obtain ⟨as, b2, ts'', rfl, rfl, k2, r2⟩ := (loop_sound h F y ts1).1 _ _ _ e2
    refine ⟨a :: as, b1 ++ b2, by simp, ?_, .cons r1 r2⟩
    rcases k2 with ⟨rfl, rfl⟩ | ⟨b, rfl, k2⟩
    · exact Or.inl ⟨rfl, by simpa using k1⟩
    · exact Or.inr ⟨b1, b, k1, k2, rfl⟩
  · intro t he
    rcases tkThen_none he with e1 | ⟨t1, y, ts1, t2, e1, e2, rfl⟩
    · exact ⟨[], [], x, t, .nil x, Or.inr ((h x ts).2 _ e1), rfl⟩
    · obtain ⟨a, b1, rfl, k1, r1⟩ := (h x ts).1 _ _ _ e1
      exact PreSteps.cons r1 ((loop_sound h F y ts1).2 _ e2)

/-! ## Parsers of things delivered with callbacks `Tr` -/

/-- Consumes tokens for some `a`; the callbacks are those of `a`, or the beginning of those of some `a` on failure. -/
def SndU {α : Type} (q : TkP Unit Unit) (Tk : α → List Tok → Prop) (Tr : α → List Event → Prop) : Prop :=
  Snd q Tk (fun _ a t _ => Tr a t) (fun _ t => ∃ a t2, Tr a (t ++ t2))

/-- The callbacks of several things. -/
def ListTr {α : Type} (Tr : α → List Event → Prop) : List α → List Event → Prop
  | [], t => t = []
  | a :: as, t => ∃ t1 t2, Tr a t1 ∧ ListTr Tr as t2 ∧ t = t1 ++ t2

theorem steps_list {α : Type} {Tr : α → List Event → Prop} {x y : Unit} {as : List α} {t : List Event}
    (h : Steps (fun _ a t _ => Tr a t) x as t y) : ListTr Tr as t := by
  induction h with
  | nil => rfl
  | cons h1 _ ih => exact ⟨_, _, h1, ih, rfl⟩

theorem listTr_snoc {α : Type} {Tr : α → List Event → Prop} {as : List α} {a : α} : ∀ {t t' : List Event}, ListTr Tr as t → Tr a t' → ListTr Tr (as ++ [a]) (t ++ t') := by
  induction as with
  | nil => intro t t' h h'; cases h; exact ⟨t', [], h', rfl, by simp⟩
  | cons b as ih =>
    rintro t t' ⟨t1, t2, h1, h2, rfl⟩ h'
    exact ⟨t1, t2 ++ t', h1, ih h2 h', by simp⟩

theorem presteps_list {α : Type} {Tr : α → List Event → Prop} {x : Unit} {t : List Event}
    (h : PreSteps (fun _ a t _ => Tr a t) (fun _ t => ∃ a t2, Tr a (t ++ t2)) x t) : ∃ as t2, ListTr Tr as (t ++ t2) := by
  obtain ⟨as, t1, y, t2, h1, h2, rfl⟩ := h
  rcases h2 with rfl | ⟨a, t3, h2⟩
  · exact ⟨as, [], by simpa using steps_list h1⟩
  · exact ⟨as ++ [a], t3, by simpa using listTr_snoc (steps_list h1) h2⟩

theorem tok_sound {χ : Type} {k : Tok} {x : χ} {ts t x' ts'} (h : tkTok k x ts = (t, some (x', ts'))) : t = [] ∧ x' = x ∧ ts = k :: ts' := by
  unfold tkTok at h
  cases ts with
  | nil => simp at h
  | cons k' ts =>
    simp only [] at h
    split at h
    · rename_i hk
      simp only [Prod.mk.injEq, Option.some.injEq] at h
      obtain ⟨rfl, rfl, rfl⟩ := h
      exact ⟨rfl, rfl, by rw [hk]⟩
    · simp at h

theorem tok_fail {χ : Type} {k : Tok} {x : χ} {ts t} (h : tkTok k x ts = (t, none)) : t = [] := by
  unfold tkTok at h
  split at h
  · simpa using h.symm
  · split at h
    · simp at h
    · simpa using h.symm

theorem group_sound {α : Type} {q : TkP Unit Unit} {Tk : α → List Tok → Prop} {Tr : α → List Event → Prop} (h : SndU q Tk Tr) (F : Nat) :
    SndU (tkGroup F q) (fun as ts => ∃ b, Separated Tk as b ∧ ts = b ++ [.closing]) (ListTr Tr) := by
  intro x ts
  have hi := items_sound h F x ts
  refine ⟨?_, ?_⟩
  · intro t x' ts' he
    obtain ⟨t1, y, ts1, t2, e1, e2, rfl⟩ := tkThen_some he
    obtain ⟨as, b, rfl, k1, r1⟩ := hi.1 _ _ _ e1
    obtain ⟨rfl, rfl, rfl⟩ := tok_sound e2
    exact ⟨as, b ++ [.closing], by simp, ⟨b, k1, rfl⟩, by simpa using steps_list r1⟩
  · intro t he
    rcases tkThen_none he with e1 | ⟨t1, y, ts1, t2, e1, e2, rfl⟩
    · exact presteps_list (hi.2 _ e1)
    · obtain ⟨as, b, rfl, k1, r1⟩ := hi.1 _ _ _ e1
      rw [tok_fail e2]
      exact ⟨as, [], by simpa using steps_list r1⟩

theorem emptyOr_sound {α : Type} {content : Bool → TkP Unit Unit} {K : Bool → α → List Tok → Prop} {Tr : α → List Event → Prop} {a0 : α}
    (h0 : Tr a0 []) (h : ∀ b, SndU (content b) (K b) Tr) :
    SndU (tkEmptyOr content) (fun a ts => (a = a0 ∧ ts = [.word (str "EMPTY")]) ∨ ∃ b body, K b a body ∧ ts = .opening b :: body) Tr := by
  intro x ts
  have hnone : ∃ a t2, Tr a ([] ++ t2) := ⟨a0, [], h0⟩
  unfold tkEmptyOr
  cases ts with
  | nil =>
    refine ⟨fun t x' ts' he => by simp at he, fun t he => ?_⟩
    simp only [Prod.mk.injEq, and_true] at he
    subst he; exact hnone
  | cons k ts =>
    cases k with
    | closing =>
      refine ⟨fun t x' ts' he => by simp at he, fun t he => ?_⟩
      simp only [Prod.mk.injEq, and_true] at he
      subst he; exact hnone
    | comma =>
      refine ⟨fun t x' ts' he => by simp at he, fun t he => ?_⟩
      simp only [Prod.mk.injEq, and_true] at he
      subst he; exact hnone
    | word w =>
      simp only []
      by_cases hw : w = str "EMPTY"
      · rw [if_pos hw]
        refine ⟨fun t x' ts' he => ?_, fun t he => by simp at he⟩
        cases he
        exact ⟨a0, [.word w], by simp, Or.inl ⟨rfl, by rw [hw]⟩, h0⟩
      · rw [if_neg hw]
        refine ⟨fun t x' ts' he => by simp at he, fun t he => ?_⟩
        simp only [Prod.mk.injEq, and_true] at he
        subst he; exact hnone
    | opening b =>
      refine ⟨fun t x' ts' he => ?_, fun t he => ((h b x ts).2 t he)⟩
      obtain ⟨a, body, rfl, k1, r1⟩ := (h b x ts).1 _ _ _ he
      exact ⟨a, .opening b :: body, by simp, Or.inr ⟨b, body, k1, rfl⟩, r1⟩

theorem SndU.imp {α β : Type} {q : TkP Unit Unit} {Tk : α → List Tok → Prop} {Tr : α → List Event → Prop} {Tk' : β → List Tok → Prop}
    {Tr' : β → List Event → Prop} (h : SndU q Tk Tr) (f : α → β) (hk : ∀ a ts, Tk a ts → Tk' (f a) ts) (hr : ∀ a t, Tr a t → Tr' (f a) t) :
    SndU q Tk' Tr' := by
  intro x ts
  refine ⟨fun t x' ts' he => ?_, fun t he => ?_⟩
  · obtain ⟨a, b, e, k, r⟩ := (h x ts).1 _ _ _ he
    exact ⟨f a, b, e, hk _ _ k, hr _ _ r⟩
  · obtain ⟨a, t2, r⟩ := (h x ts).2 _ he
    exact ⟨f a, t2, hr _ _ r⟩

/-- Callbacks between two others. -/
def Between (e1 e2 : Event) {α : Type} (Tr : α → List Event → Prop) : α → List Event → Prop := fun a t => ∃ b, Tr a b ∧ t = e1 :: b ++ [e2]

theorem between_sound {α : Type} {q : TkP Unit Unit} {Tk : α → List Tok → Prop} {Tr : α → List Event → Prop} (h : SndU q Tk Tr) (e1 e2 : Event) :
    SndU (tkSeq (tkCall e1) (tkSeq q (tkCall e2))) Tk (Between e1 e2 Tr) := by
  intro x ts
  refine ⟨fun t x' ts' he => ?_, fun t he => ?_⟩
  · obtain ⟨t1, y, ts1, t2, h1, h2, rfl⟩ := tkThen_some he
    simp only [tkCall] at h1
    cases h1
    obtain ⟨t1, y, ts1, t3, h3, h4, rfl⟩ := tkThen_some h2
    simp only [tkCall] at h4
    cases h4
    obtain ⟨a, b, e, k, r⟩ := (h _ _).1 _ _ _ h3
    exact ⟨a, b, e, k, t1, r, rfl⟩
  · rcases tkThen_none he with h1 | ⟨t1, y, ts1, t2, h1, h2, rfl⟩
    · simp [tkCall] at h1
    simp only [tkCall] at h1
    cases h1
    rcases tkThen_none h2 with h3 | ⟨_, _, _, _, h3, h4, rfl⟩
    · obtain ⟨a, t3, r⟩ := (h _ _).2 _ h3
      exact ⟨a, t3 ++ [e2], t2 ++ t3, r, by simp⟩
    · simp [tkCall] at h4

/-! ## Coordinates -/

section
variable {parse : List Byte → Option Dbl}

theorem ords_sound (k : Nat) : ∀ (ts : List Tok) (c : Coord) (ts' : List Tok), tkOrds parse k ts = some (c, ts') →
    c.length = k ∧ ∃ ws : List (List Byte), ts = ws.map Tok.word ++ ts' ∧ ws.map parse = c.map some := by
  induction k with
  | zero =>
    intro ts c ts' h
    simp only [tkOrds, Option.some.injEq, Prod.mk.injEq] at h
    obtain ⟨rfl, rfl⟩ := h
    exact ⟨rfl, [], rfl, rfl⟩
  | succ k ih =>
    intro ts c ts' h
    unfold tkOrds at h
    cases ts with
    | nil => simp at h
    | cons k' ts =>
      cases k' with
      | opening b => simp at h
      | closing => simp at h
      | comma => simp at h
      | word w =>
        simp only [] at h
        cases hp : parse w with
        | none => rw [hp] at h; simp at h
        | some x =>
          rw [hp] at h
          simp only [Option.map_eq_some_iff] at h
          obtain ⟨⟨c', ts1⟩, h1, h2⟩ := h
          simp only [Prod.mk.injEq] at h2
          obtain ⟨rfl, rfl⟩ := h2
          obtain ⟨len, ws, rfl, hw⟩ := ih _ _ _ h1
          exact ⟨by simp [len], w :: ws, by simp, by simp [hp, hw]⟩

/-- Coordinates added to the cache `cs`, with callbacks for those that no longer fit. -/
def CacheTr (nv : Nat) (cs : List Coord) (c : Coord) (t : List Event) (cs' : List Coord) : Prop :=
  c.length = nv ∧ ∃ chunks : List (List Coord), t = chunks.map (Event.coords nv) ∧ chunks.flatten ++ cs' = cs ++ [c]

def CachePre (nv : Nat) (cs : List Coord) (t : List Event) : Prop :=
  ∃ chunks : List (List Coord), t = chunks.map (Event.coords nv) ∧ chunks.flatten <+: cs

theorem coord_sound (d : Dims) : Snd (tkCoord parse d.n) (CoordToks parse d) (CacheTr d.n) (CachePre d.n) := by
  intro cs ts
  have hpre : CachePre d.n cs (if cs.length = 64 then [.coords d.n cs] else []) := by
    by_cases h : cs.length = 64
    · rw [if_pos h]; exact ⟨[cs], rfl, by simp⟩
    · rw [if_neg h]; exact ⟨[], rfl, by simp⟩
  unfold tkCoord
  refine ⟨fun t x' ts' he => ?_, fun t he => ?_⟩
  · simp only [Prod.mk.injEq, Option.map_eq_some_iff] at he
    obtain ⟨rfl, ⟨c, ts1⟩, h1, h2⟩ := he
    obtain ⟨rfl, rfl⟩ := h2
    obtain ⟨len, ws, rfl, hw⟩ := ords_sound _ _ _ _ h1
    refine ⟨c, ws.map Tok.word, rfl, ⟨len, ws, rfl, hw⟩, len, ?_⟩
    by_cases h : cs.length = 64
    · simp only [if_pos h]; exact ⟨[cs], rfl, by simp⟩
    · simp only [if_neg h]; exact ⟨[], rfl, by simp⟩
  · simp only [Prod.mk.injEq] at he
    obtain ⟨rfl, -⟩ := he
    exact hpre

theorem steps_cache {nv : Nat} {cs cs' : List Coord} {new : List Coord} {t : List Event} (h : Steps (CacheTr nv) cs new t cs') :
    (∀ c ∈ new, c.length = nv) ∧ ∃ chunks : List (List Coord), t = chunks.map (Event.coords nv) ∧ chunks.flatten ++ cs' = cs ++ new := by
  induction h with
  | nil x => exact ⟨by simp, [], rfl, by simp⟩
  | cons h1 _ ih =>
    obtain ⟨l1, ch1, rfl, e1⟩ := h1
    obtain ⟨l2, ch2, rfl, e2⟩ := ih
    refine ⟨?_, ch1 ++ ch2, by simp, ?_⟩
    · intro c hc
      rcases List.mem_cons.mp hc with rfl | hc
      · exact l1
      · exact l2 c hc
    · rw [List.flatten_append, List.append_assoc, e2, ← List.append_assoc, e1]; simp

/-- The callbacks of a coordinate sequence. -/
def SeqTr (nv : Nat) (cs : List Coord) (t : List Event) : Prop := (∀ c ∈ cs, c.length = nv) ∧ Chunked nv cs t

theorem seqTr_nil (nv : Nat) : SeqTr nv [] [] := ⟨by simp, [], rfl, rfl⟩

theorem flush_sound {nv : Nat} {cs : List Coord} {ts t x' ts'} (h : tkFlush nv cs ts = (t, some (x', ts'))) :
    ts' = ts ∧ ∃ chunks : List (List Coord), t = chunks.map (Event.coords nv) ∧ chunks.flatten = cs := by
  unfold tkFlush at h
  simp only [Prod.mk.injEq, Option.some.injEq] at h
  obtain ⟨rfl, -, rfl⟩ := h
  refine ⟨rfl, ?_⟩
  by_cases hc : cs = []
  · rw [if_pos hc]; exact ⟨[], rfl, by simp [hc]⟩
  · rw [if_neg hc]; exact ⟨[cs], rfl, by simp⟩

theorem flush_none {nv : Nat} {cs : List Coord} {ts t} (h : tkFlush nv cs ts = (t, none)) : False := by simp [tkFlush] at h

/-- Failed items: what was delivered is a coordinate sequence. -/
theorem cache_pre {nv : Nat} {t : List Event} (h : PreSteps (CacheTr nv) (CachePre nv) [] t) : ∃ cs t2, SeqTr nv cs (t ++ t2) := by
  obtain ⟨as, t1, y, t2, h1, h2, rfl⟩ := h
  obtain ⟨l1, ch, rfl, e1⟩ := steps_cache h1
  rw [List.nil_append] at e1
  rcases h2 with rfl | ⟨ch2, rfl, hp⟩
  · refine ⟨ch.flatten, [], ⟨?_, ch, rfl, by simp⟩⟩
    intro c hc
    exact l1 c (by rw [← e1]; exact List.mem_append_left _ hc)
  · refine ⟨ch.flatten ++ ch2.flatten, [], ⟨?_, ch ++ ch2, by simp, by simp⟩⟩
    intro c hc
    apply l1 c
    rw [← e1]
    rcases List.mem_append.mp hc with hc | hc
    · exact List.mem_append_left _ hc
    · exact List.mem_append_right _ (hp.subset hc)

theorem coordSeq_sound (d : Dims) (F : Nat) :
    SndU (tkSeq (tkPure fun _ => []) (tkSeq (tkItems F (tkCoord parse d.n)) (tkSeq (tkFlush d.n) (tkTok .closing))))
      (fun cs ts => ∃ b, Separated (CoordToks parse d) cs b ∧ ts = b ++ [.closing]) (SeqTr d.n) := by
  intro x ts
  have hi := items_sound (coord_sound (parse := parse) d) F [] ts
  refine ⟨fun t x' ts' he => ?_, fun t he => ?_⟩
  · obtain ⟨t1, y, ts1, t2, h1, h2, rfl⟩ := tkThen_some he
    simp only [tkPure] at h1
    cases h1
    obtain ⟨t1, y, ts1, t3, h3, h4, rfl⟩ := tkThen_some h2
    obtain ⟨cs, b, rfl, k1, r1⟩ := hi.1 _ _ _ h3
    obtain ⟨t4, y', ts2, t5, h5, h6, rfl⟩ := tkThen_some h4
    obtain ⟨rfl, ch2, rfl, e2⟩ := flush_sound h5
    obtain ⟨rfl, rfl, rfl⟩ := tok_sound h6
    obtain ⟨l1, ch1, rfl, e1⟩ := steps_cache r1
    refine ⟨cs, b ++ [.closing], by simp, ⟨b, k1, rfl⟩, l1, ch1 ++ ch2, ?_, by simp⟩
    rw [List.flatten_append, e2, e1]; rfl
  · rcases tkThen_none he with h1 | ⟨t1, y, ts1, t2, h1, h2, rfl⟩
    · simp [tkPure] at h1
    simp only [tkPure] at h1
    cases h1
    rcases tkThen_none h2 with h3 | ⟨t1, y, ts1, t3, h3, h4, rfl⟩
    · exact cache_pre (hi.2 _ h3)
    · obtain ⟨cs, b, rfl, k1, r1⟩ := hi.1 _ _ _ h3
      rcases tkThen_none h4 with h5 | ⟨t4, y', ts2, t5, h5, h6, rfl⟩
      · exact (flush_none h5).elim
      · obtain ⟨rfl, ch2, rfl, e2⟩ := flush_sound h5
        rw [tok_fail h6]
        obtain ⟨l1, ch1, rfl, e1⟩ := steps_cache r1
        refine ⟨cs, [], l1, ch1 ++ ch2, ?_, by simp⟩
        rw [List.flatten_append, e2, e1]; rfl

theorem coordinates_sound (d : Dims) (F : Nat) : SndU (tkCoordinates parse F d.n) (Listed (CoordToks parse d)) (SeqTr d.n) := by
  refine (emptyOr_sound (seqTr_nil d.n) fun _ => coordSeq_sound d F).imp id ?_ (fun _ _ h => h)
  rintro cs ts (⟨rfl, rfl⟩ | ⟨b, body, ⟨b', h1, rfl⟩, rfl⟩)
  · exact Or.inl ⟨rfl, rfl⟩
  · exact Or.inr ⟨b, b', h1, rfl⟩

/-- One coordinate. -/
theorem flatPoint_sound (d : Dims) : SndU (tkFlatPoint parse d.n) (fun cs ts => ∃ c, cs = [c] ∧ CoordToks parse d c ts) (SeqTr d.n) := by
  intro x ts
  have hi := coord_sound (parse := parse) d [] ts
  unfold tkFlatPoint
  refine ⟨fun t x' ts' he => ?_, fun t he => ?_⟩
  · obtain ⟨t1, y, ts1, t2, h1, h2, rfl⟩ := tkThen_some he
    simp only [tkPure] at h1
    cases h1
    obtain ⟨t1, y, ts1, t3, h3, h4, rfl⟩ := tkThen_some h2
    obtain ⟨c, b, rfl, k1, l1, ch1, rfl, e1⟩ := hi.1 _ _ _ h3
    obtain ⟨rfl, ch2, rfl, e2⟩ := flush_sound h4
    refine ⟨[c], b, rfl, ⟨c, rfl, k1⟩, by simpa using l1, ch1 ++ ch2, ?_, by simp⟩
    rw [List.flatten_append, e2, e1]; rfl
  · rcases tkThen_none he with h1 | ⟨t1, y, ts1, t2, h1, h2, rfl⟩
    · simp [tkPure] at h1
    simp only [tkPure] at h1
    cases h1
    rcases tkThen_none h2 with h3 | ⟨t1, y, ts1, t3, h3, h4, rfl⟩
    · exact cache_pre ⟨[], [], [], t2, .nil _, Or.inr (hi.2 _ h3), rfl⟩
    · exact (flush_none h4).elim

theorem pointBody_sound (d : Dims) :
    SndU (tkSeq (tkPure fun _ => []) (tkSeq (tkCoord parse d.n) (tkSeq (tkFlush d.n) (tkTok .closing))))
      (fun cs ts => ∃ c b, cs = [c] ∧ CoordToks parse d c b ∧ ts = b ++ [.closing]) (SeqTr d.n) := by
  intro x ts
  have hi := coord_sound (parse := parse) d [] ts
  refine ⟨fun t x' ts' he => ?_, fun t he => ?_⟩
  · obtain ⟨t1, y, ts1, t2, h1, h2, rfl⟩ := tkThen_some he
    simp only [tkPure] at h1
    cases h1
    obtain ⟨t1, y, ts1, t3, h3, h4, rfl⟩ := tkThen_some h2
    obtain ⟨c, b, rfl, k1, l1, ch1, rfl, e1⟩ := hi.1 _ _ _ h3
    obtain ⟨t4, y', ts2, t5, h5, h6, rfl⟩ := tkThen_some h4
    obtain ⟨rfl, ch2, rfl, e2⟩ := flush_sound h5
    obtain ⟨rfl, rfl, rfl⟩ := tok_sound h6
    refine ⟨[c], b ++ [.closing], by simp, ⟨c, b, rfl, k1, rfl⟩, by simpa using l1, ch1 ++ ch2, ?_, by simp⟩
    rw [List.flatten_append, e2, e1]; rfl
  · rcases tkThen_none he with h1 | ⟨t1, y, ts1, t2, h1, h2, rfl⟩
    · simp [tkPure] at h1
    simp only [tkPure] at h1
    cases h1
    rcases tkThen_none h2 with h3 | ⟨t1, y, ts1, t3, h3, h4, rfl⟩
    · exact cache_pre ⟨[], [], [], t2, .nil _, Or.inr (hi.2 _ h3), rfl⟩
    · obtain ⟨c, b, rfl, k1, l1, ch1, rfl, e1⟩ := hi.1 _ _ _ h3
      rcases tkThen_none h4 with h5 | ⟨t4, y', ts2, t5, h5, h6, rfl⟩
      · exact (flush_none h5).elim
      · obtain ⟨rfl, ch2, rfl, e2⟩ := flush_sound h5
        rw [tok_fail h6]
        refine ⟨[c], [], by simpa using l1, ch1 ++ ch2, ?_, by simp⟩
        rw [List.flatten_append, e2, e1]; rfl

theorem point_sound (d : Dims) : SndU (tkPoint parse d.n) (PointToks parse d) (SeqTr d.n) := by
  refine (emptyOr_sound (seqTr_nil d.n) fun _ => pointBody_sound d).imp id ?_ (fun _ _ h => h)
  rintro cs ts (⟨rfl, rfl⟩ | ⟨b, body, ⟨c, b', rfl, h1, rfl⟩, rfl⟩)
  · exact Or.inl ⟨rfl, rfl⟩
  · exact Or.inr ⟨b, c, b', rfl, h1, rfl⟩

/-! ## Geometries -/

/-- What the reader delivers for `g`. -/
def GeomTr (g : Geom) (t : List Event) : Prop := g.Trace t ∧ g.WF

/-- The callbacks between `geom_start` and `geom_end`. -/
def InnerTr (k d : Nat) (g : Geom) (t : List Event) : Prop := GeomTr g (.geomStart k d :: t ++ [.geomEnd])

theorem listTr_geoms {ps : List Geom} : ∀ {t : List Event}, ListTr GeomTr ps t → Geom.TraceL ps t ∧ Geom.WFL ps := by
  induction ps with
  | nil => intro t h; exact ⟨h, trivial⟩
  | cons g ps ih =>
    rintro t ⟨t1, t2, h1, h2, rfl⟩
    exact ⟨⟨t1, t2, h1.1, (ih h2).1, rfl⟩, h1.2, (ih h2).2⟩

theorem multi_inner {k : MultiKind} {d : Dims} {ps : List Geom} {t : List Event} (h : ListTr GeomTr ps t) : InnerTr k.code d.code (.multi k d ps) t :=
  ⟨⟨t, (listTr_geoms h).1, rfl⟩, (listTr_geoms h).2⟩

theorem listTr_rings {nv : Nat} {rs : List (List Coord)} : ∀ {t : List Event}, ListTr (Between .ringStart .ringEnd (SeqTr nv)) rs t →
    RingsTrace nv rs t ∧ ∀ r ∈ rs, ∀ c ∈ r, c.length = nv := by
  induction rs with
  | nil => intro t h; exact ⟨h, by simp⟩
  | cons r rs ih =>
    rintro t ⟨t1, t2, ⟨b, ⟨h0, h1⟩, rfl⟩, h2, rfl⟩
    refine ⟨⟨b, t2, h1, (ih h2).1, by simp⟩, ?_⟩
    intro r' hr
    rcases List.mem_cons.mp hr with rfl | hr
    · exact h0
    · exact (ih h2).2 r' hr

theorem polygon_rings_sound (d : Dims) (F : Nat) :
    SndU (tkPolygon parse F d.n) (Listed (Listed (CoordToks parse d))) (ListTr (Between .ringStart .ringEnd (SeqTr d.n))) := by
  refine (emptyOr_sound (a0 := ([] : List (List Coord))) rfl fun _ => group_sound (between_sound (coordinates_sound d F) .ringStart .ringEnd) F).imp id ?_ (fun _ _ h => h)
  rintro cs ts (⟨rfl, rfl⟩ | ⟨b, body, ⟨b', h1, rfl⟩, rfl⟩)
  · exact Or.inl ⟨rfl, rfl⟩
  · exact Or.inr ⟨b, b', h1, rfl⟩

/-- The parsers for geometries without members. -/
theorem point_geom (d : Dims) : SndU (tkPoint parse d.n) (fun g ts => (∃ cs, g = .point d cs) ∧ BodyToks parse g ts) (InnerTr 1 d.code) :=
  (point_sound d).imp (fun cs => Geom.point d cs) (fun cs ts h => ⟨⟨cs, rfl⟩, by rw [BodyToks]; exact h⟩) (fun cs t h => ⟨⟨t, h.2, rfl⟩, h.1⟩)

theorem linestring_geom (d : Dims) (F : Nat) : SndU (tkCoordinates parse F d.n) (fun g ts => (∃ cs, g = .linestring d cs) ∧ BodyToks parse g ts) (InnerTr 2 d.code) :=
  (coordinates_sound d F).imp (fun cs => Geom.linestring d cs) (fun cs ts h => ⟨⟨cs, rfl⟩, by rw [BodyToks]; exact h⟩) (fun cs t h => ⟨⟨t, h.2, rfl⟩, h.1⟩)

theorem polygon_geom (d : Dims) (F : Nat) : SndU (tkPolygon parse F d.n) (fun g ts => (∃ rs, g = .polygon d rs) ∧ BodyToks parse g ts) (InnerTr 3 d.code) :=
  (polygon_rings_sound d F).imp (fun rs => Geom.polygon d rs) (fun rs ts h => ⟨⟨rs, rfl⟩, by rw [BodyToks]; exact h⟩)
    (fun rs t h => ⟨⟨t, (listTr_rings h).1, rfl⟩, (listTr_rings h).2⟩)

/-- Members, one after the other. -/
theorem members_toks {k : MultiKind} {d : Dims} {Tk : Geom → List Tok → Prop}
    (hk : ∀ g ts, Tk g ts → FitsMember k d g ∧ ∃ b, BodyToks parse g b ∧ ts = (if k = .collection then tagToks g else []) ++ b) :
    ∀ (ps : List Geom) (ts : List Tok), Separated Tk ps ts → MemberToks parse k d ps ts := by
  intro ps
  induction ps with
  | nil => intro ts h; exact h.elim
  | cons g ps ih =>
    intro ts h
    rw [MemberToks]
    rcases h with ⟨rfl, h⟩ | ⟨t1, t2, h1, h2, rfl⟩
    · obtain ⟨f, b, hb, rfl⟩ := hk _ _ h
      exact ⟨f, b, hb, Or.inl ⟨rfl, rfl⟩⟩
    · obtain ⟨f, b, hb, rfl⟩ := hk _ _ h1
      exact ⟨f, b, hb, Or.inr ⟨t2, ih _ h2, rfl⟩⟩

/-- A multi-geometry whose members are parsed by `q`. -/
theorem multi_geom {q : TkP Unit Unit} {Tk : Geom → List Tok → Prop} (k : MultiKind) (d : Dims) (F : Nat) (h : SndU q Tk GeomTr)
    (hk : ∀ g ts, Tk g ts → FitsMember k d g ∧ ∃ b, BodyToks parse g b ∧ ts = (if k = .collection then tagToks g else []) ++ b) :
    SndU (tkEmptyOr fun _ => tkGroup F q) (fun g ts => (∃ ps, g = .multi k d ps) ∧ BodyToks parse g ts) (InnerTr k.code d.code) := by
  refine (emptyOr_sound (a0 := ([] : List Geom)) rfl fun _ => group_sound h F).imp (fun ps => Geom.multi k d ps) ?_ (fun _ _ h => multi_inner h)
  rintro ps ts (⟨rfl, rfl⟩ | ⟨b, body, ⟨b', h1, rfl⟩, rfl⟩)
  · exact ⟨⟨[], rfl⟩, by rw [BodyToks]; exact Or.inl ⟨rfl, rfl⟩⟩
  · exact ⟨⟨ps, rfl⟩, by rw [BodyToks]; exact Or.inr (Or.inl ⟨b, b', members_toks hk _ _ h1, rfl⟩)⟩

theorem member_geom {q : TkP Unit Unit} {Tk : Geom → List Tok → Prop} {k d : Nat} (h : SndU q Tk (InnerTr k d)) : SndU (tkMember k d q) Tk GeomTr := by
  refine (between_sound h (.geomStart k d) .geomEnd).imp id (fun _ _ h => h) ?_
  rintro g t ⟨b, h1, rfl⟩
  exact h1

theorem multilinestring_geom (d : Dims) (F : Nat) :
    SndU (tkMultilinestring parse F d.n d.code) (fun g ts => (∃ ps, g = .multi .multilinestring d ps) ∧ BodyToks parse g ts) (InnerTr 5 d.code) := by
  refine multi_geom .multilinestring d F (member_geom (linestring_geom d F)) ?_
  rintro g ts ⟨⟨cs, rfl⟩, hb⟩
  exact ⟨rfl, ts, hb, by simp⟩

theorem multipolygon_geom (d : Dims) (F : Nat) :
    SndU (tkMultipolygon parse F d.n d.code) (fun g ts => (∃ ps, g = .multi .multipolygon d ps) ∧ BodyToks parse g ts) (InnerTr 6 d.code) := by
  refine multi_geom .multipolygon d F (member_geom (polygon_geom d F)) ?_
  rintro g ts ⟨⟨cs, rfl⟩, hb⟩
  exact ⟨rfl, ts, hb, by simp⟩

theorem flat_points (d : Dims) : ∀ (ps : List Geom) (b : List Tok), Separated (fun g ts => ∃ c, g = .point d [c] ∧ CoordToks parse d c ts) ps b →
    ∃ cs, ps = cs.map (fun c => Geom.point d [c]) ∧ Separated (CoordToks parse d) cs b := by
  intro ps
  induction ps with
  | nil => intro b h; exact h.elim
  | cons g ps ih =>
    rintro b (⟨rfl, c, rfl, h⟩ | ⟨t1, t2, ⟨c, rfl, h1⟩, h2, rfl⟩)
    · exact ⟨[c], rfl, Or.inl ⟨rfl, h⟩⟩
    · obtain ⟨cs, rfl, h3⟩ := ih _ h2
      exact ⟨c :: cs, rfl, Or.inr ⟨t1, t2, h1, h3, rfl⟩⟩

theorem multipoint_geom (d : Dims) (F : Nat) :
    SndU (tkMultipoint parse F d.n d.code) (fun g ts => (∃ ps, g = .multi .multipoint d ps) ∧ BodyToks parse g ts) (InnerTr 4 d.code) := by
  have hv := group_sound (member_geom (point_geom (parse := parse) d)) F
  have hf := group_sound (member_geom (k := 1) (d := d.code) (Tk := fun g ts => ∃ c, g = .point d [c] ∧ CoordToks parse d c ts)
    ((flatPoint_sound (parse := parse) d).imp (Tr' := InnerTr 1 d.code) (fun cs => Geom.point d cs) (fun cs ts h => by obtain ⟨c, rfl, h⟩ := h; exact ⟨c, rfl, h⟩) (fun cs t h => ⟨⟨t, h.2, rfl⟩, h.1⟩))) F
  have hc : ∀ b, SndU (fun x ts => if tkVerbose ts then tkGroup F (tkMember 1 d.code (tkPoint parse d.n)) x ts
      else if b then tkGroup F (tkMember 1 d.code (tkFlatPoint parse d.n)) x ts else ([], none))
      (fun (ps : List Geom) ts => MemberToks parse .multipoint d ps ts.dropLast ∧ ts = ts.dropLast ++ [.closing] ∨ FlatToks parse .multipoint d ps (.opening b :: ts))
      (ListTr GeomTr) := by
    intro b x ts
    have hnone : ∃ (ps : List Geom) (t2 : List Event), ListTr GeomTr ps ([] ++ t2) := ⟨[], [], rfl⟩
    by_cases hver : tkVerbose ts = true
    · simp only [if_pos hver]
      refine ⟨fun t x' ts' he => ?_, (hv x ts).2⟩
      obtain ⟨ps, body, rfl, ⟨b', k1, rfl⟩, r⟩ := (hv x ts).1 _ _ _ he
      refine ⟨ps, _, rfl, Or.inl ⟨?_, by simp⟩, r⟩
      rw [List.dropLast_concat]
      refine members_toks (k := .multipoint) ?_ _ _ k1
      rintro g ts ⟨⟨cs, rfl⟩, hb⟩
      exact ⟨rfl, ts, hb, by simp⟩
    · simp only [if_neg hver]
      cases b with
      | false =>
        simp only [Bool.false_eq_true, if_false]
        refine ⟨fun t x' ts' he => by simp at he, fun t he => ?_⟩
        simp only [Prod.mk.injEq, and_true] at he
        subst he; exact hnone
      | true =>
        simp only [if_true]
        refine ⟨fun t x' ts' he => ?_, (hf x ts).2⟩
        obtain ⟨ps, body, rfl, ⟨b', k1, rfl⟩, r⟩ := (hf x ts).1 _ _ _ he
        obtain ⟨cs, h1, h2⟩ := flat_points d _ _ k1
        exact ⟨ps, _, rfl, Or.inr ⟨rfl, cs, b', h1, h2, by simp⟩, r⟩
  refine (emptyOr_sound (a0 := ([] : List Geom)) rfl hc).imp (fun ps => Geom.multi .multipoint d ps) ?_ (fun _ _ h => multi_inner h)
  rintro ps ts (⟨rfl, rfl⟩ | ⟨b, body, h1 | h1, rfl⟩)
  · exact ⟨⟨[], rfl⟩, by rw [BodyToks]; exact Or.inl ⟨rfl, rfl⟩⟩
  · refine ⟨⟨ps, rfl⟩, ?_⟩
    rw [BodyToks]
    refine Or.inr (Or.inl ⟨b, body.dropLast, h1.1, ?_⟩)
    rw [List.cons_append, ← h1.2]
  · exact ⟨⟨ps, rfl⟩, by rw [BodyToks]; exact Or.inr (Or.inr h1)⟩

/-- The tag of a geometry with code `gt` and dimensions `d`. -/
def HasTag (gt : Nat) (d : Dims) (g : Geom) : Prop :=
  g.dims = d ∧ match g with
    | .point _ _ => gt = 1
    | .linestring _ _ => gt = 2
    | .polygon _ _ => gt = 3
    | .multi k _ _ => gt = k.code

theorem dimsToks_dims (ts : List Tok) : ∃ d : Dims, (dimsToks ts).1 = d.code ∧ (dimsToks ts).2.1 = d.n ∧
    ts = dimToks d ++ (dimsToks ts).2.2 := by
  unfold dimsToks
  split
  · rename_i w ts'
    split
    · rename_i h
      rcases h with rfl | rfl | rfl
      · exact ⟨.xyz, rfl, rfl, rfl⟩
      · exact ⟨.xym, rfl, rfl, rfl⟩
      · exact ⟨.xyzm, rfl, rfl, rfl⟩
    · exact ⟨.xy, rfl, rfl, rfl⟩
  · exact ⟨.xy, rfl, rfl, rfl⟩

theorem type_keyword {w : List Byte} {gt : Nat} (h : wkrType w = some gt) : 1 ≤ gt ∧ gt ≤ 7 ∧ ∀ d g, HasTag gt d g → g.keyword = w := by
  have key : ∀ g : Geom, ∀ d, HasTag gt d g → wkrType g.keyword = some gt := by
    rintro g d ⟨-, h⟩
    cases g with
    | point => simp only [] at h; subst h; rfl
    | linestring => simp only [] at h; subst h; rfl
    | polygon => simp only [] at h; subst h; rfl
    | multi k => simp only [] at h; subst h; cases k <;> rfl
  have inj : ∀ w', wkrType w' = some gt → w' = w := by
    intro w' h'
    unfold wkrType at h h'
    repeat' split at h
    all_goals (first | (simp only [reduceCtorEq] at h; done) | skip)
    all_goals
      simp only [Option.some.injEq] at h
      subst h
      repeat' split at h'
      all_goals simp_all
  refine ⟨?_, ?_, fun d g hg => inj _ (key g d hg)⟩
  · unfold wkrType at h
    repeat' split at h
    all_goals first | (cases h; decide) | cases h
  · unfold wkrType at h
    repeat' split at h
    all_goals first | (cases h; decide) | cases h

theorem content_sound (F : Nat) {tagged : TkP Unit Unit} (ht : SndU tagged (GeomToks parse) GeomTr) {gt : Nat} (h1 : 1 ≤ gt) (h7 : gt ≤ 7) (d : Dims) :
    SndU (tkContent parse F tagged gt d.n d.code) (fun g ts => HasTag gt d g ∧ BodyToks parse g ts) (InnerTr gt d.code) := by
  unfold tkContent
  by_cases q1 : gt = 1
  · subst q1
    refine (point_geom d).imp id ?_ (fun _ _ h => h)
    rintro g ts ⟨⟨cs, rfl⟩, h⟩; exact ⟨⟨rfl, rfl⟩, h⟩
  rw [if_neg q1]
  by_cases q2 : gt = 2
  · subst q2
    refine (linestring_geom d F).imp id ?_ (fun _ _ h => h)
    rintro g ts ⟨⟨cs, rfl⟩, h⟩; exact ⟨⟨rfl, rfl⟩, h⟩
  rw [if_neg q2]
  by_cases q3 : gt = 3
  · subst q3
    refine (polygon_geom d F).imp id ?_ (fun _ _ h => h)
    rintro g ts ⟨⟨cs, rfl⟩, h⟩; exact ⟨⟨rfl, rfl⟩, h⟩
  rw [if_neg q3]
  by_cases q4 : gt = 4
  · subst q4
    refine (multipoint_geom d F).imp id ?_ (fun _ _ h => h)
    rintro g ts ⟨⟨cs, rfl⟩, h⟩; exact ⟨⟨rfl, rfl⟩, h⟩
  rw [if_neg q4]
  by_cases q5 : gt = 5
  · subst q5
    refine (multilinestring_geom d F).imp id ?_ (fun _ _ h => h)
    rintro g ts ⟨⟨cs, rfl⟩, h⟩; exact ⟨⟨rfl, rfl⟩, h⟩
  rw [if_neg q5]
  by_cases q6 : gt = 6
  · subst q6
    refine (multipolygon_geom d F).imp id ?_ (fun _ _ h => h)
    rintro g ts ⟨⟨cs, rfl⟩, h⟩; exact ⟨⟨rfl, rfl⟩, h⟩
  rw [if_neg q6]
  have q7 : gt = 7 := by omega
  subst q7
  refine (multi_geom (parse := parse) .collection d F ht ?_).imp id ?_ (fun _ _ h => h)
  · rintro g ts ⟨b, hb, rfl⟩
    exact ⟨trivial, b, hb, by simp⟩
  · rintro g ts ⟨⟨cs, rfl⟩, h⟩; exact ⟨⟨rfl, rfl⟩, h⟩

theorem tagToks_eq {g : Geom} {d : Dims} {w : List Byte} {rest : List Tok} (hk : g.keyword = w) (hd : g.dims = d) :
    .word w :: (dimToks d ++ rest) = tagToks g ++ rest := by
  subst hk hd
  rfl

theorem tagged_sound (F : Nat) (f : Nat) : SndU (tkTagged parse F f) (GeomToks parse) GeomTr := by
  have h0 : ∃ (g : Geom) (t2 : List Event), GeomTr g ([] ++ t2) := ⟨.point .xy [], [.geomStart 1 1, .geomEnd], ⟨[], ⟨[], rfl, rfl⟩, rfl⟩, by simp [Geom.WF]⟩
  induction f with
  | zero =>
    intro x ts
    refine ⟨fun t x' ts' he => by simp [tkTagged] at he, fun t he => ?_⟩
    simp only [tkTagged, Prod.mk.injEq, and_true] at he
    subst he; exact h0
  | succ f ih =>
    intro x ts
    rw [tkTagged]
    simp only []
    cases ht : tkTag ts with
    | none =>
      simp only []
      refine ⟨fun t x' ts' he => by simp at he, fun t he => ?_⟩
      simp only [Prod.mk.injEq, and_true] at he
      subst he; exact h0
    | some p =>
      simp only []
      unfold tkTag at ht
      cases ts with
      | nil => simp at ht
      | cons k ts =>
        cases k with
        | opening b => simp at ht
        | closing => simp at ht
        | comma => simp at ht
        | word w =>
          simp only [] at ht
          cases hg : wkrType w with
          | none => rw [hg] at ht; simp at ht
          | some gt =>
            rw [hg] at ht
            simp only [Option.some.injEq] at ht
            subst ht
            obtain ⟨b1, b7, hkw⟩ := type_keyword hg
            obtain ⟨d, hd1, hd2, hd3⟩ := dimsToks_dims ts
            simp only []
            rw [hd1, hd2]
            have hm := member_geom (content_sound F ih b1 b7 d)
            refine ⟨fun t x' ts' he => ?_, fun t he => (hm x _).2 t he⟩
            obtain ⟨g, b, e, ⟨hh, k1⟩, r⟩ := (hm x _).1 _ _ _ he
            refine ⟨g, tagToks g ++ b, ?_, ⟨b, k1, rfl⟩, r⟩
            rw [List.append_assoc, ← tagToks_eq (hkw d g hh) hh.1, ← e, ← hd3]

/-- The whole text. -/
theorem feature_sound (F f : Nat) (ts : List Tok) :
    (∀ t x' ts', tkFeature parse F f () ts = (t, some (x', ts')) → ∃ g, GeomToks parse g ts ∧ FeatureTrace g t ∧ g.WF) ∧
    (∀ t, tkFeature parse F f () ts = (t, none) → ∃ g t2, FeatureTrace g (t ++ t2) ∧ g.WF) := by
  have h := tagged_sound (parse := parse) F f () ts
  unfold tkFeature
  refine ⟨fun t x' ts' he => ?_, fun t he => ?_⟩
  · obtain ⟨t1, y, ts1, t2, h1, h2, rfl⟩ := tkThen_some he
    simp only [tkCall] at h1
    cases h1
    obtain ⟨t3, y, ts1, t4, h3, h4, rfl⟩ := tkThen_some h2
    obtain ⟨t5, y, ts2, t6, h5, h6, rfl⟩ := tkThen_some h4
    simp only [tkCall] at h5
    cases h5
    unfold tkEnd at h6
    split at h6
    · rename_i hnil
      cases h6
      obtain ⟨g, b, e, k, r⟩ := h.1 _ _ _ h3
      rw [hnil, List.append_nil] at e
      exact ⟨g, e ▸ k, ⟨t3, r.1, by simp⟩, r.2⟩
    · simp at h6
  · rcases tkThen_none he with h1 | ⟨t1, y, ts1, t2, h1, h2, rfl⟩
    · simp [tkCall] at h1
    simp only [tkCall] at h1
    cases h1
    rcases tkThen_none h2 with h3 | ⟨t3, y, ts1, t4, h3, h4, rfl⟩
    · obtain ⟨g, t3, r⟩ := h.2 _ h3
      exact ⟨g, t3 ++ [.featEnd], ⟨t2 ++ t3, r.1, by simp⟩, r.2⟩
    · obtain ⟨g, b, e, k, r⟩ := h.1 _ _ _ h3
      rcases tkThen_none h4 with h5 | ⟨t5, y, ts2, t6, h5, h6, rfl⟩
      · simp [tkCall] at h5
      simp only [tkCall] at h5
      cases h5
      unfold tkEnd at h6
      split at h6
      · simp at h6
      · simp only [Prod.mk.injEq, and_true] at h6
        subst h6
        exact ⟨g, [], ⟨t3, r.1, by simp⟩, r.2⟩
end
end Verif
