import Verif.Proof.WktRefineAll
/-!
# Whitespace and the WKT reader

Inserted whitespace changes at most the flag of an opening parenthesis, and that flag matters only for a multipoint whose
first member has no parentheses.
-/
namespace Verif
open Spec

/-- The same tokens, but an opening parenthesis may differ if `P`, or if a token of the verbose style follows. -/
inductive Near (P : Prop) : List Tok → List Tok → Prop where
  | nil : Near P [] []
  | same (k : Tok) {ts ts' : List Tok} : Near P ts ts' → Near P (k :: ts) (k :: ts')
  | flag (b b' : Bool) {ts ts' : List Tok} : Near P ts ts' → P ∨ tkVerbose ts = true → Near P (.opening b :: ts) (.opening b' :: ts')

theorem Near.refl (P : Prop) : ∀ ts, Near P ts ts
  | [] => .nil
  | k :: ts => .same k (Near.refl P ts)

theorem Near.append (P : Prop) (a : List Tok) {ts ts' : List Tok} (h : Near P ts ts') : Near P (a ++ ts) (a ++ ts') := by
  induction a with
  | nil => exact h
  | cons k a ih => exact .same k ih

/-- `P` excludes multipoints. -/
structure NearR (P : Prop) (ts ts' : List Tok) : Prop where
  near : Near P ts ts'
  free : P → Tok.word (str "MULTIPOINT") ∉ ts

inductive SameR (P : Prop) {χ : Type} : List Event × Option (χ × List Tok) → List Event × Option (χ × List Tok) → Prop where
  | none (t) : SameR P (t, none) (t, none)
  | some (t x) {ts ts'} : NearR P ts ts' → SameR P (t, some (x, ts)) (t, some (x, ts'))

def Par (P : Prop) {χ χ' : Type} (q : TkP χ χ') : Prop := ∀ x ts ts', NearR P ts ts' → SameR P (q x ts) (q x ts')

section
variable {P : Prop}

theorem NearR.tail {k k' : Tok} {ts ts'} (h : NearR P (k :: ts) (k' :: ts')) : NearR P ts ts' := by
  refine ⟨?_, fun p hm => h.free p (by simp [hm])⟩
  cases h.near with
  | same _ h => exact h
  | flag _ _ h _ => exact h

theorem Near.verbose {ts ts'} (h : Near P ts ts') : tkVerbose ts = tkVerbose ts' := by
  cases h with
  | nil => rfl
  | same k _ => cases k with
    | word w => cases w <;> rfl
    | _ => rfl
  | flag _ _ _ _ => rfl

theorem SameR.then {χ χ' : Type} {r r' : List Event × Option (χ × List Tok)} (h : SameR P r r') {b : TkP χ χ'} (hb : Par P b) :
    SameR P (tkThen r b) (tkThen r' b) := by
  cases h with
  | none t => exact .none t
  | some t x h =>
    simp only [tkThen]
    have h2 := hb x _ _ h
    revert h2
    generalize b x _ = r1
    generalize b x _ = r2
    intro h2
    cases h2 with
    | none t2 => exact .none _
    | some t2 x2 h2 => exact .some _ _ h2

theorem Par.seq {χ χ' χ'' : Type} {a : TkP χ χ'} {b : TkP χ' χ''} (ha : Par P a) (hb : Par P b) : Par P (tkSeq a b) :=
  fun x ts ts' h => (ha x ts ts' h).then hb

theorem Par.pure {χ χ' : Type} (f : χ → χ') : Par P (tkPure f) := fun _ _ _ h => .some _ _ h
theorem Par.call {χ : Type} (e : Event) : Par P (tkCall (χ := χ) e) := fun _ _ _ h => .some _ _ h

theorem Par.closing {χ : Type} : Par P (tkTok (χ := χ) .closing) := by
  intro x ts ts' h
  cases hn : h.near with
  | nil => exact .none _
  | same k _ =>
    simp only [tkTok]
    split
    · exact .some _ _ h.tail
    · exact .none _
  | flag b b' _ _ =>
    simp only [tkTok]
    rw [if_neg (by simp), if_neg (by simp)]
    exact .none _

theorem Par.loop {χ : Type} {item : TkP χ χ} (hi : Par P item) : ∀ f, Par P (tkLoop item f)
  | 0 => fun _ _ _ _ => .none _
  | f + 1 => by
    intro x ts ts' h
    cases hn : h.near with
    | nil => exact .none _
    | same k _ => cases k with
      | closing => exact .some _ _ h
      | comma => exact Par.seq hi (Par.loop hi f) x _ _ h.tail
      | opening b => exact .none _
      | word w => exact .none _
    | flag b b' _ _ => exact .none _

theorem Par.items {χ : Type} (F : Nat) {item : TkP χ χ} (hi : Par P item) : Par P (tkItems F item) := Par.seq hi (Par.loop hi F)

theorem Par.emptyOr {χ : Type} {content : Bool → TkP χ χ}
    (hs : ∀ b x ts ts', NearR P ts ts' → SameR P (content b x ts) (content b x ts'))
    (hd : ∀ b b' x ts ts', NearR P ts ts' → P ∨ tkVerbose ts = true → SameR P (content b x ts) (content b' x ts')) : Par P (tkEmptyOr content) := by
  intro x ts ts' h
  cases hn : h.near with
  | nil => exact .none _
  | same k _ => cases k with
    | closing => exact .none _
    | comma => exact .none _
    | opening b => exact hs b x _ _ h.tail
    | word w =>
      simp only [tkEmptyOr]
      split
      · exact .some _ _ h.tail
      · exact .none _
  | flag b b' _ hv => exact hd b b' x _ _ h.tail hv

theorem Par.emptyOr' {χ : Type} {content : TkP χ χ} (h : Par P content) : Par P (tkEmptyOr fun _ => content) :=
  Par.emptyOr (fun _ x ts ts' hr => h x ts ts' hr) (fun _ _ x ts ts' hr _ => h x ts ts' hr)

variable (parse : List Byte → Option Dbl) (F : Nat)

/-- Same result of reading numbers. -/
inductive SameO (P : Prop) {χ : Type} : Option (χ × List Tok) → Option (χ × List Tok) → Prop where
  | none : SameO P none none
  | some (x) {ts ts'} : NearR P ts ts' → SameO P (some (x, ts)) (some (x, ts'))

theorem par_ords : ∀ (k : Nat) {ts ts' : List Tok}, NearR P ts ts' → SameO P (tkOrds parse k ts) (tkOrds parse k ts')
  | 0, _, _, h => .some _ h
  | k + 1, _, _, h => by
    cases hn : h.near with
    | nil => exact .none
    | same t _ => cases t with
      | word w =>
        simp only [tkOrds]
        cases hp : parse w with
        | none => exact .none
        | some x =>
          simp only []
          have h2 := par_ords k h.tail
          revert h2
          generalize tkOrds parse k _ = r1
          generalize tkOrds parse k _ = r2
          intro h2
          cases h2 with
          | none => exact .none
          | some c hr => exact .some _ hr
      | _ => exact .none
    | flag _ _ _ _ => exact .none

theorem Par.coord (nv : Nat) : Par P (tkCoord parse nv) := by
  intro cs ts ts' h
  simp only [tkCoord]
  have h2 := par_ords parse nv h
  generalize tkOrds parse nv ts = r1 at h2
  generalize tkOrds parse nv ts' = r2 at h2
  cases h2 with
  | none => exact .none _
  | some c hr => exact .some _ _ hr

theorem Par.flush (nv : Nat) : Par P (tkFlush nv) := fun _ _ _ h => .some _ _ h

theorem Par.coordinates (nv : Nat) : Par P (tkCoordinates parse F nv) :=
  Par.emptyOr' (Par.seq (Par.pure _) (Par.seq (Par.items F (Par.coord parse nv)) (Par.seq (Par.flush nv) Par.closing)))

theorem Par.point (nv : Nat) : Par P (tkPoint parse nv) :=
  Par.emptyOr' (Par.seq (Par.pure _) (Par.seq (Par.coord parse nv) (Par.seq (Par.flush nv) Par.closing)))

theorem Par.member (gt dims : Nat) {body : TkP Unit Unit} (h : Par P body) : Par P (tkMember gt dims body) :=
  Par.seq (Par.call _) (Par.seq h (Par.call _))

theorem Par.flatPoint (nv : Nat) : Par P (tkFlatPoint parse nv) := Par.seq (Par.pure _) (Par.seq (Par.coord parse nv) (Par.flush nv))

theorem Par.ring (nv : Nat) : Par P (tkRing parse F nv) := Par.seq (Par.call _) (Par.seq (Par.coordinates parse F nv) (Par.call _))

theorem Par.group {item : TkP Unit Unit} (h : Par P item) : Par P (tkGroup F item) := Par.seq (Par.items F h) Par.closing

theorem Par.polygon (nv : Nat) : Par P (tkPolygon parse F nv) := Par.emptyOr' (Par.group F (Par.ring parse F nv))

theorem Par.multipoint (hP : ¬ P) (nv dims : Nat) : Par P (tkMultipoint parse F nv dims) := by
  have hv := Par.group (P := P) F (Par.member 1 dims (Par.point parse nv))
  have hf := Par.group (P := P) F (Par.member 1 dims (Par.flatPoint parse nv))
  refine Par.emptyOr ?_ ?_
  · intro b x ts ts' h
    rw [h.near.verbose]
    split
    · exact hv x ts ts' h
    · split
      · exact hf x ts ts' h
      · exact .none _
  · intro b b' x ts ts' h hd
    have h1 := hd.resolve_left hP
    rw [if_pos h1, if_pos (h.near.verbose ▸ h1)]
    exact hv x ts ts' h

theorem Par.content {tagged : TkP Unit Unit} (ht : Par P tagged) (gt nv dims : Nat) (h4 : gt = 4 → ¬ P) :
    Par P (tkContent parse F tagged gt nv dims) := by
  unfold tkContent
  split
  · exact Par.point parse nv
  split
  · exact Par.coordinates parse F nv
  split
  · exact Par.polygon parse F nv
  split
  · exact Par.multipoint parse F (h4 (by assumption)) nv dims
  split
  · exact Par.emptyOr' (Par.group F (Par.member 2 dims (Par.coordinates parse F nv)))
  split
  · exact Par.emptyOr' (Par.group F (Par.member 3 dims (Par.polygon parse F nv)))
  · exact Par.emptyOr' (Par.group F ht)

theorem par_dims {ts ts' : List Tok} (h : NearR P ts ts') :
    (dimsToks ts).1 = (dimsToks ts').1 ∧ (dimsToks ts).2.1 = (dimsToks ts').2.1 ∧ NearR P (dimsToks ts).2.2 (dimsToks ts').2.2 := by
  cases hn : h.near with
  | nil => exact ⟨rfl, rfl, h⟩
  | same t _ => cases t with
    | word w =>
      simp only [dimsToks]
      split
      · exact ⟨rfl, rfl, h.tail⟩
      · exact ⟨rfl, rfl, h⟩
    | _ => exact ⟨rfl, rfl, h⟩
  | flag _ _ _ _ => exact ⟨rfl, rfl, h⟩

theorem wkrType_four {w : List Byte} (h : wkrType w = some 4) : w = str "MULTIPOINT" := by
  unfold wkrType at h
  by_cases h1 : w = str "POINT"
  · rw [if_pos h1] at h; cases h
  by_cases h2 : w = str "LINESTRING"
  · rw [if_neg h1, if_pos h2] at h; cases h
  by_cases h3 : w = str "POLYGON"
  · rw [if_neg h1, if_neg h2, if_pos h3] at h; cases h
  by_cases h4 : w = str "MULTIPOINT"
  · exact h4
  rw [if_neg h1, if_neg h2, if_neg h3, if_neg h4] at h
  by_cases h5 : w = str "MULTILINESTRING"
  · rw [if_pos h5] at h; cases h
  by_cases h6 : w = str "MULTIPOLYGON"
  · rw [if_neg h5, if_pos h6] at h; cases h
  by_cases h7 : w = str "GEOMETRYCOLLECTION"
  · rw [if_neg h5, if_neg h6, if_pos h7] at h; cases h
  · rw [if_neg h5, if_neg h6, if_neg h7] at h; cases h

theorem Par.tagged : ∀ f, Par P (tkTagged parse F f)
  | 0 => fun _ _ _ _ => .none _
  | f + 1 => by
    intro x ts ts' h
    cases hn : h.near with
    | nil => exact .none _
    | same t _ => cases t with
      | word w =>
        simp only [tkTagged, tkTag]
        cases hw : wkrType w with
        | none => exact .none _
        | some gt =>
          simp only []
          obtain ⟨h1, h2, h3⟩ := par_dims h.tail
          rw [h1, h2]
          refine Par.member _ _ (Par.content parse F (Par.tagged f) _ _ _ ?_) x _ _ h3
          intro hg p
          subst hg
          exact h.free p (by rw [wkrType_four hw]; simp)
      | _ => exact .none _
    | flag _ _ _ _ => exact .none _

theorem Par.end : Par P tkEnd := by
  intro x ts ts' h
  cases hn : h.near with
  | nil => exact .some _ _ h
  | same _ _ => exact .none _
  | flag _ _ _ _ => exact .none _

theorem Par.feature (f : Nat) : Par P (tkFeature parse F f) :=
  Par.seq (Par.call _) (Par.seq (Par.tagged parse F f) (Par.seq (Par.call _) Par.end))
end

/-! ## Inserting whitespace -/

theorem lex_spaces {ws : List Byte} (h : ∀ c ∈ ws, isSpace c = true) (cs : List Byte) : lex (ws ++ cs) = lex cs := by
  induction ws with
  | nil => rfl
  | cons c ws ih => rw [List.cons_append, lex_space (h c (by simp)), ih (fun c' hc => h c' (by simp [hc]))]

/-- The last character does not belong to a word. -/
def EndsEdge (a : List Byte) : Prop := ∃ c, a.getLast? = some c ∧ isWordChar c = false

theorem near_lexFrom {P : Prop} {ws : List Byte} (hws : ∀ c ∈ ws, isSpace c = true) (b : List Byte) : ∀ (a acc : List Byte),
    EndsEdge a ∨ startsEdge b = true ∨ (a = [] ∧ acc = []) → (a.getLast? = some 40 → P ∨ tkVerbose (lex b) = true) →
    Near P (lexFrom acc (a ++ b)) (lexFrom acc (a ++ (ws ++ b)))
  | [], acc, hadj, _ => by
    rw [List.nil_append, List.nil_append]
    have he : lexFrom acc (ws ++ b) = lexFrom acc b := by
      cases hw : ws with
      | nil => rfl
      | cons c ws' =>
        have hsp : isSpace c = true := hws c (by rw [hw]; simp)
        rw [lexFrom_edge acc (c :: ws' ++ b) (by simp [startsEdge, isWordChar, hsp]), ← hw, lex_spaces hws]
        rcases hadj with ⟨c, hc, _⟩ | hb | ⟨_, h2⟩
        · cases hc
        · rw [lexFrom_edge acc b hb]
        · subst h2; rfl
    rw [he]; exact Near.refl _ _
  | c :: a, acc, hadj, hpar => by
    have hin : a ≠ [] → (c :: a).getLast? = a.getLast? := by
      intro h
      obtain ⟨y, ys, rfl⟩ := List.exists_cons_of_ne_nil h
      rw [List.getLast?_cons_cons]
    have hsub : a.getLast? = some 40 → P ∨ tkVerbose (lex b) = true := by
      intro h
      refine hpar ?_
      rw [hin]; exact h
      intro h'; subst h'; cases h
    have hend : EndsEdge (c :: a) → a ≠ [] → EndsEdge a := by
      rintro ⟨x, h1, h2⟩ hne
      exact ⟨x, by rw [← hin hne]; exact h1, h2⟩
    have ih0 : Near P (lexFrom [] (a ++ b)) (lexFrom [] (a ++ (ws ++ b))) := by
      refine near_lexFrom hws b a [] ?_ hsub
      by_cases ha : a = []
      · exact Or.inr (Or.inr ⟨ha, rfl⟩)
      · rcases hadj with h | h | h
        · exact Or.inl (hend h ha)
        · exact Or.inr (Or.inl h)
        · cases h.1
    rw [List.cons_append, List.cons_append]
    simp only [lexFrom]
    by_cases h0 : c = 0
    · rw [if_pos h0, if_pos h0]; exact Near.refl _ _
    rw [if_neg h0, if_neg h0]
    by_cases h1 : isSpace c = true
    · rw [if_pos h1, if_pos h1]; exact Near.append P _ ih0
    rw [if_neg h1, if_neg h1]
    by_cases h2 : c = 40
    · rw [if_pos h2, if_pos h2]
      refine Near.append P _ ?_
      cases a with
      | nil => exact .flag _ _ ih0 (hpar (by rw [h2]; rfl))
      | cons y ys => exact .same _ ih0
    rw [if_neg h2, if_neg h2]
    by_cases h3 : c = 41
    · rw [if_pos h3, if_pos h3]; exact Near.append P _ (.same _ ih0)
    rw [if_neg h3, if_neg h3]
    by_cases h4 : c = 44
    · rw [if_pos h4, if_pos h4]; exact Near.append P _ (.same _ ih0)
    rw [if_neg h4, if_neg h4]
    have hwc : isWordChar c = true := by
      rw [isWordChar, decide_eq_false h0, decide_eq_false h2, decide_eq_false h3, decide_eq_false h4]
      simp [h1]
    refine near_lexFrom hws b a (acc ++ [c]) ?_ hsub
    rcases hadj with h | h | h
    · by_cases ha : a = []
      · subst ha
        obtain ⟨x, hx, hx2⟩ := h
        cases hx
        exact absurd (hwc.symm.trans hx2) (by simp)
      · exact Or.inl (hend h ha)
    · exact Or.inr (Or.inl h)
    · cases h.1

theorem lexFrom_begins : ∀ (cs : List Byte) (x : Byte) (acc : List Byte), ∃ w ts, lexFrom (x :: acc) cs = .word (x :: w) :: ts
  | [], x, acc => ⟨acc, [], rfl⟩
  | c :: cs, x, acc => by
    simp only [lexFrom, wordTok, if_neg (List.cons_ne_nil x acc)]
    repeat' split
    · exact ⟨_, _, rfl⟩
    · exact ⟨_, _, rfl⟩
    · exact ⟨_, _, rfl⟩
    · exact ⟨_, _, rfl⟩
    · exact ⟨_, _, rfl⟩
    · exact lexFrom_begins cs x (acc ++ [c])

theorem verbose_of_head {b : List Byte} (h : (b.dropWhile isSpace).head? = some 40 ∨ (b.dropWhile isSpace).head? = some 69) :
    tkVerbose (lex b) = true := by
  rw [← lex_drop_space b]
  generalize b.dropWhile isSpace = b' at h
  cases b' with
  | nil => rcases h with h | h <;> cases h
  | cons c cs =>
    simp only [List.head?_cons, Option.some.injEq] at h
    rcases h with rfl | rfl
    · rfl
    · obtain ⟨w, ts, h⟩ := lexFrom_begins cs 69 []
      show tkVerbose (lexFrom [69] cs) = true
      rw [h]; rfl

/-- Texts with near tokens behave the same. -/
theorem near_behaves {parse : List Byte → Option Dbl} (hpe : parse [] = none) {P : Prop} {a b : List Byte} (h : NearR P (lex a) (lex b))
    (r r' : WktR) (t : List Event) (o : Outcome Unit) :
    Behaves (fun _ hd => wktVisit parse a hd r) t o ↔ Behaves (fun _ hd => wktVisit parse b hd r') t o := by
  have ha := wktVisit_behaves hpe (blob := a) (F := a.length + b.length + 1) (by omega) (a.length + b.length + 1) (by omega) r
  have hb := wktVisit_behaves hpe (blob := b) (F := a.length + b.length + 1) (by omega) (a.length + b.length + 1) (by omega) r'
  have hs := Par.feature parse (a.length + b.length + 1) (a.length + b.length + 1) () _ _ h
  generalize tkFeature parse (a.length + b.length + 1) (a.length + b.length + 1) () (lex a) = ra at ha hs
  generalize tkFeature parse (a.length + b.length + 1) (a.length + b.length + 1) () (lex b) = rb at hb hs
  cases hs with
  | none t' =>
    rcases ha with ⟨h1, _⟩ | ⟨_, h1⟩
    · cases h1
    rcases hb with ⟨h2, _⟩ | ⟨_, h2⟩
    · cases h2
    constructor
    · intro hh
      obtain ⟨rfl, rfl⟩ := h1.unique hh (by simp)
      exact h2
    · intro hh
      obtain ⟨rfl, rfl⟩ := h2.unique hh (by simp)
      exact h1
  | some t' x _ =>
    rcases ha with ⟨_, h1⟩ | ⟨h1, _⟩
    case inr => cases h1
    rcases hb with ⟨_, h2⟩ | ⟨h2, _⟩
    case inr => cases h2
    constructor
    · intro hh
      obtain ⟨rfl, rfl⟩ := h1.unique hh (by simp)
      exact h2
    · intro hh
      obtain ⟨rfl, rfl⟩ := h2.unique hh (by simp)
      exact h1

end Verif
