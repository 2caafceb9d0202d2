import Verif.Proof.WktSound
import Verif.Proof.WktRound
import Verif.Proof.WktSpacing
import Verif.Props.WktWriter
/-!
# Theorems about the WKT reader (C11, C26 to C29)

`parse` is the number parser: what number a word stands for, if any. Of it we assume that the empty word is not a number
(`hpe`, wkt_reader.c only passes what the parser must reject) and, where a text has to be accepted, that no number begins
with `E` (`hE`), so that `EMPTY` is not taken for one.
-/
namespace Verif
open Spec

/-- A number parser for the examples. -/
def exParse (w : List Byte) : Option Dbl :=
  if w = str "1" then some dbl1 else if w = str "2" then some dbl2 else if w = str "3" then some dbl3
  else if w = str "4" then some dbl4 else none

theorem exParse_nil : exParse [] = none := by decide

theorem exParse_E (w : List Byte) : exParse (69 :: w) = none := by
  have h : ∀ c : Byte, c ≠ 69 → ¬ (69 :: w = [c]) := by
    intro c hc h
    exact hc (List.cons.inj h).1.symm
  unfold exParse
  rw [show str "1" = [49] from rfl, show str "2" = [50] from rfl, show str "3" = [51] from rfl, show str "4" = [52] from rfl,
    if_neg (h _ (by decide)), if_neg (h _ (by decide)), if_neg (h _ (by decide)), if_neg (h _ (by decide))]

/-- A new reader with arbitrary leftovers. -/
def exWktR : WktR := { pos := 7, left := -3, nv := 9, n := 100, coords := fun _ => 0 }

/-! ## C26 and C11 -/

/-- Every text is either read to the end or rejected with `EINVAL`; nothing outside the text is accessed and reading always
ends (in the model, access outside the text and not ending are `crash`). -/
theorem C26_no_undefined_behaviour {parse : List Byte → Option Dbl} (hpe : parse [] = none) (blob : List Byte) (r : WktR) :
    ∃ t o, Behaves (fun _ h => wktVisit parse blob h r) t o ∧ (o = .done () ∨ o = .fail EINVAL) := by
  rcases wktVisit_behaves hpe (blob := blob) (F := blob.length + 1) (by omega) (blob.length + 1) (by omega) r with ⟨_, h⟩ | ⟨_, h⟩
  · exact ⟨_, _, h, Or.inl rfl⟩
  · exact ⟨_, _, h, Or.inr rfl⟩

theorem feed_safe {σ : Type} {h : Handler σ} (hs : ∀ e s, h e s ≠ .ub) : ∀ (t : List Event) (s : σ), feed h t s ≠ .ub
  | [], s => by simp [feed, M.pure_run]
  | e :: t, s => by
    cases he : h e s with
    | ok a s' =>
      rw [feed_cons_ok he]
      exact feed_safe hs t s'
    | err rc s' =>
      simp [feed, he]
    | ub => exact (hs e s he).elim

/-- The same, in terms of running the reader with any visitor that is itself safe. -/
theorem C26_safe_with_any_visitor {parse : List Byte → Option Dbl} (hpe : parse [] = none) (blob : List Byte) (r : WktR)
    {σ : Type} (h : Handler σ) (hs : ∀ e s, h e s ≠ .ub) (s : σ) : wktVisit parse blob h r s ≠ .ub := by
  obtain ⟨t, o, hb, ho⟩ := C26_no_undefined_behaviour hpe blob r
  have hb := hb σ h s
  simp only [] at hb
  rw [hb, replay]
  cases hf : feed h t s with
  | ok a s' =>
    rcases ho with rfl | rfl <;> simp [Outcome.toM]
  | err rc s' => simp
  | ub => exact (feed_safe hs t s hf).elim

example : ∃ t, Behaves (fun _ h => wktVisit exParse (str "MULTIPOINT ((1 2), EMPTY") h exWktR) t (.fail EINVAL) ∧ t ≠ [] := by
  obtain ⟨t, o, h, ho⟩ := C26_no_undefined_behaviour exParse_nil (str "MULTIPOINT ((1 2), EMPTY") exWktR
  have hr := h.record
  rcases ho with rfl | rfl
  · exact absurd hr (by
      intro he
      have : (match wktVisit exParse (str "MULTIPOINT ((1 2), EMPTY") recorder exWktR [] with | .ok _ _ => true | _ => false) = false := by
        decide +kernel
      rw [he] at this
      cases this)
  · refine ⟨t, h, ?_⟩
    rintro rfl
    have : (match wktVisit exParse (str "MULTIPOINT ((1 2), EMPTY") recorder exWktR [] with | .err _ s => s.isEmpty | _ => true) = false := by
      decide +kernel
    rw [hr] at this
    cases this

/-- For every text the callbacks and the outcome are fixed; a failing callback's code is returned as is, at once. -/
theorem C11_wkt_visit {parse : List Byte → Option Dbl} (hpe : parse [] = none) (blob : List Byte) (r : WktR) :
    ∃ t o, Behaves (fun _ h => wktVisit parse blob h r) t o :=
  let ⟨t, o, h, _⟩ := C26_no_undefined_behaviour hpe blob r
  ⟨t, o, h⟩

/-- What the reader was used for before, successfully or not, makes no difference. -/
theorem C11_wkt_reader_reusable {parse : List Byte → Option Dbl} (hpe : parse [] = none) (blob : List Byte) (r r' : WktR)
    {σ : Type} (h : Handler σ) (s : σ) : wktVisit parse blob h r s = wktVisit parse blob h r' s := by
  obtain ⟨t, o, hb, _⟩ := C26_no_undefined_behaviour hpe blob r
  have hb' := (near_behaves hpe (P := False) ⟨Near.refl _ _, False.elim⟩ r r' t o).mp hb
  have e1 := hb σ h s
  have e2 := hb' σ h s
  simp only [] at e1 e2
  rw [e1, e2]

example (s : List Event) : wktVisit exParse (str "POINT (1 2)") recorder exWktR s =
    wktVisit exParse (str "POINT (1 2)") recorder { exWktR with n := 3, left := 0 } s :=
  C11_wkt_reader_reusable exParse_nil _ _ _ _ _

/-! ## C28 -/

/-- If reading succeeds, the text is that of a geometry according to the grammar, and the callbacks are those of one feature
with that geometry: everything started is ended, rings only inside polygons, and all coordinates with the announced number
of ordinates (`g.WF`). -/
theorem C28_success {parse : List Byte → Option Dbl} (hpe : parse [] = none) {blob : List Byte} {r : WktR} {t : List Event}
    (h : Behaves (fun _ h => wktVisit parse blob h r) t (.done ())) :
    ∃ g, GeomToks parse g (lex blob) ∧ FeatureTrace g t ∧ g.WF := by
  rcases wktVisit_behaves hpe (blob := blob) (F := blob.length + 1) (by omega) (blob.length + 1) (by omega) r with ⟨h1, h2⟩ | ⟨_, h2⟩
  · obtain ⟨rfl, _⟩ := h2.unique h (by simp)
    obtain ⟨⟨x', ts'⟩, hx⟩ := Option.isSome_iff_exists.mp h1
    exact (feature_sound (blob.length + 1) (blob.length + 1) (lex blob)).1 _ x' ts' (Prod.ext rfl hx)
  · have := (h2.unique h (by simp)).2
    cases this

/-- If reading fails by itself, it is with `EINVAL` and the callbacks made begin the callbacks of a feature. -/
theorem C28_failure {parse : List Byte → Option Dbl} (hpe : parse [] = none) {blob : List Byte} {r : WktR} {t : List Event} {rc : Code}
    (h : Behaves (fun _ h => wktVisit parse blob h r) t (.fail rc)) :
    rc = EINVAL ∧ ∃ g t2, FeatureTrace g (t ++ t2) ∧ g.WF := by
  rcases wktVisit_behaves hpe (blob := blob) (F := blob.length + 1) (by omega) (blob.length + 1) (by omega) r with ⟨_, h2⟩ | ⟨h1, h2⟩
  · have := (h2.unique h (by simp)).2
    cases this
  · obtain ⟨rfl, h3⟩ := h2.unique h (by simp)
    cases h3
    exact ⟨rfl, (feature_sound (blob.length + 1) (blob.length + 1) (lex blob)).2 _ (Prod.ext rfl h1)⟩

/-- Every text the grammar allows for a geometry is read, as that geometry. -/
theorem C28_complete {parse : List Byte → Option Dbl} (hpe : parse [] = none) (hE : ∀ w, parse (69 :: w) = none)
    {blob : List Byte} {g : Geom} (hg : GeomToks parse g (lex blob)) (r : WktR) :
    ∃ t, Behaves (fun _ h => wktVisit parse blob h r) t (.done ()) ∧ FeatureTrace g t ∧ g.WF := by
  have hl := lex_length blob
  obtain ⟨t, h1, h2⟩ := feature_cpl hE (F := blob.length + 1) (f := blob.length + 1) (Nat.le_refl _) hg (by omega)
  rcases wktVisit_behaves hpe (blob := blob) (F := blob.length + 1) (by omega) (blob.length + 1) (by omega) r with ⟨_, h⟩ | ⟨h, _⟩
  · rw [h1] at h
    exact ⟨t, h, h2⟩
  · rw [h1] at h; cases h

/-- The texts that are read are exactly those the grammar allows. -/
theorem C28_accepts_exactly_the_grammar {parse : List Byte → Option Dbl} (hpe : parse [] = none) (hE : ∀ w, parse (69 :: w) = none)
    (blob : List Byte) (r : WktR) :
    (∃ t, Behaves (fun _ h => wktVisit parse blob h r) t (.done ())) ↔ ∃ g, GeomToks parse g (lex blob) := by
  constructor
  · rintro ⟨t, h⟩
    obtain ⟨g, hg, _⟩ := C28_success hpe h
    exact ⟨g, hg⟩
  · rintro ⟨g, hg⟩
    obtain ⟨t, h, _⟩ := C28_complete hpe hE hg r
    exact ⟨t, h⟩

/-- Everything from the first NUL character on is ignored. -/
theorem C28_nul_ends_the_text {parse : List Byte → Option Dbl} (hpe : parse [] = none) (a b : List Byte) (r : WktR)
    (t : List Event) (o : Outcome Unit) :
    Behaves (fun _ h => wktVisit parse (a ++ 0 :: b) h r) t o ↔ Behaves (fun _ h => wktVisit parse a h r) t o := by
  have key : ∀ (a acc : List Byte), lexFrom acc (a ++ 0 :: b) = lexFrom acc a := by
    intro a
    induction a with
    | nil => intro acc; simp [lexFrom]
    | cons c a ih =>
      intro acc
      rw [List.cons_append]
      simp only [lexFrom, ih]
      by_cases h0 : c = 0
      · rw [if_pos h0, if_pos h0]
      rw [if_neg h0, if_neg h0]
      cases a with
      | nil => rfl
      | cons y ys => rfl
  refine near_behaves hpe (P := False) ⟨?_, False.elim⟩ r r t o
  rw [show lex (a ++ 0 :: b) = lex a from key a []]
  exact Near.refl _ _

/-- The text of the examples: all features of the grammar. -/
def exWkt : List Byte :=
  str "GEOMETRYCOLLECTION Z(MULTIPOINT Z (1 2 3,\t4 4 4), POLYGON Z ((1 1 1, 2 4 1) , EMPTY ), LINESTRING EMPTY, MULTIPOINT ( (1 2) , EMPTY))"

def exWktGeom : Geom :=
  .multi .collection .xyz [.multi .multipoint .xyz [.point .xyz [[dbl1, dbl2, dbl3]], .point .xyz [[dbl4, dbl4, dbl4]]],
    .polygon .xyz [[[dbl1, dbl1, dbl1], [dbl2, dbl4, dbl1]], []], .linestring .xy [],
    .multi .multipoint .xy [.point .xy [[dbl1, dbl2]], .point .xy []]]

example : ∃ t g, Behaves (fun _ h => wktVisit exParse exWkt h exWktR) t (.done ()) ∧ FeatureTrace g t ∧ t.length = 28 := by
  obtain ⟨t, o, h, ho⟩ := C26_no_undefined_behaviour exParse_nil exWkt exWktR
  have hr := h.record
  have h1 : (match wktVisit exParse exWkt recorder exWktR [] with | .ok _ s => s.length | _ => 0) = 28 := by decide +kernel
  rw [hr] at h1
  rcases ho with rfl | rfl
  · obtain ⟨g, _, hg, _⟩ := C28_success exParse_nil h
    exact ⟨t, g, h, hg, by simpa [Outcome.toM, M.pure_run] using h1⟩
  · simp [Outcome.toM, M.fail] at h1

/-! ## C27 -/

/-- In the style with parentheses around every point, the text of a geometry is read as the geometry, if its numbers survive
printing and parsing. Points have at most one coordinate and members fit their container (`Uniform`): other trees have no
well-known text. -/
theorem C27_round_trip {parse : List Byte → Option Dbl} (hpe : parse [] = none) (hE : ∀ w, parse (69 :: w) = none)
    {pr : Dbl → List Byte} {g : Geom} (hn : g.Ordinates (PrintsWords parse pr)) (hw : g.WF) (hu : g.Uniform) (hs : g.SinglePoints)
    (r : WktR) :
    ∃ t, Behaves (fun _ h => wktVisit parse (wktText pr false g) h r) t (.done ()) ∧ FeatureTrace g t := by
  obtain ⟨t, h1, h2, _⟩ := C28_complete hpe hE (wktText_toks false hw hu hs (fun h => by cases h) hn) r
  exact ⟨t, h1, h2⟩

/-- In the flat style the same holds if no multipoint has both empty and other points.

Partial: the property asks for all geometries; see `C27_mixed_flat_multipoint`. -/
theorem C27_round_trip_flat_partial {parse : List Byte → Option Dbl} (hpe : parse [] = none) (hE : ∀ w, parse (69 :: w) = none)
    {pr : Dbl → List Byte} {g : Geom} (hn : g.Ordinates (PrintsWords parse pr)) (hw : g.WF) (hu : g.Uniform) (hs : g.SinglePoints)
    (hf : g.FlatReadable) (r : WktR) :
    ∃ t, Behaves (fun _ h => wktVisit parse (wktText pr true g) h r) t (.done ()) ∧ FeatureTrace g t := by
  obtain ⟨t, h1, h2, _⟩ := C28_complete hpe hE (wktText_toks true hw hu hs (fun _ => hf) hn) r
  exact ⟨t, h1, h2⟩

mutual
theorem uniform_typed : ∀ (g : Geom), g.Uniform → g.Typed
  | .point _ _, _ => by simp only [Geom.Typed]
  | .linestring _ _, _ => by simp only [Geom.Typed]
  | .polygon _ _, _ => by simp only [Geom.Typed]
  | .multi k d ps, h => by
    simp only [Geom.Uniform] at h
    simp only [Geom.Typed]
    exact uniform_typedL k d ps h
theorem uniform_typedL (k : MultiKind) (d : Dims) : ∀ (ps : List Geom), Geom.UniformL k d ps → Geom.TypedL k ps
  | [], _ => by simp only [Geom.TypedL]
  | g :: gs, h => by
    simp only [Geom.UniformL] at h
    simp only [Geom.TypedL]
    refine ⟨?_, uniform_typed g h.2.1, uniform_typedL k d gs h.2.2⟩
    have h1 := h.1
    cases k <;> cases g <;> simp only [FitsMember] at h1 ⊢
end

/-- Writing with the writer and reading what it wrote with the reader: the callbacks of the geometry come back.

Partial: in the flat style for the geometries of `C27_round_trip_flat_partial`. -/
theorem C27_write_then_read_partial {parse : List Byte → Option Dbl} (hpe : parse [] = none) (hE : ∀ w, parse (69 :: w) = none)
    {print : Nat → Dbl → List Byte} (hp : ∀ n x, (print n x).length ≤ 40) {g : Geom} {t : List Event} (ht : FeatureTrace g t)
    (hw : g.WF) (hu : g.Uniform) (hs : g.SinglePoints) (hh : g.height ≤ 31) (raw : WktW) (prec : Int) (flat : Bool)
    (hn : g.Ordinates (PrintsWords parse (print (wktInitVisitor prec flat (-1) (wktInit raw)).precision)))
    (hf : flat = true → g.FlatReadable) (r : WktR) :
    ∃ s' t', feed (wktHandler print) t (wktInitVisitor prec flat (-1) (wktInit raw)) = .ok () s' ∧
      Behaves (fun _ h => wktVisit parse s'.values h r) t' (.done ()) ∧ FeatureTrace g t' := by
  obtain ⟨s', h1, h2⟩ := C23_writes_wkt hp ht hw (uniform_typed g hu) hh (wktInitVisitor prec flat (-1) (wktInit raw)) (show (-1 : Int) < 0 by decide) (Nat.zero_le _)
  have h3 : s'.values = wktText (print (wktInitVisitor prec flat (-1) (wktInit raw)).precision) flat g := h2
  obtain ⟨t', h4, h5, _⟩ := C28_complete hpe hE (wktText_toks flat hw hu hs hf hn) r
  exact ⟨s', t', h1, by rw [h3]; exact h4, h5⟩

theorem exPrint_words {x : Dbl} (h : x = dbl1 ∨ x = dbl2 ∨ x = dbl3 ∨ x = dbl4) (n : Nat) : PrintsWords exParse (exPrint n) x := by
  show PrintsWords exParse (exPrint 0) x
  rcases h with rfl | rfl | rfl | rfl <;> exact ⟨⟨by decide +kernel, by decide +kernel⟩, by decide +kernel⟩

theorem exWktGeom_words (n : Nat) : exWktGeom.Ordinates (PrintsWords exParse (exPrint n)) := by
  have h1 := exPrint_words (Or.inl rfl) n
  have h2 := exPrint_words (Or.inr (Or.inl rfl)) n
  have h3 := exPrint_words (Or.inr (Or.inr (Or.inl rfl))) n
  have h4 := exPrint_words (Or.inr (Or.inr (Or.inr rfl))) n
  simp [exWktGeom, Geom.Ordinates, Geom.OrdinatesL, h1, h2, h3, h4]

/-- The hypotheses of `C27_round_trip` are met by the example. -/
example : ∃ t, Behaves (fun _ h => wktVisit exParse (wktText (exPrint 3) false exWktGeom) h exWktR) t (.done ()) ∧ FeatureTrace exWktGeom t :=
  C27_round_trip exParse_nil exParse_E (exWktGeom_words 3) (by simp [exWktGeom, Geom.WF, Geom.WFL, Dims.n])
    (by simp [exWktGeom, Geom.Uniform, Geom.UniformL, FitsMember]) (by simp [exWktGeom, Geom.SinglePoints, Geom.SinglePointsL]) exWktR

example : (Geom.multi .collection .xyz [.multi .multipoint .xy [.point .xy [[dbl1, dbl2]], .point .xy [[dbl3, dbl4]]],
    .multi .multipoint .xy [.point .xy []]]).FlatReadable := by
  simp [Geom.FlatReadable, Geom.FlatReadableL, Geom.EmptyPoint]

/-- In the flat style a multipoint with an empty and another point is not read back. -/
theorem C27_mixed_flat_multipoint :
    ∃ g : Geom, g.WF ∧ g.Uniform ∧ g.SinglePoints ∧ g.Ordinates (PrintsWords exParse (exPrint 3)) ∧
      wktText (exPrint 3) true g = str "MULTIPOINT (1 2, EMPTY)" ∧
      ∃ t, Behaves (fun _ h => wktVisit exParse (wktText (exPrint 3) true g) h exWktR) t (.fail EINVAL) := by
  refine ⟨.multi .multipoint .xy [.point .xy [[dbl1, dbl2]], .point .xy []], by simp [Geom.WF, Geom.WFL, Dims.n],
    by simp [Geom.Uniform, Geom.UniformL, FitsMember], by simp [Geom.SinglePoints, Geom.SinglePointsL], ?_, by decide +kernel, ?_⟩
  · have h1 := exPrint_words (Or.inl rfl) 3
    have h2 := exPrint_words (Or.inr (Or.inl rfl)) 3
    simp [Geom.Ordinates, Geom.OrdinatesL, h1, h2]
  · have ht : wktText (exPrint 3) true (.multi .multipoint .xy [.point .xy [[dbl1, dbl2]], .point .xy []]) = str "MULTIPOINT (1 2, EMPTY)" := by
      decide +kernel
    rw [ht]
    obtain ⟨t, o, h, ho⟩ := C26_no_undefined_behaviour exParse_nil (str "MULTIPOINT (1 2, EMPTY)") exWktR
    rcases ho with rfl | rfl
    · have : (match wktVisit exParse (str "MULTIPOINT (1 2, EMPTY)") recorder exWktR [] with | .ok _ _ => true | _ => false) = false := by
        decide +kernel
      rw [h.record] at this
      cases this
    · exact ⟨t, h⟩

/-! ## C29 -/

theorem not_word_of_break {c : Byte} (h : isBreak c = true) : isWordChar c = false := by
  simp only [isBreak, Bool.or_eq_true, decide_eq_true_eq] at h
  simp only [isWordChar, Bool.not_eq_false', Bool.or_eq_true, decide_eq_true_eq]
  rcases h with ((h | h) | h) | h
  · exact Or.inl (Or.inl (Or.inr h))
  · exact Or.inl (Or.inr h)
  · exact Or.inr h
  · exact Or.inl (Or.inl (Or.inl (Or.inr h)))

/-- Whitespace inserted at an end of the text or next to a parenthesis, a comma or other whitespace changes neither acceptance
nor what is delivered, unless it is inserted right after an opening parenthesis that is followed by something other than a
parenthesis or `E`, in a text with a multipoint.

Partial: the property makes no exception; see `C29_space_in_flat_multipoint`. -/
theorem C29_spacing_partial {parse : List Byte → Option Dbl} (hpe : parse [] = none) (a ws b : List Byte)
    (hws : ∀ c ∈ ws, isSpace c = true) (hb : Boundary a b)
    (hm : a.getLast? = some 40 →
      ((b.dropWhile isSpace).head? = some 40 ∨ (b.dropWhile isSpace).head? = some 69) ∨ Tok.word (str "MULTIPOINT") ∉ lex (a ++ b))
    (r r' : WktR) (t : List Event) (o : Outcome Unit) :
    Behaves (fun _ h => wktVisit parse (a ++ ws ++ b) h r) t o ↔ Behaves (fun _ h => wktVisit parse (a ++ b) h r') t o := by
  refine (near_behaves hpe (P := Tok.word (str "MULTIPOINT") ∉ lex (a ++ b)) ⟨?_, id⟩ r' r t o).symm
  rw [List.append_assoc]
  refine near_lexFrom hws b a [] ?_ (fun h => ?_)
  · rcases hb with h | h | ⟨c, h1, h2⟩ | ⟨c, h1, h2⟩
    · exact Or.inr (Or.inr ⟨h, rfl⟩)
    · subst h; exact Or.inr (Or.inl rfl)
    · exact Or.inl ⟨c, h1, not_word_of_break h2⟩
    · cases b with
      | nil => cases h1
      | cons x xs =>
        cases h1
        exact Or.inr (Or.inl (by simp [startsEdge, not_word_of_break h2]))
  · rcases hm h with h | h
    · exact Or.inr (verbose_of_head h)
    · exact Or.inl h

/-- The hypotheses are met by inserting before and after every parenthesis and comma of this text. -/
example (t : List Event) (o : Outcome Unit) :
    Behaves (fun _ h => wktVisit exParse (str "POLYGON (" ++ str " \t" ++ str "(1 2, 3 4))") h exWktR) t o ↔
    Behaves (fun _ h => wktVisit exParse (str "POLYGON (" ++ str "(1 2, 3 4))") h exWktR) t o :=
  C29_spacing_partial exParse_nil _ _ _ (by decide) (Or.inr (Or.inr (Or.inl ⟨40, by decide, by decide⟩)))
    (fun _ => Or.inl (Or.inl (by decide))) _ _ _ _

example (t : List Event) (o : Outcome Unit) :
    Behaves (fun _ h => wktVisit exParse (str "MULTIPOINT (1 2" ++ str "\n" ++ str ", 3 4)") h exWktR) t o ↔
    Behaves (fun _ h => wktVisit exParse (str "MULTIPOINT (1 2" ++ str ", 3 4)") h exWktR) t o :=
  C29_spacing_partial exParse_nil _ _ _ (by decide) (Or.inr (Or.inr (Or.inr ⟨44, by decide, by decide⟩)))
    (fun h => absurd h (by decide)) _ _ _ _

theorem exWkt_outcome (text : List Byte) (ok : Bool)
    (h : (match wktVisit exParse text recorder exWktR [] with | .ok _ _ => true | _ => false) = ok) :
    ∃ t, Behaves (fun _ h => wktVisit exParse text h exWktR) t (if ok then .done () else .fail EINVAL) := by
  obtain ⟨t, o, hb, ho⟩ := C26_no_undefined_behaviour exParse_nil text exWktR
  rw [hb.record] at h
  rcases ho with rfl | rfl
  · cases h; exact ⟨t, hb⟩
  · cases h; exact ⟨t, hb⟩

/-- A space after the opening parenthesis of a flat multipoint makes the reader reject it. -/
theorem C29_space_in_flat_multipoint :
    (∃ t, Behaves (fun _ h => wktVisit exParse (str "MULTIPOINT (1 2)") h exWktR) t (.done ())) ∧
    (∃ t, Behaves (fun _ h => wktVisit exParse (str "MULTIPOINT ( 1 2)") h exWktR) t (.fail EINVAL)) :=
  ⟨exWkt_outcome _ true (by decide +kernel), exWkt_outcome _ false (by decide +kernel)⟩

end Verif
