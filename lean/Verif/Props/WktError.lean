import Verif.Spec.WktError
import Verif.Proof.WktErrorTop
import Verif.Proof.WktErrorLocal
import Verif.Props.WktReader
/-!
# C81: an error message about well-known text says where the text goes wrong, and what would have been right

`parse` is the number parser; it is assumed not to accept nothing (`hpe`), words beginning with `E` (`hE`), and to accept some
word (`hnum`).
-/
namespace Verif
open Spec

/-- A visitor that accepts everything. -/
def yesMan : Handler Unit := fun _ s => .ok () s

theorem feature_not_ub {parse : List Byte → Option Dbl} (hpe : parse [] = none) (blob : List Byte) (r : WktR) :
    epFeature parse blob (blob.length + 1) { r with pos := 0, left := blob.length } ≠ .ub := by
  intro hu
  have ha := epagree_feature (parse := parse) (blob := blob) (h := yesMan) (fun _ s => ⟨s, rfl⟩) (blob.length + 1)
    { r with pos := 0, left := blob.length } ()
  rw [hu] at ha
  refine C26_safe_with_any_visitor hpe blob r yesMan (fun _ _ h => by cases h) () ?_
  unfold wktVisit
  exact M.bind_ub ha

/-- There is a message exactly if the text is rejected, whatever visitor is used, as long as the visitor does not fail. -/
theorem C81_message_iff_rejected {parse : List Byte → Option Dbl} (hpe : parse [] = none) (blob : List Byte) (r : WktR) {σ : Type}
    (h : Handler σ) (hh : ∀ e s, ∃ s', h e s = .ok () s') (s : σ) :
    (wktMessage parse blob r = none ∧ ∃ s', wktVisit parse blob h r s = .ok () s') ∨
    ((wktMessage parse blob r).isSome ∧ ∃ rc s', wktVisit parse blob h r s = .err rc s') := by
  have ha := epagree_feature (parse := parse) (blob := blob) hh (blob.length + 1) { r with pos := 0, left := blob.length } s
  have hu := feature_not_ub hpe blob r
  unfold wktMessage wktVisit
  cases he : epFeature parse blob (blob.length + 1) { r with pos := 0, left := blob.length } with
  | ub => exact absurd he hu
  | ok a r' =>
    rw [he] at ha
    obtain ⟨s', hs⟩ := ha
    exact Or.inl ⟨rfl, s', by rw [M.bind_ok hs]; rfl⟩
  | err w k =>
    rw [he] at ha
    obtain ⟨rc, s', hs⟩ := ha
    exact Or.inr ⟨rfl, rc, s', M.bind_err hs⟩

theorem wordChar_iff (c : Byte) : isWordChar c = (!(decide (c = 0) || isBreak c)) := by
  unfold isWordChar isBreak
  rw [Bool.eq_iff_iff]
  simp only [Bool.not_eq_true', Bool.or_eq_false_iff]
  constructor
  · rintro ⟨⟨⟨⟨a, b⟩, c⟩, d⟩, e⟩; exact ⟨a, ⟨⟨c, d⟩, e⟩, b⟩
  · rintro ⟨a, ⟨⟨c, d⟩, e⟩, b⟩; exact ⟨⟨⟨⟨a, b⟩, c⟩, d⟩, e⟩

theorem writeToks_word_break (w : List Byte) (ts : List Tok) : ∃ rest, writeToks (.word w :: ts) = w ++ rest ∧
    (rest = [] ∨ ∃ x, rest.head? = some x ∧ isBreak x = true) := by
  cases ts with
  | nil => exact ⟨[], rfl, Or.inl rfl⟩
  | cons t' ts' => cases t' <;> exact ⟨_, rfl, Or.inr ⟨_, rfl, by decide⟩⟩

/-- The part of the text before the byte in the message can be continued to well-known text, and the continuation begins with
what the message says was expected. -/
theorem C81_could_have_gone_on {parse : List Byte → Option Dbl} (hpe : parse [] = none)
    (hnum : ∃ n, IsWord n ∧ (parse n).isSome) {blob : List Byte} {r : WktR} {w : WkWant} {k : Nat}
    (hm : wktMessage parse blob r = some (w, k)) :
    k ≤ blob.length ∧ ∃ c g, BeginsAsWanted parse w c ∧ GeomToks parse g (lex (blob.take k ++ c)) := by
  obtain ⟨n, hn1, hn2⟩ := hnum
  have hw0 : ANumber parse n := by
    refine ⟨hn2, hn1.1, fun c hc => ?_⟩
    obtain ⟨q0, q1, q2, q3, q4⟩ := hn1.2 c hc
    simp only [isWordChar, q1, Bool.or_false, Bool.not_eq_true', Bool.or_eq_false_iff, decide_eq_false_iff_not]
    exact ⟨⟨⟨q0, q2⟩, q3⟩, q4⟩
  unfold wktMessage at hm
  cases he : epFeature parse blob (blob.length + 1) { r with pos := 0, left := blob.length } with
  | ok a r' => rw [he] at hm; cases hm
  | ub => rw [he] at hm; cases hm
  | err w' k' =>
    rw [he] at hm
    cases hm
    obtain ⟨hk, hr⟩ := epfeature_run hpe hw0 he
    refine ⟨hk, ?_⟩
    rcases hr with ⟨rfl, g, hg⟩ | ⟨t1, t2, h1, ⟨g, hg⟩, h3, h4⟩
    · exact ⟨[], g, rfl, by rw [List.append_nil]; exact hg⟩
    have key : ∀ c, FollowOk (blob.take k) c → lex c = t2 → BeginsAsWanted parse w c →
        ∃ c g, BeginsAsWanted parse w c ∧ GeomToks parse g (lex (blob.take k ++ c)) := by
      intro c hf hl hb
      exact ⟨c, g, hb, by rw [h1 c hf, hl]; exact hg⟩
    have hlex := lex_writeToks h3
    cases w with
    | endOfInput => exact h4.elim
    | internal => exact h4.elim
    | char x =>
      obtain ⟨tl, ⟨rfl, rfl⟩ | ⟨hx, rfl⟩⟩ := h4
      · exact key _ (follow_punct _ (Or.inl rfl) _) hlex rfl
      · rcases hx with rfl | rfl
        · exact key _ (follow_punct _ (Or.inr (Or.inl rfl)) _) hlex rfl
        · exact key _ (follow_punct _ (Or.inr (Or.inr rfl)) _) hlex rfl
    | openingOrEmpty =>
      obtain ⟨tl, rfl⟩ := h4
      exact key _ (follow_punct _ (Or.inl rfl) _) hlex rfl
    | whitespace =>
      obtain ⟨hw, v, tl, rfl, hv⟩ := h4
      refine key (32 :: writeToks (.word v :: tl)) ⟨fun _ => rfl, fun ho => ?_⟩ (by rw [lex_space (by rfl)]; exact hlex) ⟨32, _, rfl, rfl⟩
      obtain ⟨x, hx, hxw⟩ := hw
      rw [ho] at hx
      cases hx
      cases hxw
    | number =>
      obtain ⟨hw, v, tl, rfl, hv⟩ := h4
      have hvw := h3 (.word v) (by simp)
      obtain ⟨rest, e1, e2⟩ := writeToks_word_break v tl
      refine key _ ⟨fun h => absurd h hw, fun _ => writeToks_tight h3⟩ hlex ⟨v, rest, e1, hvw.1, hv, e2⟩
    | geometryType =>
      obtain ⟨hw, tl, rfl⟩ := h4
      obtain ⟨rest, e1, _⟩ := writeToks_word_break (str "POINT") tl
      exact key _ ⟨fun h => absurd h hw, fun _ => writeToks_tight h3⟩ hlex ⟨rest, e1⟩

/-- The same in terms of reading: with that continuation, the text is read, by any reader and for any visitor that does not fail. -/
theorem C81_continued_text_is_read {parse : List Byte → Option Dbl} (hpe : parse [] = none) (hE : ∀ w, parse (69 :: w) = none)
    (hnum : ∃ n, IsWord n ∧ (parse n).isSome) {blob : List Byte} {r : WktR} {w : WkWant} {k : Nat}
    (hm : wktMessage parse blob r = some (w, k)) :
    ∃ c, BeginsAsWanted parse w c ∧ ∀ (r' : WktR) (σ : Type) (h : Handler σ), (∀ e s, ∃ s', h e s = .ok () s') → ∀ s,
      ∃ s', wktVisit parse (blob.take k ++ c) h r' s = .ok () s' := by
  obtain ⟨_, c, g, hb, hg⟩ := C81_could_have_gone_on hpe hnum hm
  refine ⟨c, hb, fun r' σ h hh s => ?_⟩
  rcases C81_message_iff_rejected hpe (blob.take k ++ c) r' h hh s with ⟨_, h1⟩ | ⟨_, rc, s1, h1⟩
  · exact h1
  · obtain ⟨t, ht, _⟩ := C28_complete hpe hE hg r'
    have hrun := ht σ h s
    have hfeed : ∀ (t : List Event) (s : σ), ∃ s', feed h t s = .ok () s' := by
      intro t
      induction t with
      | nil => intro s; exact ⟨s, rfl⟩
      | cons e t ih =>
        intro s
        obtain ⟨s1, h1⟩ := hh e s
        obtain ⟨s2, h2⟩ := ih s1
        exact ⟨s2, by rw [feed_cons_ok h1]; exact h2⟩
    obtain ⟨s2, h2⟩ := hfeed t s
    rw [replay, h2] at hrun
    exact ⟨s2, hrun⟩

theorem tokenEnd_eq (t : List Byte) (k : Nat) : tokenEnd t k = tokEnd t k := by
  unfold tokenEnd tokEnd
  rw [show isWordChar = fun c => !(decide (c = 0) || isBreak c) from funext wordChar_iff]

/-- The mistake is there: every text that begins the same way, up to the end of the token at the byte in the message and one
byte more, is rejected, with the same message, by a reader in any state. -/
theorem C81_mistake_is_there {parse : List Byte → Option Dbl} (hpe : parse [] = none) {p x : List Byte} {r : WktR} {w : WkWant} {k : Nat}
    (hm : wktMessage parse (p ++ x) r = some (w, k)) (hk : tokenEnd (p ++ x) k < p.length) (y : List Byte) (r' : WktR) :
    wktMessage parse (p ++ y) r' = some (w, k) := by
  rw [tokenEnd_eq] at hk
  have hl := loc_feature (p := p) (x := x) (y := y) (parse := parse) ((p ++ x).length + 1) ((p ++ y).length + 1)
    { r with pos := 0, left := (p ++ x).length } ⟨Nat.zero_le _, by simp⟩ trivial
  have hu := feature_not_ub hpe (p ++ y) r'
  unfold wktMessage at hm ⊢
  cases he : epFeature parse (p ++ x) ((p ++ x).length + 1) { r with pos := 0, left := (p ++ x).length } with
  | ok a r1 => rw [he] at hm; cases hm
  | ub => rw [he] at hm; cases hm
  | err w' k' =>
    rw [he] at hm hl
    cases hm
    rcases hl.2 hk { r' with pos := 0, left := (p ++ y).length } ⟨rfl, ⟨Nat.zero_le _, by simp⟩, False.elim⟩ with g | g
    · exact absurd g hu
    · rw [g]

/-- Put together: what is before the byte in the message is right, as it can be continued; what is at that byte is wrong, as no
continuation of it is read, whatever visitor is used. -/
theorem C81_no_continuation_is_read {parse : List Byte → Option Dbl} (hpe : parse [] = none) {p x : List Byte} {r : WktR} {w : WkWant} {k : Nat}
    (hm : wktMessage parse (p ++ x) r = some (w, k)) (hk : tokenEnd (p ++ x) k < p.length) (y : List Byte) (r' : WktR) {σ : Type}
    (h : Handler σ) (hh : ∀ e s, ∃ s', h e s = .ok () s') (s : σ) : ∃ rc s', wktVisit parse (p ++ y) h r' s = .err rc s' := by
  rcases C81_message_iff_rejected hpe (p ++ y) r' h hh s with ⟨h1, _⟩ | ⟨_, h1⟩
  · rw [C81_mistake_is_there hpe hm hk y r'] at h1; cases h1
  · exact h1

example : tokenEnd (str "LINESTRING (1 2, 3 x4, 5 6)") 19 < (str "LINESTRING (1 2, 3 x4,").length ∧
    wktMessage exParse (str "LINESTRING (1 2, 3 x4, 5 6)") exWktR = some (.number, 19) := by decide +kernel

/-- Non-vacuous: messages of all kinds, among them one about a byte in the middle of nested text. -/
example : wktMessage exParse (str "GEOMETRYCOLLECTION (POINT (1 x))") exWktR = some (.number, 29) := by decide +kernel
example : wktMessage exParse (str "POINT Z (1 2)") exWktR = some (.whitespace, 12) := by decide +kernel
example : wktMessage exParse (str "POINT ZZ (1 2)") exWktR = some (.openingOrEmpty, 6) := by decide +kernel
example : wktMessage exParse (str "LINESTRING (1 2; 3 4)") exWktR = some (.number, 14) := by decide +kernel
example : wktMessage exParse (str "LINESTRING (1 2 3)") exWktR = some (.char 44, 16) := by decide +kernel
example : wktMessage exParse (str "MULTIPOINT ( 1 2)") exWktR = some (.char 40, 12) := by decide +kernel
example : wktMessage exParse (str "PONT (1 2)") exWktR = some (.geometryType, 0) := by decide +kernel
example : wktMessage exParse (str "POINT (1 2) POINT (1 2)") exWktR = some (.endOfInput, 12) := by decide +kernel
example : wktMessage exParse (str "POINT (1 2)") exWktR = none := by decide +kernel
example : ∃ n, IsWord n ∧ (exParse n).isSome := ⟨str "1", by unfold IsWord; decide, by decide⟩

end Verif
