import Verif.Proof.ErrorText
import Verif.Props.WktError
/-!
# C83: an error message is a text of at most 1023 bytes about the last error only, and exceptions carry it
-/
namespace Verif
open Spec

/-- The text of a message is what its format and arguments say. -/
theorem C83_text {ps : List Piece} {t : List Byte} (hf : ∀ a, Piece.lit a ∈ ps → (0 : Byte) ∉ a) (h : PiecesSay ps t) : printAll ps = t := by
  induction ps generalizing t with
  | nil => exact Eq.symm h
  | cons p ps ih =>
    obtain ⟨a, b, rfl, h1, h2⟩ := h
    have h3 := ih (fun a ha => hf a (List.mem_cons_of_mem _ ha)) h2
    show p.print ++ printAll ps = a ++ b
    rw [h3]
    congr 1
    cases p with
    | lit x =>
      have e : x = a := h1
      subst e
      exact noNul_all (hf x (by simp))
    | cstr x => exact shown_takeWhile h1
    | dec n => exact decimal_unique h1
    | sized size x =>
      rcases h1 with ⟨hs, h1⟩ | ⟨k, hs, h1⟩
      · show (if size < 0 then _ else _) = a
        rw [if_pos hs]; exact shown_takeWhile h1
      · show (if size < 0 then _ else _) = a
        rw [if_neg (by omega), hs]
        rcases h1 with h1 | ⟨rfl, h1⟩
        · exact shown_takeWhile h1
        · exact noNul_all h1

/-- Every number is shown in decimal. -/
theorem C83_numbers (n : Int) : IsDecimal n (printAll [.dec n]) := by
  show IsDecimal n (decInt n ++ [])
  rw [List.append_nil]
  exact decInt_decimal n

/-- After setting an error, its message is the text, cut after 1023 bytes, and the result says whether it was cut. -/
theorem C83_message {junk message : List Byte} {ps : List Piece} (hm : IsError message) (hl : (printAll ps).length ≤ 2147483647) :
    ∃ rc m, errorSet junk ps (some message) = (rc, some m) ∧ IsError m ∧ ShownText m ((printAll ps).take 1023) ∧
      (((printAll ps).length ≤ 1023 ∧ rc = 0) ∨ (1023 < (printAll ps).length ∧ rc = 34)) := by
  refine ⟨_, _, errorSet_text ps hm hl, ?_, ⟨_, rfl, fun h => printAll_no_nul ps (List.mem_of_mem_take h)⟩, ?_⟩
  · show List.length _ = 1024
    simp only [List.length_append, List.length_take, List.length_cons, List.length_replicate]
    omega
  · split
    · exact Or.inl ⟨by assumption, rfl⟩
    · exact Or.inr ⟨by omega, rfl⟩

/-- Nothing is left of an earlier message, not even after the end of the new one. -/
theorem C83_nothing_left {junk m m' : List Byte} (ps : List Piece) (h : IsError m) (h' : IsError m') :
    errorSet junk ps (some m) = errorSet junk ps (some m') := by
  have e : m.length = m'.length := by rw [show m.length = 1024 from h, show m'.length = 1024 from h']
  simp only [errorSet, e]

/-- Callers that want no message get none, and no failure. -/
theorem C83_no_error_wanted (junk : List Byte) (ps : List Piece) : errorSet junk ps none = (0, none) := rfl

/-- Whatever was set before, the message is about the last error. -/
theorem C83_last_error {junk m : List Byte} (l : List (List Piece)) {ps : List Piece} (hm : IsError m)
    (hl : ∀ q ∈ l, (printAll q).length ≤ 2147483647) (hp : (printAll ps).length ≤ 2147483647) :
    ∃ m', setAll junk (l ++ [ps]) (some m) = some m' ∧ IsError m' ∧ ShownText m' ((printAll ps).take 1023) := by
  induction l generalizing m with
  | nil =>
    obtain ⟨rc, m', h1, h2, h3, _⟩ := C83_message (junk := junk) hm hp
    exact ⟨m', by show (errorSet junk ps (some m)).2 = _; rw [h1], h2, h3⟩
  | cons q l ih =>
    obtain ⟨rc, m1, h1, h2, _⟩ := C83_message (junk := junk) hm (hl q (by simp))
    obtain ⟨m', h3⟩ := ih h2 (fun q hq => hl q (List.mem_cons_of_mem _ hq))
    exact ⟨m', by
      show setAll junk (l ++ [ps]) (errorSet junk q (some m)).2 = _ ∧ _
      rw [h1]; exact h3⟩

/-- A text that is not well-known text leaves a complete message, made of words and a number, and the number is the byte where
the text goes wrong: the text before it can be continued to well-known text, beginning with what the words call for. A text that
is read leaves the message alone. -/
theorem C83_wkt_text {parse : List Byte → Option Dbl} (hpe : parse [] = none) (hnum : ∃ n, IsWord n ∧ (parse n).isSome)
    {blob : List Byte} (hb : blob.length < 2 ^ 63) (r : WktR) {junk m : List Byte} (hm : IsError m) {σ : Type} (h : Handler σ)
    (hh : ∀ e s, ∃ s', h e s = .ok () s') (s : σ) :
    ((∃ s', wktVisit parse blob h r s = .ok () s') ∧ wktError junk parse blob r (some m) = some m) ∨
    ((∃ rc s', wktVisit parse blob h r s = .err rc s') ∧ ∃ m' words number k, wktError junk parse blob r (some m) = some m' ∧ IsError m' ∧
      ShownText m' (str "Expected " ++ words ++ str " at byte " ++ number) ∧ IsDecimal (k : Nat) number ∧ k ≤ blob.length ∧
      ∃ c g, BeginsAsTold parse words c ∧ GeomToks parse g (lex (blob.take k ++ c))) := by
  rcases C81_message_iff_rejected hpe blob r h hh s with ⟨h1, h2⟩ | ⟨h1, h2⟩
  · exact Or.inl ⟨h2, by unfold wktError; rw [h1]⟩
  · refine Or.inr ⟨h2, ?_⟩
    obtain ⟨⟨w, k⟩, hw⟩ := Option.isSome_iff_exists.1 h1
    obtain ⟨hk, c, g, hc, hg⟩ := C81_could_have_gone_on hpe hnum hw
    have hi : w ≠ .internal := by rintro rfl; exact hc
    have hc0 : ∀ c, w = .char c → c ≠ 0 := by
      rintro c rfl
      rcases asks_message hw with rfl | rfl | rfl <;> decide
    have hs := wktPieces_short (w := w) (k := k) (by omega)
    obtain ⟨rc, m', e1, e2, e3, _⟩ := C83_message (junk := junk) (ps := wktPieces w k) hm (by omega)
    rw [List.take_of_length_le hs, wktPieces_text hi hc0] at e3
    refine ⟨m', w.words, decNat k, k, ?_, e2, by simpa using e3, ?_, hk, c, g, ?_, hg⟩
    · unfold wktError; rw [hw]; show (errorSet junk (wktPieces w k) (some m)).2 = _; rw [e1]
    · have := decInt_decimal (k : Int)
      rwa [decInt_nat] at this
    · cases w with
      | char x => exact Or.inl ⟨x, rfl, hc⟩
      | whitespace => exact Or.inr (Or.inl ⟨rfl, hc⟩)
      | openingOrEmpty => exact Or.inr (Or.inr (Or.inl ⟨rfl, hc⟩))
      | number => exact Or.inr (Or.inr (Or.inr (Or.inl ⟨rfl, hc⟩)))
      | geometryType => exact Or.inr (Or.inr (Or.inr (Or.inr (Or.inl ⟨rfl, hc⟩))))
      | endOfInput => exact Or.inr (Or.inr (Or.inr (Or.inr (Or.inr ⟨rfl, hc⟩))))
      | internal => exact absurd rfl hi

/-- The message can be read back: messages about two texts that show the same text are about the same byte and the same
expectation. -/
theorem C83_wkt_readable {parse : List Byte → Option Dbl} (hpe : parse [] = none) (hnum : ∃ n, IsWord n ∧ (parse n).isSome)
    {blob blob' : List Byte} (hb : blob.length < 2 ^ 63) (hb' : blob'.length < 2 ^ 63) {r r' : WktR} {w w' : WkWant} {k k' : Nat}
    (hw : wktMessage parse blob r = some (w, k)) (hw' : wktMessage parse blob' r' = some (w', k'))
    {junk junk' m m' t : List Byte} (hm : IsError m) (hm' : IsError m') {n n' : List Byte}
    (hn : wktError junk parse blob r (some m) = some n) (hn' : wktError junk' parse blob' r' (some m') = some n')
    (h : ShownText n t) (h' : ShownText n' t) : w = w' ∧ k = k' := by
  have key : ∀ {blob : List Byte} {r : WktR} {w : WkWant} {k : Nat} {junk m n : List Byte}, blob.length < 2 ^ 63 → wktMessage parse blob r = some (w, k) →
      IsError m → wktError junk parse blob r (some m) = some n → ShownText n t →
      w ≠ .internal ∧ (∀ c, w = .char c → c ≠ 0) ∧ printAll (wktPieces w k) = t := by
    intro blob r w k junk m n hb hw hm hn h
    obtain ⟨hk, c, g, hc, hg⟩ := C81_could_have_gone_on hpe hnum hw
    have hi : w ≠ .internal := by rintro rfl; exact hc
    have hc0 : ∀ c, w = .char c → c ≠ 0 := by
      rintro c rfl
      rcases asks_message hw with rfl | rfl | rfl <;> decide
    have hs := wktPieces_short (w := w) (k := k) (by omega)
    obtain ⟨rc, m1, e1, e2, e3, _⟩ := C83_message (junk := junk) (ps := wktPieces w k) hm (by omega)
    rw [List.take_of_length_le hs] at e3
    unfold wktError at hn
    rw [hw] at hn
    have hn1 : (errorSet junk (wktPieces w k) (some m)).2 = some n := hn
    rw [e1] at hn1
    have : m1 = n := Option.some.inj hn1
    subst this
    exact ⟨hi, hc0, shown_unique e3 h⟩
  obtain ⟨a1, a2, a3⟩ := key hb hw hm hn h
  obtain ⟨b1, b2, b3⟩ := key hb' hw' hm' hn' h'
  exact wktPieces_inj a1 b1 a2 b2 (by rw [a3, b3])

/-- C++ wrappers throw exactly when a call failed; the exception has the code of the call, and its text names the call, the code
and the message. -/
theorem C83_exception (expr : List Byte) (code : Code) (error : Option (List Byte)) {t : List Byte}
    (ht : ∀ m, error = some m → ShownText m t) :
    (code = 0 ∧ throwNotOk expr code error = some none) ∨
    (code ≠ 0 ∧ ∃ number message, throwNotOk expr code error = some (some ⟨code, message⟩) ∧ IsDecimal code number ∧
      message = expr ++ str " failed with errno " ++ number ++ (if error.isSome then str ": \n" ++ t else [])) := by
  by_cases hc : code = 0
  · exact Or.inl ⟨hc, by unfold throwNotOk; rw [if_pos hc]⟩
  · refine Or.inr ⟨hc, decInt code, _, ?_, decInt_decimal code, rfl⟩
    unfold throwNotOk
    rw [if_neg hc]
    cases error with
    | none => simp
    | some m =>
      simp [shown_cString (ht m rfl)]

/-- The wrappers begin with an error of zeros; whatever the call sets, the message is never read beyond its end. -/
theorem C83_exception_safe {junk : List Byte} (expr : List Byte) (code : Code) (l : List (List Piece))
    (hl : ∀ q ∈ l, (printAll q).length ≤ 2147483647) :
    throwNotOk expr code (setAll junk l (some (List.replicate 1024 0))) ≠ none := by
  have h : ∃ m t, setAll junk l (some (List.replicate 1024 0)) = some m ∧ ShownText m t := by
    rcases List.eq_nil_or_concat l with rfl | ⟨l', ps, rfl⟩
    · exact ⟨_, [], rfl, List.replicate 1023 0, rfl, by simp⟩
    · rw [List.concat_eq_append] at hl ⊢
      obtain ⟨m, h1, _, h2⟩ := C83_last_error (junk := junk) l' (ps := ps) (List.length_replicate : IsError (List.replicate 1024 0))
        (fun q hq => hl q (by simp [hq])) (hl ps (by simp))
      exact ⟨m, _, h1, h2⟩
  obtain ⟨m, t, h1, h2⟩ := h
  rw [h1]
  rcases C83_exception expr code (some m) (t := t) (fun _ e => by cases e; exact h2) with ⟨_, e⟩ | ⟨_, _, _, e, _⟩ <;> rw [e] <;> simp

/-- An error that was not initialised, given to a call that fails without setting it, makes the wrapper's macro read beyond the
message. -/
theorem C83_uninitialised (expr : List Byte) {code : Code} (h : code ≠ 0) : throwNotOk expr code (some (List.replicate 1024 88)) = none := by
  unfold throwNotOk
  rw [if_neg h]
  have : cString (List.replicate 1024 88) = none := by
    unfold cString
    rw [if_neg (by intro h; have := List.eq_of_mem_replicate h; exact absurd this (by decide))]
  simp only [this, Option.map_none]

/-! ## Examples -/

/-- A zeroed error. -/
def exError : List Byte := List.replicate 1024 0

theorem exError_isError : IsError exError := List.length_replicate

/-- A message with a string of the caller and two numbers. -/
def exPieces : List Piece :=
  [.lit (str "Expected "), .cstr (str "ten" ++ [0, 1, 2]), .lit (str ", got "), .dec (-35), .lit (str " in "), .sized 3 (str "abcdef")]

example : printAll exPieces = str "Expected ten, got -35 in abc" := by
  refine C83_text (by intro a ha; simp [exPieces] at ha; rcases ha with rfl | rfl | rfl <;> decide +kernel) ?_
  refine ⟨str "Expected ", str "ten, got -35 in abc", by decide +kernel, rfl, str "ten", str ", got -35 in abc", by decide +kernel,
    ⟨[1, 2], by decide +kernel, by decide +kernel⟩, str ", got ", str "-35 in abc", by decide +kernel, rfl, str "-35", str " in abc",
    by decide +kernel, ?_, str " in ", str "abc", by decide +kernel, rfl, str "abc", [], by decide +kernel,
    Or.inr ⟨3, rfl, Or.inr ⟨by decide +kernel, by decide +kernel⟩⟩, rfl⟩
  exact ⟨[45], [51, 53], by decide +kernel, by simp, by decide, by decide, Or.inr ⟨by decide, rfl, by decide +kernel⟩⟩

example : ∃ m, setAll [] ([[Piece.cstr (List.replicate 5000 65)]] ++ [exPieces]) (some exError) = some m ∧ IsError m ∧
    ShownText m ((printAll exPieces).take 1023) := by
  refine C83_last_error _ exError_isError ?_ ?_
  · intro q hq
    rw [List.mem_singleton] at hq
    subst hq
    have : (printAll [Piece.cstr (List.replicate 5000 65)]).length ≤ 5000 := by
      simp only [printAll, List.flatMap_cons, List.flatMap_nil, List.append_nil, Piece.print]
      exact Nat.le_trans (List.takeWhile_prefix _).length_le (by rw [List.length_replicate]; exact Nat.le_refl _)
    omega
  · exact Nat.le_trans (by decide +kernel : (printAll exPieces).length ≤ 100) (by omega)

example : (errorSet [] [.cstr (List.replicate 1024 65)] (some exError)).1 = 34 := by
  have h0 : printAll [.cstr (List.replicate 1024 65)] = List.replicate 1024 65 := by
    show List.takeWhile _ _ ++ [] = _
    rw [List.append_nil, noNul_all (by intro h; exact absurd (List.eq_of_mem_replicate h) (by decide))]
  obtain ⟨rc, m, h1, _, _, h2⟩ := C83_message (junk := []) (ps := [.cstr (List.replicate 1024 65)]) exError_isError
    (by rw [h0, List.length_replicate]; omega)
  rw [h1]
  rcases h2 with ⟨h2, _⟩ | ⟨_, h2⟩
  · rw [h0, List.length_replicate] at h2; omega
  · exact h2

example : ∃ m, wktError [] exParse (str "LINESTRING (1 2, 3 x4, 5 6)") exWktR (some exError) = some m ∧
    ShownText m (str "Expected number at byte 19") := by
  have hw : wktMessage exParse (str "LINESTRING (1 2, 3 x4, 5 6)") exWktR = some (.number, 19) := by decide +kernel
  obtain ⟨rc, m, h1, _, h2, _⟩ := C83_message (junk := []) (ps := wktPieces .number 19) exError_isError
    (Nat.le_trans (by decide +kernel : (printAll (wktPieces .number 19)).length ≤ 100) (by omega))
  refine ⟨m, ?_, ?_⟩
  · unfold wktError; rw [hw]; show (errorSet [] (wktPieces .number 19) (some exError)).2 = _; rw [h1]
  · have : (printAll (wktPieces .number 19)).take 1023 = str "Expected number at byte 19" := by decide +kernel
    rwa [this] at h2

example : throwNotOk (str "f(x, &error)") 22 (some (str "no" ++ [0, 7])) =
    some (some ⟨22, str "f(x, &error) failed with errno 22: \nno"⟩) := by decide +kernel

end Verif
