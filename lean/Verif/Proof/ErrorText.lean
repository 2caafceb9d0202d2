import Verif.Spec.ErrorText
import Verif.Spec.Schema
import Mathlib.Data.List.Induction
/-!
# Texts of error messages
-/
namespace Verif
open Spec

theorem decNat_digits (n : Nat) : ∀ c ∈ decNat n, 48 ≤ c.toNat ∧ c.toNat ≤ 57 := by
  induction n using decNat.induct with
  | case1 n h =>
    intro c hc
    rw [decNat, if_pos h, List.mem_singleton] at hc
    subst hc
    simp only [BitVec.toNat_ofNat]
    omega
  | case2 n h ih =>
    intro c hc
    rw [decNat, if_neg h, List.mem_append, List.mem_singleton] at hc
    rcases hc with hc | rfl
    · exact ih c hc
    · simp only [BitVec.toNat_ofNat]
      omega

theorem decNat_value (n : Nat) : decimal (decNat n) = n := by
  induction n using decNat.induct with
  | case1 n h =>
    rw [decNat, if_pos h]
    simp only [decimal, List.foldl_cons, List.foldl_nil, BitVec.toNat_ofNat]
    omega
  | case2 n h ih =>
    rw [decNat, if_neg h]
    unfold decimal at ih ⊢
    rw [List.foldl_append, ih]
    simp only [List.foldl_cons, List.foldl_nil, BitVec.toNat_ofNat]
    omega

theorem decNat_inj {a b : Nat} (h : decNat a = decNat b) : a = b := by
  rw [← decNat_value a, ← decNat_value b, h]

theorem decNat_short : ∀ (k n : Nat), n < 10 ^ (k + 1) → (decNat n).length ≤ k + 1
  | 0, n, h => by rw [decNat, if_pos (by omega)]; exact Nat.le_refl _
  | k + 1, n, h => by
    rw [decNat]
    split
    · simp
    · have := decNat_short k (n / 10) (by rw [Nat.pow_succ] at h; omega)
      simp only [List.length_append, List.length_singleton]
      omega

theorem decInt_no_nul (n : Int) : (0 : Byte) ∉ decInt n := by
  have h : (0 : Byte) ∉ decNat n.natAbs := fun hc => by
    have := (decNat_digits _ _ hc).1
    exact absurd this (by decide)
  unfold decInt
  split
  · simpa using h
  · exact h

theorem takeWhile_no_nul (l : List Byte) : (0 : Byte) ∉ l.takeWhile (· ≠ 0) := by
  intro h
  have := List.all_takeWhile (l := l) (p := fun c : Byte => decide (c ≠ 0))
  rw [List.all_eq_true] at this
  have := this 0 h
  simp at this

theorem print_no_nul (p : Piece) : (0 : Byte) ∉ p.print := by
  cases p with
  | lit t => exact takeWhile_no_nul t
  | cstr t => exact takeWhile_no_nul t
  | dec n => exact decInt_no_nul n
  | sized size t =>
    show (0 : Byte) ∉ if size < 0 then _ else _
    split <;> exact takeWhile_no_nul _

theorem printAll_no_nul (ps : List Piece) : (0 : Byte) ∉ printAll ps := by
  intro h
  obtain ⟨p, _, hp⟩ := List.mem_flatMap.1 h
  exact print_no_nul p hp

/-- What `errorSet` leaves, if the text has a length that is an `int`. -/
theorem errorSet_text {junk message : List Byte} (ps : List Piece) (hm : IsError message) (hl : (printAll ps).length ≤ 2147483647) :
    errorSet junk ps (some message) =
      (if (printAll ps).length ≤ 1023 then 0 else ERANGE,
       some ((printAll ps).take 1023 ++ 0 :: List.replicate (1023 - (printAll ps).length) 0)) := by
  have hm' : message.length = 1024 := hm
  have hv : vsnprintf junk (List.replicate 1024 0) ps =
      (((printAll ps).length : Int), (printAll ps).take 1023 ++ 0 :: List.replicate (1023 - (printAll ps).length) 0) := by
    unfold vsnprintf
    simp only [List.length_replicate, List.drop_replicate]
    rw [if_neg (by omega)]
    have : 1024 - (min (printAll ps).length (1024 - 1) + 1) = 1023 - (printAll ps).length := by omega
    rw [this]
  unfold errorSet
  simp only [hm', hv]
  rw [if_neg (by omega)]
  by_cases h : (printAll ps).length ≤ 1023
  · rw [if_neg (by omega), if_pos h]
  · rw [if_pos (by omega), if_neg h]

theorem shown_unique {m a b : List Byte} (ha : ShownText m a) (hb : ShownText m b) : a = b := by
  obtain ⟨r, rfl, h1⟩ := ha
  obtain ⟨r', e, h2⟩ := hb
  have key : ∀ {a r : List Byte}, (0 : Byte) ∉ a → (a ++ 0 :: r).takeWhile (· ≠ 0) = a := by
    intro a r h
    induction a with
    | nil => simp
    | cons x a ih =>
      rw [List.cons_append, List.takeWhile_cons, if_pos (by simpa using fun e => h (by simp [e])), ih (fun h' => h (List.mem_cons_of_mem _ h'))]
  rw [← key h1 (r := r), e, key h2]

theorem shown_cString {m t : List Byte} (h : ShownText m t) : cString m = some t := by
  obtain ⟨r, rfl, h1⟩ := h
  unfold cString
  rw [if_pos (by simp)]
  congr 1
  apply shown_unique (m := t ++ 0 :: r)
  · refine ⟨r, ?_, takeWhile_no_nul _⟩
    congr 1
    have key : ∀ {a : List Byte}, (0 : Byte) ∉ a → (a ++ 0 :: r).takeWhile (· ≠ 0) = a := by
      intro a h
      induction a with
      | nil => simp
      | cons x a ih =>
        rw [List.cons_append, List.takeWhile_cons, if_pos (by simpa using fun e => h (by simp [e])), ih (fun h' => h (List.mem_cons_of_mem _ h'))]
    exact (key h1).symm
  · exact ⟨r, rfl, h1⟩

theorem noNul_all {a : List Byte} (h : (0 : Byte) ∉ a) : a.takeWhile (· ≠ 0) = a := by
  induction a with
  | nil => rfl
  | cons x a ih =>
    rw [List.takeWhile_cons, if_pos (by simpa using fun e => h (by simp [e])), ih (fun h' => h (List.mem_cons_of_mem _ h'))]

theorem shown_takeWhile {m t : List Byte} (h : ShownText m t) : m.takeWhile (· ≠ 0) = t := by
  have := shown_cString h
  unfold cString at this
  split at this
  · exact Option.some.inj this
  · cases this

theorem decInt_nat (k : Nat) : decInt (k : Int) = decNat k := by unfold decInt; rw [if_neg (by omega)]; rfl

theorem head_append {a b : List Byte} (h : a ≠ []) : (a ++ b).head? = a.head? := by
  cases a with
  | nil => exact absurd rfl h
  | cons _ _ => rfl

theorem decNat_head (n : Nat) : (decNat n).head? = some 48 → n = 0 := by
  induction n using decNat.induct with
  | case1 n h =>
    rw [decNat, if_pos h]
    intro e
    have := congrArg BitVec.toNat (Option.some.inj e)
    have h48 : BitVec.toNat (48 : Byte) = 48 := rfl
    rw [h48, BitVec.toNat_ofNat] at this
    omega
  | case2 n h ih =>
    rw [decNat, if_neg h]
    intro e
    have hne : decNat (n / 10) ≠ [] := by
      rw [decNat]; split <;> simp
    rw [head_append hne] at e
    have := ih e
    omega

theorem decNat_ne_nil (n : Nat) : decNat n ≠ [] := by rw [decNat]; split <;> simp

theorem decInt_decimal (n : Int) : IsDecimal n (decInt n) := by
  have hz : (decNat n.natAbs).head? = some 48 → decNat n.natAbs = [48] := by
    intro e
    rw [decNat_head _ e, decNat, if_pos (by omega)]
    rfl
  unfold decInt
  by_cases h : n < 0
  · rw [if_pos h]
    exact ⟨[45], _, rfl, decNat_ne_nil _, decNat_digits _, hz, Or.inr ⟨h, rfl, by rw [decNat_value]; omega⟩⟩
  · rw [if_neg h]
    exact ⟨[], _, rfl, decNat_ne_nil _, decNat_digits _, hz, Or.inl ⟨by omega, rfl, by rw [decNat_value]; omega⟩⟩

/-- Digits without leading zeros are determined by their value. -/
theorem digits_unique (ds : List Byte) (hne : ds ≠ []) (hd : ∀ c ∈ ds, 48 ≤ c.toNat ∧ c.toNat ≤ 57) (hz : ds.head? = some 48 → ds = [48]) :
    decNat (decimal ds) = ds := by
  induction ds using List.reverseRecOn with
  | nil => exact absurd rfl hne
  | append_singleton l c ih =>
    have hc := hd c (by simp)
    have hv : decimal (l ++ [c]) = 10 * decimal l + (c.toNat - 48) := by
      unfold decimal
      rw [List.foldl_append]
      rfl
    rw [hv]
    have hcc : BitVec.ofNat 8 (48 + (c.toNat - 48)) = c := by
      rw [show 48 + (c.toNat - 48) = c.toNat from by omega, BitVec.ofNat_toNat, BitVec.setWidth_eq]
    by_cases hl : l = []
    · subst hl
      show decNat (10 * 0 + (c.toNat - 48)) = [c]
      rw [Nat.mul_zero, Nat.zero_add, decNat, if_pos (by omega), hcc]
    · have hhead : (l ++ [c]).head? = l.head? := head_append hl
      have h0 : l.head? ≠ some 48 := by
        intro e
        have := hz (by rw [hhead, e])
        have := congrArg List.length this
        simp at this
        exact hl this
      have ihl := ih hl (fun x hx => hd x (by simp [hx])) (fun e => absurd e h0)
      have hpos : decimal l ≠ 0 := by
        intro e
        rw [e, decNat, if_pos (by omega)] at ihl
        rw [← ihl] at h0
        exact h0 rfl
      rw [decNat, if_neg (by omega), show (10 * decimal l + (c.toNat - 48)) / 10 = decimal l from by omega, ihl,
        show (10 * decimal l + (c.toNat - 48)) % 10 = c.toNat - 48 from by omega, hcc]

theorem decimal_unique {n : Int} {t : List Byte} (h : IsDecimal n t) : decInt n = t := by
  obtain ⟨sign, ds, rfl, hne, hd, hz, h⟩ := h
  have := digits_unique ds hne hd hz
  unfold decInt
  rcases h with ⟨h1, rfl, h2⟩ | ⟨h1, rfl, h2⟩
  · rw [if_neg (by omega), show n.natAbs = decimal ds from by omega, this]; rfl
  · rw [if_pos h1, show n.natAbs = decimal ds from by omega, this]; rfl

theorem wkWords_no_nul {w : WkWant} (hw : ∀ c, w = .char c → c ≠ 0) : w.words.takeWhile (· ≠ 0) = w.words := by
  cases w with
  | char c =>
    have := hw c rfl
    have h39 : ((39 : Byte) ≠ 0) := by decide
    show List.takeWhile _ [39, c, 39] = [39, c, 39]
    rw [List.takeWhile_cons, if_pos (decide_eq_true h39), List.takeWhile_cons, if_pos (decide_eq_true this),
      List.takeWhile_cons, if_pos (decide_eq_true h39), List.takeWhile_nil]
  | _ => decide +kernel

theorem wktPieces_text {w : WkWant} {k : Nat} (hi : w ≠ .internal) (hw : ∀ c, w = .char c → c ≠ 0) :
    printAll (wktPieces w k) = str "Expected " ++ (w.words ++ (str " at byte " ++ decNat k)) := by
  have h1 : (str "Expected ").takeWhile (· ≠ 0) = str "Expected " := by decide +kernel
  have h2 : (str " at byte ").takeWhile (· ≠ 0) = str " at byte " := by decide +kernel
  have h3 : decInt (k : Int) = decNat k := by unfold decInt; rw [if_neg (by omega)]; rfl
  have h : wktPieces w k = [.lit (str "Expected "), .cstr w.words, .lit (str " at byte "), .dec k] := by
    cases w <;> first | rfl | exact absurd rfl hi
  rw [h]
  simp only [printAll, List.flatMap_cons, List.flatMap_nil, List.append_nil, Piece.print, h1, h2, wkWords_no_nul hw, h3]

/-- Split at the last space. -/
theorem last_space {a b d e : List Byte} (hd : ∀ c ∈ d, 48 ≤ c.toNat ∧ c.toNat ≤ 57) (he : ∀ c ∈ e, 48 ≤ c.toNat ∧ c.toNat ≤ 57)
    (h : a ++ (32 :: d) = b ++ (32 :: e)) : a = b ∧ d = e := by
  have h32 : ∀ {l : List Byte}, (∀ c ∈ l, 48 ≤ c.toNat ∧ c.toNat ≤ 57) → (32 : Byte) ∉ l := fun hl hc => absurd (hl _ hc).1 (by decide)
  rcases List.append_eq_append_iff.1 h with ⟨x, rfl, h2⟩ | ⟨x, rfl, h2⟩
  · cases x with
    | nil => simp at h2; exact ⟨by simp, h2⟩
    | cons y x =>
      rw [List.cons_append, List.cons.injEq] at h2
      exact absurd (by rw [h2.2]; simp) (h32 hd)
  · cases x with
    | nil => simp at h2; exact ⟨by simp, h2.symm⟩
    | cons y x =>
      rw [List.cons_append, List.cons.injEq] at h2
      exact absurd (by rw [h2.2]; simp) (h32 he)

theorem words_inj {w w' : WkWant} (hi : w ≠ .internal) (hi' : w' ≠ .internal) (h : w.words = w'.words) : w = w' := by
  have hlen : w.words.length = w'.words.length := by rw [h]
  cases w <;> cases w' <;>
    first
    | rfl
    | exact absurd rfl hi
    | exact absurd rfl hi'
    | (simp [WkWant.words] at h; rw [h])
    | (exfalso; revert hlen; simp [WkWant.words, str]; done)
    | (exfalso; revert h; decide +kernel)

theorem wktPieces_inj {w w' : WkWant} {k k' : Nat} (hi : w ≠ .internal) (hi' : w' ≠ .internal) (hw : ∀ c, w = .char c → c ≠ 0)
    (hw' : ∀ c, w' = .char c → c ≠ 0) (h : printAll (wktPieces w k) = printAll (wktPieces w' k')) : w = w' ∧ k = k' := by
  rw [wktPieces_text hi hw, wktPieces_text hi' hw'] at h
  have h1 := List.append_cancel_left h
  have hs : str " at byte " = str " at byte" ++ [32] := by decide +kernel
  rw [hs] at h1
  have e : ∀ (x : List Byte) (n : Nat), x ++ ((str " at byte" ++ [32]) ++ decNat n) = (x ++ str " at byte") ++ (32 :: decNat n) := by
    intro x n; simp
  rw [e, e] at h1
  obtain ⟨a, b⟩ := last_space (decNat_digits k) (decNat_digits k') h1
  exact ⟨words_inj hi hi' (List.append_cancel_right a), decNat_inj b⟩

theorem words_short (w : WkWant) : w.words.length ≤ 45 := by
  cases w with
  | char c => simp [WkWant.words]
  | _ => decide +kernel

theorem wktPieces_short {w : WkWant} {k : Nat} (hk : k < 2 ^ 63) : (printAll (wktPieces w k)).length ≤ 1023 := by
  have hle : ∀ l : List Byte, (l.takeWhile (· ≠ 0)).length ≤ l.length := fun l => (List.takeWhile_prefix _).length_le
  have h3 : (decInt (k : Int)).length ≤ 19 := by
    have h : decInt (k : Int) = decNat k := by unfold decInt; rw [if_neg (by omega)]; rfl
    rw [h]; exact decNat_short 18 k (by omega)
  have hw := words_short w
  have hww := hle w.words
  by_cases hi : w = .internal
  · subst hi
    simp only [wktPieces, printAll, List.flatMap_cons, List.flatMap_nil, List.append_nil, Piece.print]
    omega
  · have h : wktPieces w k = [.lit (str "Expected "), .cstr w.words, .lit (str " at byte "), .dec k] := by
      cases w <;> first | rfl | exact absurd rfl hi
    have h1 := hle (str "Expected ")
    have h2 := hle (str " at byte ")
    have h1' : (str "Expected ").length = 9 := by decide +kernel
    have h2' : (str " at byte ").length = 9 := by decide +kernel
    rw [h]
    simp only [printAll, List.flatMap_cons, List.flatMap_nil, List.append_nil, Piece.print, List.length_append]
    omega

/-! ## Which characters the WKT reader asks for -/

/-- Never asks for a character but parentheses and commas. -/
def Asks {α : Type} (e : Ep α) : Prop := ∀ r c k, e r = .err (.char c) k → c = 40 ∨ c = 41 ∨ c = 44

theorem Asks.of {α : Type} {w : WkWant} {m : M WktR α} (h : ∀ c, w = .char c → c = 40 ∨ c = 41 ∨ c = 44) : Asks (Ep.of w m) := by
  intro r c k he
  unfold Ep.of at he
  cases hm : m r <;> rw [hm] at he <;> simp at he
  exact h c he.1

theorem Asks.safe {α : Type} {m : M WktR α} : Asks (Ep.safe m) := Asks.of fun _ h => by cases h

theorem Asks.pure {α : Type} (a : α) : Asks (Pure.pure a : Ep α) := fun _ _ _ h => by cases h

theorem Asks.bind {α β : Type} {e : Ep α} {f : α → Ep β} (h : Asks e) (hf : ∀ a, Asks (f a)) : Asks (e >>= f) := by
  intro r c k he
  have hb : (e >>= f) r = match e r with | .ok a r' => f a r' | .err w k => .err w k | .ub => .ub := rfl
  rw [hb] at he
  cases hm : e r with
  | ok a r' => rw [hm] at he; exact hf a r' c k he
  | err w k' =>
    rw [hm] at he
    simp at he
    obtain ⟨rfl, rfl⟩ := he
    exact h r c k' hm
  | ub => rw [hm] at he; cases he

theorem Asks.ite {α : Type} {p : Prop} [Decidable p] {a b : Ep α} (ha : Asks a) (hb : Asks b) : Asks (if p then a else b) := by
  split
  · exact ha
  · exact hb

section
variable {parse : List Byte → Option Dbl} {blob : List Byte}

theorem asks_char {c : Byte} (h : c = 40 ∨ c = 41 ∨ c = 44) : Asks (epChar blob c) := Asks.of fun _ e => by cases e; exact h

theorem asks_flush : Asks epFlush := by
  intro r c k he
  unfold epFlush at he
  split at he
  · split at he <;> cases he
  · cases he

theorem asks_ordinates : ∀ k i, Asks (epOrdinates parse blob i k)
  | 0, _ => Asks.pure ()
  | k + 1, i => by
    unfold epOrdinates
    exact Asks.bind (Asks.of fun _ h => by cases h) fun _ => Asks.bind (Asks.of fun _ h => by cases h) fun _ => asks_ordinates k (i + 1)

theorem asks_coordinate : Asks (epCoordinate parse blob) :=
  Asks.bind Asks.safe fun _ => Asks.bind (Asks.ite asks_flush (Asks.pure ())) fun _ => Asks.bind (Asks.of fun _ h => by cases h) fun _ =>
    Asks.bind Asks.safe fun _ => Asks.bind (asks_ordinates _ _) fun _ => Asks.safe

theorem asks_loop {item : Ep Unit} (h : Asks item) : ∀ fuel, Asks (epLoop blob item fuel)
  | 0 => fun _ _ _ he => by cases he
  | fuel + 1 => by
    unfold epLoop
    exact Asks.bind Asks.safe fun _ => Asks.ite (Asks.pure ()) (Asks.bind Asks.safe fun _ => Asks.bind (asks_char (by simp)) fun _ =>
      Asks.bind Asks.safe fun _ => Asks.bind h fun _ => Asks.bind Asks.safe fun _ => asks_loop h fuel)

theorem asks_items {item : Ep Unit} (h : Asks item) : Asks (epItems blob item) :=
  Asks.bind h fun _ => Asks.bind Asks.safe fun _ => fun r c k he => asks_loop h _ r c k he

theorem asks_emptyOr {content : Ep Unit} (h : Asks content) : Asks (epEmptyOr blob content) :=
  Asks.bind Asks.safe fun _ => Asks.bind Asks.safe fun _ => Asks.ite (Asks.bind Asks.safe fun _ => h) (Asks.of fun _ h => by cases h)

theorem asks_coordinates : Asks (epCoordinates parse blob) :=
  asks_emptyOr (Asks.bind Asks.safe fun _ => Asks.bind Asks.safe fun _ => Asks.bind (asks_items asks_coordinate) fun _ =>
    Asks.bind asks_flush fun _ => Asks.safe)

theorem asks_point : Asks (epPoint parse blob) :=
  asks_emptyOr (Asks.bind Asks.safe fun _ => Asks.bind Asks.safe fun _ => Asks.bind asks_coordinate fun _ =>
    Asks.bind asks_flush fun _ => Asks.bind Asks.safe fun _ => asks_char (by simp))

theorem asks_list {item : Ep Unit} (h : Asks item) : Asks (epList blob item) :=
  asks_emptyOr (Asks.bind Asks.safe fun _ => Asks.bind (asks_items h) fun _ => Asks.safe)

theorem asks_multipoint : Asks (epMultipoint parse blob) :=
  asks_emptyOr (Asks.bind Asks.safe fun _ => Asks.bind Asks.safe fun _ => Asks.ite
    (Asks.bind Asks.safe fun _ => Asks.bind (asks_char (by simp)) fun _ =>
      Asks.bind (asks_items (Asks.bind Asks.safe fun _ => Asks.bind asks_coordinate fun _ => asks_flush)) fun _ => Asks.safe)
    (Asks.bind (asks_items asks_point) fun _ => Asks.safe))

theorem asks_content {tagged : Ep Unit} (h : Asks tagged) (gt : Nat) : Asks (epContent parse blob tagged gt) :=
  Asks.ite asks_point (Asks.ite asks_coordinates (Asks.ite (asks_list asks_coordinates) (Asks.ite asks_multipoint
    (Asks.ite (asks_list asks_coordinates) (Asks.ite (asks_list (asks_list asks_coordinates)) (Asks.ite (asks_list h)
      (Asks.of fun _ h => by cases h)))))))

theorem asks_tagged : ∀ fuel, Asks (epTagged parse blob fuel)
  | 0 => fun _ _ _ he => by cases he
  | fuel + 1 => by
    unfold epTagged
    exact Asks.bind (Asks.of fun _ h => by cases h) fun _ => asks_content (asks_tagged fuel) _

theorem asks_message {r : WktR} {c : Byte} {k : Nat} (h : wktMessage parse blob r = some (.char c, k)) : c = 40 ∨ c = 41 ∨ c = 44 := by
  have ha : Asks (epFeature parse blob (blob.length + 1)) :=
    Asks.bind (asks_tagged _) fun _ => Asks.bind Asks.safe fun _ => Asks.bind Asks.safe fun _ =>
      Asks.ite (Asks.of fun _ h => by cases h) (Asks.pure ())
  unfold wktMessage at h
  split at h
  · next w k' he =>
    simp at h
    obtain ⟨rfl, rfl⟩ := h
    exact ha _ _ _ he
  · cases h
end

end Verif
