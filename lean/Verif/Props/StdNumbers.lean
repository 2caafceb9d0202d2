import Verif.Proof.StdLibc
import Verif.Props.ParseDouble
/-!
# C74: numbers without the bundled libraries

The build with neither Ryu nor fast_float prints with `snprintf` and reads with `strtod`. What the C library has to fulfil is `LibcOk`;
`C74_libc_exists` shows that it can.
-/
namespace Verif
open Spec

variable {L : Libc} {fpu : FF.Fpu}

/-- There is a C library as `LibcOk` asks for. -/
theorem C74_libc_exists : ∃ L, LibcOk L := libc_exists

/-! ## Printing -/

theorem plain_decimal {int frac : List Byte} {neg : Bool} (h1 : AllDigits int) (h2 : int ≠ []) (h3 : AllDigits frac) :
    DecimalText ((if neg then str "-" else []) ++ int ++ (if frac = [] then [] else str "." ++ frac)) neg
      (digitsValue (int ++ frac) * 10 ^ ((0 : Int) - frac.length)) :=
  ⟨int, frac, [], 0, h1, h2, h3, by simp, Or.inl ⟨rfl, rfl⟩, rfl⟩

/-- With at least one decimal, numbers of at most 10^17 are printed as decimals that are the number rounded to the precision, ties to even, with
the sign of the number, also if it is zero. There are no zeros at the end of the decimals, and no point without decimals. -/
theorem C74_prints (hL : LibcOk L) {f : Dbl} (hf : f.Finite) (hm : f.magnitude ≤ 10 ^ 17) {p : Nat} (h1 : 1 ≤ p) (h19 : p ≤ 19) :
    ∃ y, DecimalText (stdPrint L p f) f.negative y ∧ RoundedTo p f.magnitude y ∧
      ((46 : Byte) ∈ stdPrint L p f → ∀ u, stdPrint L p f ≠ u ++ str "0" ∧ stdPrint L p f ≠ u ++ str ".") := by
  obtain ⟨int, frac, y, a1, a2, a3, a4, a5, a6, a7, a8, a9, hr⟩ := stdPrint_small hL.toSnprintfOk hf hm h1 h19
  refine ⟨y, by rw [a8, a9]; exact plain_decimal a1 a2 a4, hr, fun hdot u => ?_⟩
  rw [a8] at hdot ⊢
  by_cases h0 : frac = []
  · exfalso
    rw [if_pos h0, List.append_nil, List.mem_append] at hdot
    rcases hdot with h | h
    · cases hs : f.negative <;> rw [hs] at h
      · cases h
      · exact absurd h (by decide)
    · exact absurd (a1 46 h) (by decide)
  · rw [if_neg h0]
    obtain ⟨v, b, hb⟩ : ∃ v b, frac = v ++ [b] := ⟨_, _, (List.dropLast_append_getLast h0).symm⟩
    have e : (if f.negative then str "-" else []) ++ int ++ (str "." ++ frac) = ((if f.negative then str "-" else []) ++ int ++ (str "." ++ v)) ++ [b] := by
      rw [hb]; simp only [List.append_assoc]
    rw [e]
    have hd := a4 b (by rw [hb]; simp)
    constructor
    · intro h
      have := (List.append_inj' h rfl).2
      injection this with this
      exact a5 v (by rw [hb, this]; rfl)
    · intro h
      have := (List.append_inj' h rfl).2
      injection this with this
      rw [this] at hd
      exact absurd hd (by decide)

/-- Larger numbers are printed in scientific notation, whatever the precision, with enough digits to be nearer to the number than to any other
double. -/
theorem C74_prints_large (hL : LibcOk L) {f : Dbl} (hf : f.Finite) (hm : 10 ^ 17 < f.magnitude) (p : Nat) :
    ∃ x, DecimalText (stdPrint L p f) f.negative x ∧ StrictlyNearest x f := by
  obtain ⟨x, h1, h2, _⟩ := stdPrint_large hL.toSnprintfOk hf hm p
  exact ⟨x, h1, h2.strict hf⟩

/-- The bounds are met by one tenth and by the largest double. -/
example : Dbl.magnitude 0x3FB999999999999A#64 ≤ 10 ^ 17 ∧ 10 ^ 17 < Dbl.magnitude 0x7FEFFFFFFFFFFFFF#64 := by
  rw [← bits_le_1e17, ← not_le, ← bits_le_1e17]
  decide

/-- No text is longer than 39 characters, whatever the number and the precision. -/
theorem C74_prints_short (hL : LibcOk L) (p : Nat) (f : Dbl) : (stdPrint L p f).length ≤ 39 := stdPrint_length hL.toSnprintfOk p f

theorem digitsValue_last (l : List Byte) (b : Byte) : digitsValue (l ++ [b]) = digitsValue l * 10 + (b.toNat - 48) := by
  rw [digitsValue_append]; simp [digitsValue]

theorem strip_digits {pre int : List Byte} (hd : AllDigits int) (hpre : pre = [] ∨ pre = str "-") : ∃ int' n, int = int' ++ List.replicate n (48 : Byte) ∧
    (∀ u, int' ≠ u ++ [48]) ∧ (stripLoop (pre ++ int).reverse).reverse = pre ++ int' := by
  obtain ⟨i', n, h1, h2⟩ := trailing_zeros int
  refine ⟨i', n, h1, h2, ?_⟩
  have e : (pre ++ int).reverse = List.replicate n 48 ++ (pre ++ i').reverse := by rw [h1]; simp
  rw [e, stripLoop_zeros]
  have fin : ∀ w : List Byte, (∀ b r, w = b :: r → b ≠ 48 ∧ b ≠ 46) → stripLoop w = w := by
    intro w hw
    cases w with
    | nil => rfl
    | cons b r =>
      obtain ⟨w1, w2⟩ := hw b r rfl
      rw [stripLoop, if_neg w1, if_neg w2]
  rw [fin, List.reverse_reverse]
  intro b r hbr
  by_cases h0 : i' = []
  · rw [h0, List.append_nil] at hbr
    rcases hpre with rfl | rfl
    · cases hbr
    · injection hbr with hb _
      rw [← hb]
      decide
  · obtain ⟨v, c, hc⟩ : ∃ v c, i' = v ++ [c] := ⟨_, _, (List.dropLast_append_getLast h0).symm⟩
    rw [hc] at hbr
    simp only [List.reverse_append, List.reverse_cons, List.reverse_nil, List.nil_append, List.cons_append] at hbr
    injection hbr with hb _
    have hcd := hd c (by rw [h1, hc]; simp)
    rw [← hb]
    exact ⟨fun h => h2 v (by rw [hc, h]), fun h => by rw [h] at hcd; exact absurd hcd (by decide)⟩

theorem zero_precision (hL : LibcOk L) {f : Dbl} (hf : f.Finite) (hm : f.magnitude ≤ 10 ^ 17) {N : Nat} (hN : f.magnitude = N) :
    ∃ int n, stdPrint L 0 f = (if f.negative then str "-" else []) ++ int ∧ AllDigits int ∧ (∀ u, int ≠ u ++ [48]) ∧ digitsValue int * 10 ^ n = N := by
  obtain ⟨k, ⟨int, frac, a1, a2, a3, a4, a5, a6, a7⟩, k', hk', hr, _⟩ := hL.fixed 0 f hf
  rw [if_pos rfl, List.append_nil] at a6
  have h0 : frac = [] := List.length_eq_zero_iff.mp a5
  rw [h0, List.append_nil] at a7
  have ek : k = N := by
    rw [hN] at hr
    simp only [pow_zero, mul_one, div_one] at hr hk'
    rw [← hk'] at hr
    obtain ⟨c, d⟩ := abs_le.mp hr
    have u1 : (N : ℚ) < k + 1 := by linarith
    have u2 : (k : ℚ) < N + 1 := by linarith
    have : N < k + 1 := by exact_mod_cast u1
    have : k < N + 1 := by exact_mod_cast u2
    omega
  obtain ⟨int', n, b1, b2, b3⟩ := strip_digits (pre := if f.negative then str "-" else []) a1 (by cases f.negative <;> simp)
  have hlen : int.length ≤ 18 := by
    rcases digits_length a1 a2 a3 with h | h
    · omega
    · by_contra hc
      have h18 : 10 ^ 18 ≤ N := by
        rw [← ek, ← a7]
        exact le_trans (Nat.pow_le_pow_right (by decide) (by omega)) h
      have : (10 ^ 18 : ℚ) ≤ N := by exact_mod_cast h18
      rw [hN] at hm
      have := this.trans hm
      norm_num at this
  refine ⟨int', n, ?_, (b1 ▸ a1).left, b2, ?_⟩
  · unfold stdPrint
    have hs : (if f.negative then str "-" else []).length ≤ 1 := by split <;> decide
    rw [gt_1e17 hf, if_neg (by simpa using hm), List.take_of_length_le (by rw [a6, List.length_append]; omega), a6, b3]
  · rw [← digitsValue_zeros, ← b1, a7, ek]

/-- With precision zero, a whole number loses all zeros at its end: a number `m` times a power of ten is printed as the decimal `m`. -/
theorem C74_precision_zero (hL : LibcOk L) {f : Dbl} (hf : f.Finite) (hm : f.magnitude ≤ 10 ^ 17) {m n : Nat} (h : f.magnitude = m * 10 ^ n)
    (h10 : m % 10 ≠ 0) : DecimalText (stdPrint L 0 f) f.negative m := by
  obtain ⟨int, n', h1, h2, h3, h4⟩ := zero_precision hL hf hm (N := m * 10 ^ n) (by rw [h]; push_cast; rfl)
  have hne : int ≠ [] := fun hc => by
    rw [hc] at h4
    have : m * 10 ^ n = 0 := by rw [← h4]; simp [digitsValue]
    rcases Nat.mul_eq_zero.mp this with h | h
    · rw [h] at h10; simp at h10
    · exact absurd h (by positivity)
  obtain ⟨v, b, hb⟩ : ∃ v b, int = v ++ [b] := ⟨_, _, (List.dropLast_append_getLast hne).symm⟩
  have hl : digitsValue int % 10 ≠ 0 := by
    have hd := h2 b (by rw [hb]; simp)
    have : b.toNat ≠ 48 := fun hc => h3 v (by rw [hb, BitVec.eq_of_toNat_eq (x := b) (y := 48) hc])
    rw [hb, digitsValue_last]
    omega
  have e : digitsValue int = m := by
    generalize digitsValue int = a at *
    rcases Nat.lt_trichotomy n n' with hlt | heq | hgt
    · obtain ⟨d, rfl⟩ : ∃ d, n' = n + (d + 1) := ⟨n' - n - 1, by omega⟩
      have : a * 10 ^ (d + 1) = m := by
        apply Nat.eq_of_mul_eq_mul_right (show 0 < 10 ^ n by positivity)
        rw [← h4]; ring
      rw [← this, Nat.pow_succ, ← Nat.mul_assoc, Nat.mul_mod_left] at h10
      exact absurd rfl h10
    · rw [heq] at h4
      exact Nat.eq_of_mul_eq_mul_right (show 0 < 10 ^ n' by positivity) h4
    · obtain ⟨d, rfl⟩ : ∃ d, n = n' + (d + 1) := ⟨n - n' - 1, by omega⟩
      have : m * 10 ^ (d + 1) = a := by
        apply Nat.eq_of_mul_eq_mul_right (show 0 < 10 ^ n' by positivity)
        rw [h4]; ring
      rw [← this, Nat.pow_succ, ← Nat.mul_assoc, Nat.mul_mod_left] at hl
      exact absurd rfl hl
  rw [h1, ← e]
  have := plain_decimal (neg := f.negative) (frac := []) h2 hne allDigits_nil
  simpa using this

/-- With precision zero, nothing at all is printed for zero. -/
theorem C74_precision_zero_nothing (hL : LibcOk L) : stdPrint L 0 0#64 = [] := by
  have hz : Dbl.magnitude 0#64 = 0 := bits_zero_magnitude.mp (by decide)
  obtain ⟨int, n', h1, h2, h3, h4⟩ := zero_precision hL (f := 0#64) (by unfold Dbl.Finite; decide) (by rw [hz]; positivity) (N := 0) (by rw [hz]; rfl)
  have h0 : digitsValue int = 0 := by
    rcases Nat.mul_eq_zero.mp h4 with h | h
    · exact h
    · exact absurd h (by positivity)
  have : int = [] := by
    by_contra hne
    obtain ⟨v, b, hb⟩ : ∃ v b, int = v ++ [b] := ⟨_, _, (List.dropLast_append_getLast hne).symm⟩
    have hd := h2 b (by rw [hb]; simp)
    rw [hb, digitsValue_last] at h0
    exact h3 v (by rw [hb, BitVec.eq_of_toNat_eq (x := b) (y := 48) (by have e48 : (48 : Byte).toNat = 48 := rfl; omega)])
  rw [h1, this]
  rfl

/-- One hundred is such a number: it is printed as a decimal that is one. -/
example (hL : LibcOk L) : DecimalText (stdPrint L 0 0x4059000000000000#64) false 1 := by
  have e : Dbl.magnitude 0x4059000000000000#64 = 100 := by
    rw [Dbl.magnitude_eq]
    have : Dbl.bits 0x4059000000000000#64 = 0x4059000000000000 := by decide
    rw [this]
    unfold magN
    norm_num
  have := C74_precision_zero hL (f := 0x4059000000000000#64) (m := 1) (n := 2) (by unfold Dbl.Finite; decide) (by rw [e]; norm_num) (by rw [e]; norm_num) (by decide)
  have hneg : Dbl.negative 0x4059000000000000#64 = false := by decide
  rw [hneg] at this
  simpa using this

/-! ## Reading -/

/-- A number of less than 64 characters is read as the nearest double with the sign of the text, or as infinite if it overflows. -/
theorem C74_reads (hL : LibcOk L) {t : List Byte} {neg : Bool} {x : ℚ} (h : FloatText t neg x) (hl : t.length < 64) :
    ∃ f, stdParse L t = some f ∧ f.negative = neg ∧ (x < 2 ^ 1024 - 2 ^ 970 → Nearest x f) ∧ (2 ^ 1024 - 2 ^ 970 ≤ x → IsInfinite f) :=
  stdParse_number hL.strtod h hl

/-- Exactly the texts of less than 64 characters are read that consist of white space and a complete number or word, perhaps with a sign. -/
theorem C74_accepts (hL : LibcOk L) (t : List Byte) :
    (∃ f, stdParse L t = some f) ↔ t.length < 64 ∧ ∃ ws s, t = ws ++ s ∧ (∀ b ∈ ws, isBlank b = true) ∧ Subject s := by
  constructor
  · rintro ⟨f, h⟩
    obtain ⟨h1, ws, s, h2, h3, h4⟩ := stdParse_some hL.strtod h
    exact ⟨h1, ws, s, h2, List.all_eq_true.mp h3, h4⟩
  · rintro ⟨h1, ws, s, rfl, h3, h4⟩
    obtain ⟨f, h, _⟩ := stdParse_subject hL.strtod (List.all_eq_true.mpr h3) h4 h1
    exact ⟨f, h⟩

/-- An infinity is printed as a word and read back. -/
theorem C74_infinity (hL : LibcOk L) {f : Dbl} (h : IsInfinite f) (p : Nat) : stdParse L (stdPrint L p f) = some f := by
  obtain ⟨w, h1, h2⟩ := stdPrint_infinite hL.toSnprintfOk h p
  have hi : InfText w := by rcases h2 with rfl | rfl <;> unfold InfText <;> decide
  have hsign : (if f.negative then str "-" else []) = [] ∨ (if f.negative then str "-" else []) = str "+" ∨ (if f.negative then str "-" else []) = str "-" := by
    cases f.negative <;> simp
  have hl : ([] ++ ((if f.negative then str "-" else []) ++ w)).length < 64 := by
    have := stdPrint_length hL.toSnprintfOk p f
    rw [h1] at this
    simp only [List.nil_append]
    omega
  obtain ⟨g, g1, g2⟩ := stdParse_subject hL.strtod (ws := []) rfl ⟨_, w, rfl, hsign, Or.inr (Or.inr (Or.inl hi))⟩ hl
  obtain ⟨g3, g4⟩ := (g2 _ w rfl hsign).2 hi
  rw [h1]
  simp only [List.nil_append] at g1
  rw [g1]
  have e : g.negative = f.negative := by rw [g3]; cases f.negative <;> decide
  rcases infinite_cases h with rfl | rfl <;> rcases infinite_cases g4 with rfl | rfl
  · rfl
  · exact absurd e (by decide)
  · exact absurd e (by decide)
  · rfl

/-- Texts of 64 or more characters are refused, be they numbers or not; the default build has no such limit. -/
theorem C74_too_long (L : Libc) {t : List Byte} (h : 64 ≤ t.length) : stdParse L t = none := by
  unfold stdParse
  rw [if_pos h, ite_self]

/-- A number of 66 characters that the default build reads as one half. -/
example (hI : Ieee fpu) (L : Libc) : stdParse L (str "0.5000000000000000000000000000000000000000000000000000000000000000") = none ∧
    fastParse fpu (str "0.5000000000000000000000000000000000000000000000000000000000000000") = some 0x3FE0000000000000#64 := by
  refine ⟨C74_too_long L (by decide), ?_⟩
  have e : Dbl.magnitude 0x3FE0000000000000#64 = 1 / 2 := by
    rw [Dbl.magnitude_eq]
    have : Dbl.bits 0x3FE0000000000000#64 = 0x3FE0000000000000 := by decide
    rw [this]
    unfold magN
    norm_num
  have d : DecimalText (str "0.5000000000000000000000000000000000000000000000000000000000000000") false (1 / 2) := by
    refine ⟨str "0", str "5000000000000000000000000000000000000000000000000000000000000000", [], 0, by unfold AllDigits; decide, by decide,
      by unfold AllDigits; decide, by decide, Or.inl ⟨rfl, rfl⟩, ?_⟩
    have v : digitsValue (str "0" ++ str "5000000000000000000000000000000000000000000000000000000000000000") = 5 * 10 ^ 63 := by decide +kernel
    have l : (str "5000000000000000000000000000000000000000000000000000000000000000").length = 64 := by decide
    rw [v, l]
    push_cast
    norm_num
  have hneg : Dbl.negative 0x3FE0000000000000#64 = false := by decide
  have hl := d.longest
  rw [← e, ← hneg] at hl
  exact C69_exact hI (by decide) (by unfold Dbl.Finite; decide) hl

/-- Text after the number makes this build refuse it; the default build ignores such text. -/
theorem C74_trailing (hL : LibcOk L) (hI : Ieee fpu) {int junk : List Byte} {c : Byte} (hi : AllDigits int) (hne : int ≠ [])
    (hc : ¬ (48 ≤ c.toNat ∧ c.toNat ≤ 57)) (hd : c ≠ 46 ∧ c ≠ 101 ∧ c ≠ 69) (hx : c ≠ 120 ∧ c ≠ 88) (hl : (int ++ c :: junk).length < 2 ^ 27) :
    stdParse L (int ++ c :: junk) = none ∧ fastParse fpu (int ++ c :: junk) = fastParse fpu int := by
  have hlong := integer_longest (junk := c :: junk) hi hne (fun b r h => by injection h with h _; exact h ▸ ⟨hc, hd⟩)
  refine ⟨?_, C69_trailing hI hl hlong⟩
  cases hs : stdParse L (int ++ c :: junk) with
  | none => rfl
  | some f =>
    exfalso
    obtain ⟨_, ws, s, h1, h2, h3⟩ := stdParse_some hL.strtod hs
    cases int with
    | nil => exact hne rfl
    | cons a int =>
      have ha := hi a List.mem_cons_self
      have hws : ws = [] := by
        cases ws with
        | nil => rfl
        | cons b ws =>
          injection h1 with h1 _
          have hb := List.all_eq_true.mp h2 b List.mem_cons_self
          rw [← h1] at hb
          unfold isBlank at hb
          simp only [Bool.or_eq_true, decide_eq_true_eq, Bool.and_eq_true] at hb
          rcases hb with hb | hb
          · rw [hb] at ha; exact absurd ha (by decide)
          · omega
      rw [hws, List.nil_append] at h1
      obtain ⟨sign, body, hsb, hsign, hb⟩ := h3
      rw [hsb] at h1
      have hsg : sign = [] := by
        rcases hsign with h | rfl | rfl
        · exact h
        · injection h1 with h1 _; rw [h1] at ha; exact absurd ha (by decide)
        · injection h1 with h1 _; rw [h1] at ha; exact absurd ha (by decide)
      rw [hsg, List.nil_append] at h1
      rcases hb with ⟨x, hb⟩ | hb | hb | hb
      · obtain ⟨s', e1, e2, e3⟩ := hlong
        have e4 := e3 body false x hb (by rw [h1])
        have e5 : s' = a :: int := (List.append_cancel_right e1).symm
        rw [← h1, e5] at e4
        simp at e4
      · obtain ⟨x, i', p', f', exp, hx', _, _, _, _, _, rfl⟩ := hb
        injection h1 with _ h1
        cases int with
        | nil =>
          injection h1 with h1 _
          rcases hx' with h | h
          · exact hx.1 (h1.trans h)
          · exact hx.2 (h1.trans h)
        | cons b int =>
          injection h1 with h1 _
          have := hi b (by simp)
          rw [h1] at this
          rcases hx' with h | h <;> rw [h] at this <;> exact absurd this (by decide)
      · rw [← h1] at hb
        rcases infText_head hb with h | h <;> rw [h] at ha <;> exact absurd ha (by decide)
      · have hlow : lowerCase a = 110 := by
          rcases hb with hb | ⟨w, cs, hw, hb, _⟩
          · rw [← h1] at hb
            injection hb with hb _
          · cases w with
            | nil => cases hw
            | cons v w =>
              rw [hb] at h1
              injection h1 with h1 _
              injection hw with hw _
              rw [h1]; exact hw
        unfold lowerCase at hlow
        rw [if_neg (by omega)] at hlow
        rw [hlow] at ha
        exact absurd ha (by decide)

/-- `12abc` is such a text. -/
example (hL : LibcOk L) : stdParse L (str "12abc") = none := by
  obtain ⟨fpu, _, hI⟩ := C69_machine_exists true
  exact (C74_trailing (int := str "12") (junk := str "bc") (c := 97) hL hI (by unfold AllDigits; decide) (by decide) (by decide) (by decide) (by decide) (by decide)).1

/-- A plus sign before the number is accepted; the default build refuses it. -/
theorem C74_plus (hL : LibcOk L) {t : List Byte} {x : ℚ} (h : FloatText t false x) (hl : t.length < 63) (hx : x < 2 ^ 1024 - 2 ^ 970) :
    (∃ f, stdParse L (43 :: t) = some f ∧ f.negative = false ∧ Nearest x f) ∧ fastParse fpu (43 :: t) = none := by
  refine ⟨?_, C69_plus t⟩
  obtain ⟨f, h1, h2⟩ := stdParse_subject hL.strtod (ws := []) (s := 43 :: t) rfl ⟨str "+", t, rfl, Or.inr (Or.inl rfl), Or.inl ⟨x, h⟩⟩ (by simp; omega)
  obtain ⟨h3, h4, _⟩ := (h2 (str "+") t rfl (Or.inr (Or.inl rfl))).1 x h
  exact ⟨f, h1, by rw [h3]; decide, h4 hx⟩

/-- An overflowing number is infinite; the default build refuses it. -/
theorem C74_overflow (hL : LibcOk L) (hI : Ieee fpu) {t : List Byte} {neg : Bool} {x : ℚ} (h : FloatText t neg x) (hl : t.length < 64)
    (hx : 2 ^ 1024 - 2 ^ 970 ≤ x) : (∃ f, stdParse L t = some f ∧ f.negative = neg ∧ IsInfinite f) ∧ fastParse fpu t = none := by
  obtain ⟨f, h1, h2, _, h4⟩ := C74_reads hL h hl
  refine ⟨⟨f, h1, h2, h4 hx⟩, C69_range hI (rest := []) (by omega) ⟨t, (List.append_nil _).symm, h, fun s' _ _ _ hp => hp.length_le⟩ (Or.inl hx)⟩

/-- `1e400` overflows. -/
example : ∃ x, FloatText (str "1e400") false x ∧ 2 ^ 1024 - 2 ^ 970 ≤ x := by
  refine ⟨_, ⟨str "1", [], [], str "e400", 400, by unfold AllDigits; decide, by unfold AllDigits; decide, by decide, Or.inl ⟨rfl, rfl⟩,
    Or.inr ⟨101, [], str "400", Or.inl rfl, by unfold AllDigits; decide, by decide, by decide, Or.inl ⟨Or.inl rfl, by decide⟩⟩, by decide, rfl⟩, ?_⟩
  have h := FF.pow400_hi
  have e : digitsValue (str "1" ++ []) = 1 := by decide
  rw [e]
  simpa using h

/-! ## Printing and reading -/

theorem reads_back {parse : List Byte → Option Dbl} (hc : CorrectParser parse) {f : Dbl} {t : List Byte} {y : ℚ} (hf : f.Finite)
    (ht : DecimalText t f.negative y) (hr : RoundsTo f.bits y) (h0 : f.bits = 0 → y = 0) (hl : t.length < 2 ^ 27) : parse t = some f := by
  have hx : y = 0 ∨ 2 ^ (-1075 : Int) < y := by
    by_cases hb : f.bits = 0
    · exact Or.inl (h0 hb)
    · exact Or.inr (hr.above hb)
  obtain ⟨g, g1, g2, g3⟩ := hc t _ y hl ht (hr.bounded (Dbl.finite_bits.mp hf)) hx
  rw [g1, Dbl.ext_bits g2 (nearest_unique hf hr g3)]

theorem stdPrint_back {parse : List Byte → Option Dbl} (hc : CorrectParser parse) (hL : LibcOk L) {f : Dbl} {p k : Nat} (h1 : 1 ≤ p) (h16 : p ≤ 16)
    (hk : StrictlyNearest (k / 10 ^ p) f) : IsWord (stdPrint L p f) ∧ parse (stdPrint L p f) = some f := by
  have hf := hk.1
  have hl : (stdPrint L p f).length < 2 ^ 27 := by have := stdPrint_length hL.toSnprintfOk p f; omega
  by_cases hm : f.magnitude ≤ 10 ^ 17
  · obtain ⟨y, h2, h3, _⟩ := C74_prints hL hf hm h1 (by omega)
    refine ⟨decimalText_word h2, reads_back hc hf h2 (fixed_rounds h1 h16 hk h3) (fun h0 => ?_) hl⟩
    obtain ⟨j, rfl, j2, _⟩ := h3
    rw [bits_zero_magnitude.mp h0, zero_mul, sub_zero] at j2
    have : (j : ℚ) < 1 := by linarith [(abs_le.mp j2).2]
    have : j < 1 := by exact_mod_cast this
    have : j = 0 := by omega
    rw [this]; simp
  · have hm := not_le.mp hm
    obtain ⟨x, h2, h3, _⟩ := stdPrint_large hL.toSnprintfOk hf hm p
    refine ⟨decimalText_word h2, reads_back hc hf h2 h3.rounds (fun h0 => ?_) hl⟩
    rw [bits_zero_magnitude.mp h0] at hm
    norm_num at hm

/-- The parser of this build, and a correct one for long texts. -/
noncomputable def longParse (L : Libc) (t : List Byte) : Option Dbl := if t.length < 64 then stdParse L t else chosenParser t

theorem longParse_correct (hL : LibcOk L) : CorrectParser (longParse L) := by
  intro t neg x hl ht hx h0
  unfold longParse
  by_cases h : t.length < 64
  · rw [if_pos h]
    obtain ⟨s, e, hfl, _⟩ := ht.longest
    rw [List.append_nil] at e
    obtain ⟨f, h1, h2, h3, _⟩ := C74_reads hL (e ▸ hfl) h
    exact ⟨f, h1, h2, h3 hx⟩
  · rw [if_neg h]
    exact chosenParser_correct t neg x hl ht hx h0

/-- If a decimal with `p` decimals is nearer to the double than to all others, the double printed with precision `p` is read back, also if it is
negative zero.

Partial: `p` must be at least one, see `C74_precision_zero`, and the double must be one for which `p` decimals suffice. -/
theorem C74_round_trip_partial (hL : LibcOk L) {f : Dbl} {p k : Nat} (h1 : 1 ≤ p) (h16 : p ≤ 16) (hk : StrictlyNearest (k / 10 ^ p) f) :
    stdParse L (stdPrint L p f) = some f := by
  have := (stdPrint_back (longParse_correct hL) hL h1 h16 hk).2
  unfold longParse at this
  rw [if_pos (by have := stdPrint_length hL.toSnprintfOk p f; omega)] at this
  exact this

/-- Negative zero is such a double with any precision; one tenth is one with precision one. -/
example (hL : LibcOk L) : stdParse L (stdPrint L 1 0x8000000000000000#64) = some 0x8000000000000000#64 ∧
    stdParse L (stdPrint L 1 0x3FB999999999999A#64) = some 0x3FB999999999999A#64 := by
  constructor
  · refine C74_round_trip_partial (k := 0) hL (by decide) (by decide) (StrictlyRounds.strict (by unfold Dbl.Finite; decide) ?_)
    have e : Dbl.bits 0x8000000000000000#64 = 0 := by decide
    rw [e]
    unfold StrictlyRounds
    rw [magN_zero]
    have := gap_pos 0
    exact ⟨by simp; linarith, by simp; linarith⟩
  · refine C74_round_trip_partial (k := 1) hL (by decide) (by decide) (StrictlyRounds.strict (by unfold Dbl.Finite; decide) ?_)
    have e : Dbl.bits 0x3FB999999999999A#64 = 0x3FB999999999999A := by decide
    rw [e]
    unfold StrictlyRounds magN gap
    norm_num

theorem stdParse_E (hL : LibcOk L) (w : List Byte) : stdParse L (69 :: w) = none := by
  cases hs : stdParse L (69 :: w) with
  | none => rfl
  | some f =>
    exfalso
    obtain ⟨_, ws, s, h1, h2, h3⟩ := stdParse_some hL.strtod hs
    have hws : ws = [] := by
      cases ws with
      | nil => rfl
      | cons b ws =>
        injection h1 with h1 _
        have hb := List.all_eq_true.mp h2 b List.mem_cons_self
        rw [← h1] at hb
        exact absurd hb (by decide)
    rw [hws, List.nil_append] at h1
    obtain ⟨sign, body, hsb, hsign, hb⟩ := h3
    rw [hsb] at h1
    have hsg : sign = [] := by
      rcases hsign with h | rfl | rfl
      · exact h
      · injection h1 with h1 _; exact absurd h1 (by decide)
      · injection h1 with h1 _; exact absurd h1 (by decide)
    rw [hsg, List.nil_append] at h1
    rcases hb with ⟨x, hb⟩ | hb | hb | hb
    · rw [← h1] at hb
      rcases floatText_head hb with ⟨h, _⟩ | ⟨_, h⟩
      · cases h
      · exact absurd h (by decide)
    · obtain ⟨x, i', p', f', exp, hx', _, _, _, _, _, rfl⟩ := hb
      injection h1 with h1 _
      exact absurd h1 (by decide)
    · rw [← h1] at hb
      exact absurd (infText_head hb) (by decide)
    · rcases hb with hb | ⟨w', cs, hw, hb, _⟩
      · rw [← h1] at hb
        injection hb with hb _
        exact absurd hb (by decide)
      · cases w' with
        | nil => cases hw
        | cons v w' =>
          rw [hb] at h1
          injection h1 with h1 _
          injection hw with hw _
          rw [← h1] at hw
          exact absurd hw (by decide)

/-- A geometry written as well-known text by one build and read by the same or the other build is the same geometry, if the precision suffices
for its ordinates.

Partial: as `C57_wkt_round_trip_partial`, and the precision must be at least one. -/
theorem C74_builds_exchange_partial (hL : LibcOk L) (hI : Ieee fpu) {print : Nat → Dbl → List Byte} (hprint : print = stdPrint L ∨ print = ryuPrint)
    {parse : List Byte → Option Dbl} (hparse : parse = stdParse L ∨ parse = fastParse fpu)
    {g : Geom} {t : List Event} (ht : FeatureTrace g t) (hw : g.WF) (hu : g.Uniform) (hs : g.SinglePoints)
    (hh : g.height ≤ 31) (raw : WktW) {p : Nat} (h1 : 1 ≤ p) (hp : p ≤ 16) (flat : Bool) (hn : g.Ordinates (ShortDecimal p))
    (hf : flat = true → g.FlatReadable) (r : WktR) :
    ∃ s' t', feed (wktHandler print) t (wktInitVisitor p flat (-1) (wktInit raw)) = .ok () s' ∧
      Behaves (fun _ h => wktVisit parse s'.values h r) t' (.done ()) ∧ FeatureTrace g t' := by
  have hpe : parse [] = none := by rcases hparse with rfl | rfl <;> rfl
  have hE : ∀ w, parse (69 :: w) = none := by
    rcases hparse with rfl | rfl
    · exact stdParse_E hL
    · exact fastParse_E
  have hlen : ∀ n x, (print n x).length ≤ 40 := by
    intro n x
    rcases hprint with rfl | rfl
    · exact (stdPrint_length hL.toSnprintfOk n x).trans (by decide)
    · obtain ⟨t, h1, _, h3⟩ := printDouble_length (f := x) (p := min n 16) (Nat.min_le_right _ _)
      unfold ryuPrint
      rw [h1]
      exact h3.trans (by decide)
  refine C27_write_then_read_partial hpe hE hlen ht hw hu hs hh raw p flat (ordinates_mono (fun x hx => ?_) g hn) hf r
  have e : (wktInitVisitor p flat (-1) (wktInit raw)).precision = p := by
    have := (C66_writer_precision raw p flat (-1)).2 (by omega) (by omega)
    omega
  rw [e]
  have key : ∀ parse', CorrectParser parse' → PrintsWords parse' (print p) x := by
    intro parse' hc
    rcases hprint with rfl | rfl
    · obtain ⟨⟨k, hk⟩, _⟩ := hx
      exact stdPrint_back hc hL h1 hp hk
    · exact hx.words hc hp
  rcases hparse with rfl | rfl
  · obtain ⟨k1, k2⟩ := key _ (longParse_correct hL)
    refine ⟨k1, ?_⟩
    unfold longParse at k2
    rw [if_pos (by have := hlen p x; omega)] at k2
    exact k2
  · exact key _ (C69_correct hI)

/-- The hypotheses are met by the example geometry. -/
example (raw : WktW) : ∃ L : Libc, LibcOk L ∧ ∀ t, FeatureTrace exWktGeom t → ∃ s' t',
    feed (wktHandler (stdPrint L)) t (wktInitVisitor 16 false (-1) (wktInit raw)) = .ok () s' ∧
      Behaves (fun _ h => wktVisit (stdParse L) s'.values h exWktR) t' (.done ()) ∧ FeatureTrace exWktGeom t' := by
  obtain ⟨fpu, _, hI⟩ := C69_machine_exists true
  obtain ⟨L, hL⟩ := C74_libc_exists
  refine ⟨L, hL, fun t ht => C74_builds_exchange_partial hL hI (Or.inl rfl) (Or.inl rfl) ht (by simp [exWktGeom, Geom.WF, Geom.WFL, Dims.n])
    (by simp [exWktGeom, Geom.Uniform, Geom.UniformL, FitsMember]) (by simp [exWktGeom, Geom.SinglePoints, Geom.SinglePointsL])
    (by simp [exWktGeom, Geom.height, Geom.heightL]) raw (by decide) (Nat.le_refl _) false ?_ (fun h => by cases h) exWktR⟩
  have sh : ∀ {x}, x = dbl1 ∨ x = dbl2 ∨ x = dbl3 ∨ x = dbl4 → ShortDecimal 16 x := fun h => shortDecimal_sixteen (exOrdinate h).1 (exOrdinate h).2
  have h1 := sh (Or.inl rfl)
  have h2 := sh (Or.inr (Or.inl rfl))
  have h3 := sh (Or.inr (Or.inr (Or.inl rfl)))
  have h4 := sh (Or.inr (Or.inr (Or.inr rfl)))
  have key : ∀ Q : Dbl → Prop, Q dbl1 → Q dbl2 → Q dbl3 → Q dbl4 → exWktGeom.Ordinates Q := fun Q a b c d => by
    simp [exWktGeom, Geom.Ordinates, Geom.OrdinatesL, a, b, c, d]
  exact key _ h1 h2 h3 h4

end Verif
