import Verif.Proof.FFDigits
import Verif.Proof.FFBig
/-!
# Reading the digits into a big integer
-/
namespace Verif.FF
open Verif

attribute [local irreducible] powerOfFive128

theorem eight_zeros {a b c d e f g h : Byte} (ht : read8 a b c d e f g h = 0x3030303030303030) :
    a = 48 ∧ b = 48 ∧ c = 48 ∧ d = 48 ∧ e = 48 ∧ f = 48 ∧ g = 48 ∧ h = 48 := by
  unfold read8 at ht
  have la := a.isLt
  have lb := b.isLt
  have lc := c.isLt
  have ld := d.isLt
  have le := e.isLt
  have lf := f.isLt
  have lg := g.isLt
  have lh := h.isLt
  refine ⟨?_, ?_, ?_, ?_, ?_, ?_, ?_, ?_⟩ <;> refine byte_ext (n := 48) ?_ (by norm_num) <;> omega

theorem skipZeros_ok (n : Nat) : ∀ l : List Byte, l.length ≤ n → skipZeros l = l.dropWhile (· == 48) := by
  induction n with
  | zero =>
    intro l hl
    rw [List.length_eq_zero_iff.1 (Nat.le_zero.1 hl)]
    rfl
  | succ n ih =>
    intro l hl
    rcases l with _ | ⟨a, _ | ⟨b, _ | ⟨c, _ | ⟨d, _ | ⟨e, _ | ⟨f, _ | ⟨g, _ | ⟨h, l⟩⟩⟩⟩⟩⟩⟩⟩
    any_goals rfl
    unfold skipZeros
    by_cases ht : read8 a b c d e f g h = 0x3030303030303030
    · rw [if_pos ht]
      obtain ⟨rfl, rfl, rfl, rfl, rfl, rfl, rfl, rfl⟩ := eight_zeros ht
      rw [ih l (by simp at hl; omega)]
      rfl
    · rw [if_neg ht]

theorem isTruncated_ok (n : Nat) : ∀ l : List Byte, l.length ≤ n → isTruncated l = l.any (· != 48) := by
  induction n with
  | zero =>
    intro l hl
    rw [List.length_eq_zero_iff.1 (Nat.le_zero.1 hl)]
    rfl
  | succ n ih =>
    intro l hl
    rcases l with _ | ⟨a, _ | ⟨b, _ | ⟨c, _ | ⟨d, _ | ⟨e, _ | ⟨f, _ | ⟨g, _ | ⟨h, l⟩⟩⟩⟩⟩⟩⟩⟩
    any_goals rfl
    unfold isTruncated
    by_cases ht : read8 a b c d e f g h = 0x3030303030303030
    · rw [if_pos ht]
      obtain ⟨rfl, rfl, rfl, rfl, rfl, rfl, rfl, rfl⟩ := eight_zeros ht
      rw [ih l (by simp at hl; omega)]
      rfl
    · rw [if_neg ht]
      by_cases hz : (a :: b :: c :: d :: e :: f :: g :: h :: l).any (· != 48) = true
      · exact hz.symm
      · exfalso
        rw [Bool.not_eq_true] at hz
        simp only [List.any_cons, Bool.or_eq_false_iff, bne_eq_false_iff_eq] at hz
        obtain ⟨rfl, rfl, rfl, rfl, rfl, rfl, rfl, rfl, _⟩ := hz
        exact ht (by decide)

theorem any_digits {l : List Byte} (h : AllDigits l) : l.any (· != 48) = true ↔ digitsValue l ≠ 0 := by
  induction l with
  | nil => simp [digitsValue]
  | cons b l ih =>
    rw [List.any_cons, Bool.or_eq_true, ih h.tail, digitsValue_cons]
    have hb := h.head
    have hp : 0 < 10 ^ l.length := Nat.pow_pos (by norm_num)
    by_cases h0 : b = 48
    · subst h0; simp
    · have hne : b.toNat ≠ 48 := fun hh => h0 (byte_ext hh (by norm_num))
      have : 0 < (b.toNat - 48) * 10 ^ l.length := Nat.mul_pos (by omega) hp
      refine ⟨fun _ => by omega, fun _ => Or.inl (by simpa using h0)⟩

theorem dropZeros_value (l : List Byte) : digitsValue (l.dropWhile (· == 48)) = digitsValue l := by
  induction l with
  | nil => rfl
  | cons b l ih =>
    by_cases h0 : b = 48
    · rw [List.dropWhile_cons_of_pos (by simpa using h0), ih, digitsValue_cons, h0]; simp
    · rw [List.dropWhile_cons_of_neg (by simpa using h0)]

theorem dropZeros_digits {l : List Byte} (h : AllDigits l) : AllDigits (l.dropWhile (· == 48)) := fun b hb =>
  h b ((List.dropWhile_sublist _).mem hb)

/-- What remains after the leading zeros begins with a digit that is not zero. -/
theorem dropZeros_low {l : List Byte} (h : AllDigits l) (hne : l.dropWhile (· == 48) ≠ []) :
    10 ^ ((l.dropWhile (· == 48)).length - 1) ≤ digitsValue l := by
  rw [← dropZeros_value]
  have hd := dropZeros_digits h
  cases e : l.dropWhile (· == 48) with
  | nil => exact absurd e hne
  | cons b r =>
    rw [e] at hd
    have hb := hd.head
    have hb0 : b ≠ 48 := by
      have := List.head_dropWhile_not (· == 48) hne
      simp only [e, List.head_cons] at this
      simpa using this
    have hn : b.toNat ≠ 48 := fun hh => hb0 (byte_ext hh (by norm_num))
    rw [digitsValue_cons, List.length_cons, Nat.add_sub_cancel]
    calc 10 ^ r.length = 1 * 10 ^ r.length := by ring
      _ ≤ (b.toNat - 48) * 10 ^ r.length := Nat.mul_le_mul_right _ (by omega)
      _ ≤ _ := Nat.le_add_right _ _

/-! ## The loops -/

/-- What a loop that reads digits has done. -/
structure Reads (max : Nat) (p : List Byte) (value counter digits : Nat) (r : Reading) (pre : List Byte) : Prop where
  p_eq : p = pre ++ r.p
  value_eq : r.value = value * 10 ^ pre.length + digitsValue pre
  counter_eq : r.counter = counter + pre.length
  digits_eq : r.digits = digits + pre.length
  counter_le : r.counter ≤ 19
  digits_le : r.digits ≤ max
  value_lt : r.value < 10 ^ r.counter

theorem Reads.refl {max : Nat} (p : List Byte) {value counter digits : Nat} (h1 : counter ≤ 19) (h2 : digits ≤ max) (h3 : value < 10 ^ counter) :
    Reads max p value counter digits ⟨p, value, counter, digits⟩ [] :=
  ⟨rfl, by unfold digitsValue; simp, rfl, rfl, h1, h2, h3⟩

theorem Reads.after {max : Nat} {p : List Byte} {value counter digits : Nat} {r r' : Reading} {pre pre' : List Byte}
    (h : Reads max p value counter digits r pre) (h' : Reads max r.p r.value r.counter r.digits r' pre') :
    Reads max p value counter digits r' (pre ++ pre') where
  p_eq := by rw [h.p_eq, h'.p_eq, List.append_assoc]
  value_eq := by rw [h'.value_eq, h.value_eq, digitsValue_append, List.length_append, pow_add]; ring
  counter_eq := by rw [h'.counter_eq, h.counter_eq, List.length_append]; ring
  digits_eq := by rw [h'.digits_eq, h.digits_eq, List.length_append]; ring
  counter_le := h'.counter_le
  digits_le := h'.digits_le
  value_lt := h'.value_lt

theorem digits_step {pre : List Byte} (hd : AllDigits pre) {value counter : Nat} (h : value < 10 ^ counter) :
    value * 10 ^ pre.length + digitsValue pre < 10 ^ (counter + pre.length) := by
  have := digitsValue_lt hd
  rw [pow_add]
  generalize 10 ^ counter = C at *
  generalize 10 ^ pre.length = P at *
  calc value * P + digitsValue pre < value * P + P := by omega
    _ = (value + 1) * P := by ring
    _ ≤ C * P := Nat.mul_le_mul_right _ h

theorem small_of {n c : Nat} (h : n < 10 ^ c) (hc : c ≤ 19) : n < 2 ^ 64 :=
  h.trans_le ((Nat.pow_le_pow_right (by norm_num) hc).trans (by norm_num))

theorem readEights_ok (max n : Nat) : ∀ (p : List Byte) (value counter digits : Nat), p.length ≤ n → AllDigits p → counter ≤ 19 → digits ≤ max →
    value < 10 ^ counter → ∃ pre, Reads max p value counter digits (readEights max p value counter digits) pre := by
  induction n with
  | zero =>
    intro p value counter digits hl _ h1 h2 h3
    rw [List.length_eq_zero_iff.1 (Nat.le_zero.1 hl)]
    exact ⟨[], Reads.refl _ h1 h2 h3⟩
  | succ n ih =>
    intro p value counter digits hl hd h1 h2 h3
    rcases p with _ | ⟨a, _ | ⟨b, _ | ⟨c, _ | ⟨d, _ | ⟨e, _ | ⟨f, _ | ⟨g, _ | ⟨h, l⟩⟩⟩⟩⟩⟩⟩⟩
    any_goals exact ⟨[], Reads.refl _ h1 h2 h3⟩
    unfold readEights
    by_cases ht : 19 - counter ≥ 8 ∧ max - digits ≥ 8
    · rw [if_pos ht]
      have hd8 : AllDigits [a, b, c, d, e, f, g, h] := AllDigits.left (b := l) hd
      have hlt := digits_step hd8 h3
      have hsm := small_of hlt (by show counter + 8 ≤ 19; omega)
      have ev : u64 (u64 (value * 100000000) + parseEight (read8 a b c d e f g h)) = value * 10 ^ 8 + digitsValue [a, b, c, d, e, f, g, h] := by
        rw [parseEight_ok hd8]
        have hsm : value * 10 ^ 8 + digitsValue [a, b, c, d, e, f, g, h] < 2 ^ 64 := hsm
        generalize digitsValue [a, b, c, d, e, f, g, h] = X at *
        unfold u64
        omega
      rw [ev]
      obtain ⟨pre, hr⟩ := ih l (value * 10 ^ 8 + digitsValue [a, b, c, d, e, f, g, h]) (counter + 8) (digits + 8) (by simp at hl; omega)
        (AllDigits.right (a := [a, b, c, d, e, f, g, h]) hd) (by omega) (by omega) hlt
      exact ⟨[a, b, c, d, e, f, g, h] ++ pre, Reads.after
        (r := ⟨l, value * 10 ^ 8 + digitsValue [a, b, c, d, e, f, g, h], counter + 8, digits + 8⟩)
        ⟨rfl, rfl, rfl, rfl, by show counter + 8 ≤ 19; omega, by show digits + 8 ≤ max; omega, hlt⟩ hr⟩
    · rw [if_neg ht]
      exact ⟨[], Reads.refl _ h1 h2 h3⟩

theorem readOnes_ok (max : Nat) : ∀ (p : List Byte) (value counter digits : Nat), AllDigits p → counter ≤ 19 → digits ≤ max →
    value < 10 ^ counter → ∃ pre, Reads max p value counter digits (readOnes max p value counter digits) pre ∧
      ((readOnes max p value counter digits).p = [] ∨ (readOnes max p value counter digits).counter = 19 ∨
        (readOnes max p value counter digits).digits = max)
  | [], value, counter, digits, _, h1, h2, h3 => ⟨[], Reads.refl _ h1 h2 h3, Or.inl rfl⟩
  | b :: l, value, counter, digits, hd, h1, h2, h3 => by
    unfold readOnes
    by_cases ht : counter < 19 ∧ digits < max
    · rw [if_pos ht]
      have hb1 : AllDigits [b] := AllDigits.left (b := l) hd
      have e1 : digitsValue [b] = digit b := by unfold digitsValue digit; simp
      have hlt := digits_step hb1 h3
      have hsm := small_of hlt (by show counter + 1 ≤ 19; omega)
      rw [e1] at hlt hsm
      have ev : u64 (u64 (value * 10) + digit b) = value * 10 ^ 1 + digit b := by
        have hsm : value * 10 ^ 1 + digit b < 2 ^ 64 := hsm
        unfold u64
        omega
      rw [ev]
      obtain ⟨pre, hr, hs⟩ := readOnes_ok max l (value * 10 ^ 1 + digit b) (counter + 1) (digits + 1) hd.tail (by omega) (by omega) hlt
      refine ⟨[b] ++ pre, Reads.after (r := ⟨l, value * 10 ^ 1 + digit b, counter + 1, digits + 1⟩)
        ⟨rfl, by rw [e1]; rfl, rfl, rfl, by show counter + 1 ≤ 19; omega, by show digits + 1 ≤ max; omega, hlt⟩ hr, hs⟩
    · rw [if_neg ht]
      refine ⟨[], Reads.refl _ h1 h2 h3, Or.inr ?_⟩
      show counter = 19 ∨ digits = max
      omega

theorem powersOfTen_eq {i : Nat} (h : i ≤ 19) : powersOfTen.getD i 0 = 10 ^ i := by
  have : ∀ i < 20, powersOfTen.getD i 0 = 10 ^ i := by decide
  exact this i (by omega)

theorem addNative_ok {big : List Nat} {power value : Nat} (hl : Limbs big) (hn : Norm big) (hp : power < 2 ^ 64) (hp0 : 0 < power) (hv : value < 2 ^ 64)
    (hb : val big * power + value < (2 ^ 64) ^ 62) : ∃ r, addNative big power value = some r ∧ val r = val big * power + value ∧ Limbs r ∧ Norm r := by
  obtain ⟨v, h1, h2, h3, h4⟩ := smallMul_ok hl hn hp hp0 (by omega)
  obtain ⟨r, g1, g2, g3, g4⟩ := smallAdd_ok h3 h4 hv (by rw [h2]; exact hb)
  refine ⟨r, ?_, by rw [g2, h2], g3, g4⟩
  unfold addNative
  rw [h1]
  exact g1

theorem capacity {n : Nat} (h : n ≤ 770) : 10 ^ n ≤ (2 ^ 64) ^ 62 :=
  (Nat.pow_le_pow_right (by norm_num) h).trans (by decide +kernel)

theorem readChunks_ok (max : Nat) (hmax : max ≤ 769) (n : Nat) : ∀ (p : List Byte) (big : List Nat) (digits : Nat), p.length ≤ n → AllDigits p →
    digits < max → Limbs big → Norm big → val big < 10 ^ digits → ∃ pre rest big', p = pre ++ rest ∧
      val big' = val big * 10 ^ pre.length + digitsValue pre ∧ Limbs big' ∧ Norm big' ∧
      ((readChunks max n p big digits = some (big', digits + pre.length, none) ∧ rest = [] ∧ digits + pre.length < max) ∨
        (readChunks max n p big digits = some (big', digits + pre.length, some rest) ∧ digits + pre.length = max)) := by
  induction n with
  | zero =>
    intro p big digits hl _ hm hL hN _
    rw [List.length_eq_zero_iff.1 (Nat.le_zero.1 hl)]
    exact ⟨[], [], big, rfl, by unfold digitsValue; simp, hL, hN, Or.inl ⟨by unfold readChunks; simp, rfl, by simpa using hm⟩⟩
  | succ n ih =>
    intro p big digits hl hd hm hL hN hv
    by_cases hp0 : p = []
    · subst hp0
      exact ⟨[], [], big, rfl, by unfold digitsValue; simp, hL, hN, Or.inl ⟨by unfold readChunks; simp, rfl, by simpa using hm⟩⟩
    obtain ⟨pre1, r1⟩ := readEights_ok max _ p 0 0 digits le_rfl hd (by omega) hm.le (by norm_num)
    obtain ⟨pre2, r2, hs⟩ := readOnes_ok max (readEights max p 0 0 digits).p (readEights max p 0 0 digits).value (readEights max p 0 0 digits).counter
      (readEights max p 0 0 digits).digits (by have := r1.p_eq; rw [this] at hd; exact hd.right) r1.counter_le r1.digits_le r1.value_lt
    have rr := r1.after r2
    have e : readChunks max (n + 1) p big digits = (addNative big (powersOfTen.getD (readOnes max (readEights max p 0 0 digits).p
        (readEights max p 0 0 digits).value (readEights max p 0 0 digits).counter (readEights max p 0 0 digits).digits).counter 0)
        (readOnes max (readEights max p 0 0 digits).p (readEights max p 0 0 digits).value (readEights max p 0 0 digits).counter
          (readEights max p 0 0 digits).digits).value).bind (fun big =>
        if (readOnes max (readEights max p 0 0 digits).p (readEights max p 0 0 digits).value (readEights max p 0 0 digits).counter
          (readEights max p 0 0 digits).digits).digits = max then some (big, (readOnes max (readEights max p 0 0 digits).p
            (readEights max p 0 0 digits).value (readEights max p 0 0 digits).counter (readEights max p 0 0 digits).digits).digits,
            some (readOnes max (readEights max p 0 0 digits).p (readEights max p 0 0 digits).value (readEights max p 0 0 digits).counter
              (readEights max p 0 0 digits).digits).p)
        else readChunks max n (readOnes max (readEights max p 0 0 digits).p (readEights max p 0 0 digits).value (readEights max p 0 0 digits).counter
          (readEights max p 0 0 digits).digits).p big (readOnes max (readEights max p 0 0 digits).p (readEights max p 0 0 digits).value
            (readEights max p 0 0 digits).counter (readEights max p 0 0 digits).digits).digits) := by
      cases p with
      | nil => exact absurd rfl hp0
      | cons b l => rfl
    rw [e]
    clear e
    generalize readOnes max (readEights max p 0 0 digits).p (readEights max p 0 0 digits).value (readEights max p 0 0 digits).counter
      (readEights max p 0 0 digits).digits = r at *
    generalize pre1 ++ pre2 = pre at *
    clear r1 r2
    obtain ⟨rp, rv, rc⟩ := rr
    rename_i rdg rcl rdl rvl
    rw [Nat.zero_mul, Nat.zero_add] at rv
    rw [Nat.zero_add] at rc
    have hpre : AllDigits pre := (rp ▸ hd : AllDigits (pre ++ r.p)).left
    have hrp : AllDigits r.p := (rp ▸ hd : AllDigits (pre ++ r.p)).right
    have hnew := digits_step hpre hv
    have hcap := hnew.trans_le (capacity (n := digits + pre.length) (by omega))
    obtain ⟨big', b1, b2, b3, b4⟩ := addNative_ok (power := 10 ^ pre.length) (value := digitsValue pre) hL hN
      (lt_of_le_of_lt (Nat.pow_le_pow_right (by norm_num) (rc ▸ rcl)) (by norm_num)) (Nat.pow_pos (by norm_num))
      (by rw [← rv]; exact small_of rvl rcl) hcap
    rw [powersOfTen_eq rcl, rc, rv, b1]
    show ∃ pre rest big', _ ∧ _ ∧ _ ∧ _ ∧ (((if r.digits = max then _ else _) = _ ∧ _) ∨ ((if r.digits = max then _ else _) = _ ∧ _))
    by_cases hmx : r.digits = max
    · refine ⟨pre, r.p, big', rp, b2, b3, b4, Or.inr ⟨?_, ?_⟩⟩
      · rw [if_pos hmx, rdg]
      · rw [← rdg]; exact hmx
    · have hpos : 0 < pre.length := by
        rcases hs with h | h | h
        · rw [h, List.append_nil] at rp
          rw [← rp]
          exact List.length_pos_iff.2 hp0
        · omega
        · exact absurd h hmx
      have hlen : p.length = pre.length + r.p.length := by rw [rp, List.length_append]
      obtain ⟨pre3, rest, big3, c1, c2, c3, c4, c5⟩ := ih r.p big' r.digits (by omega) hrp (by omega) b3 b4 (by rw [b2, rdg]; exact hnew)
      refine ⟨pre ++ pre3, rest, big3, by rw [rp, c1, List.append_assoc], ?_, c3, c4, ?_⟩
      · rw [c2, b2, digitsValue_append, List.length_append, pow_add]; ring
      · rw [if_neg hmx, List.length_append]
        rw [rdg] at c5 ⊢
        rw [← Nat.add_assoc]
        exact c5

theorem roundUpBig_ok {dropped : Bool} {big : List Nat} {digits : Nat} (hL : Limbs big) (hN : Norm big) (hd : digits ≤ 769) (hv : val big < 10 ^ digits) :
    ∃ big', roundUpBig dropped big digits = some (big', if dropped then digits + 1 else digits) ∧
      val big' = (if dropped then 10 * val big + 1 else val big) ∧ Limbs big' ∧ Norm big' := by
  unfold roundUpBig
  cases dropped with
  | false => exact ⟨big, rfl, rfl, hL, hN⟩
  | true =>
    have hp : 10 ^ (digits + 1) = 10 ^ digits * 10 := pow_succ _ _
    have hcap := capacity (n := digits + 1) (by omega)
    obtain ⟨r, h1, h2, h3, h4⟩ := addNative_ok (big := big) (power := 10) (value := 1) hL hN (by norm_num) (by norm_num) (by norm_num) (by omega)
    refine ⟨r, ?_, by rw [h2, if_pos rfl]; ring, h3, h4⟩
    rw [if_pos rfl, h1]
    rfl

/-- The big integer that stands for the digits, and how many of them it has. -/
def Digits769 (ds : List Byte) (big : List Nat) (digits : Nat) : Prop :=
  ∃ a b, ds = a ++ b ∧ a.length ≤ 769 ∧ ((digitsValue b = 0 ∧ val big = digitsValue a ∧ digits = a.length) ∨
    (a.length = 769 ∧ digitsValue b ≠ 0 ∧ val big = 10 * digitsValue a + 1 ∧ digits = 770))

/-- Reading the digits: all of them, or 769 and one more if a digit that is left out is not zero. -/
theorem parseMantissa_ok {int frac : List Byte} {dot : Bool} (hi : AllDigits int) (hf : AllDigits frac) (hdot : dot = false → frac = []) :
    ∃ big digits, parseMantissa 769 int (if dot then some frac else none) = some (big, digits) ∧ Limbs big ∧ Norm big ∧
      Digits769 ((int ++ frac).dropWhile (· == 48)) big digits := by
  have hskip := skipZeros_ok _ int le_rfl
  obtain ⟨pre, rest, big, c1, c2, c3, c4, c5⟩ := readChunks_ok 769 le_rfl (int.length + 1) (skipZeros int) [] 0
    (by rw [hskip]; exact (List.dropWhile_sublist _).length_le.trans (Nat.le_succ _)) (by rw [hskip]; exact dropZeros_digits hi)
    (by norm_num) Limbs.nil (Or.inl rfl) (by unfold val; norm_num)
  have hv0 : val [] = 0 := rfl
  rw [hv0, Nat.zero_mul, Nat.zero_add] at c2
  rw [Nat.zero_add] at c5
  have hdig : AllDigits (pre ++ rest) := by rw [← c1, hskip]; exact dropZeros_digits hi
  have hds : (int ++ frac).dropWhile (· == 48) = if pre ++ rest = [] then frac.dropWhile (· == 48) else pre ++ rest ++ frac := by
    rw [List.dropWhile_append, ← hskip, c1]
    simp only [List.isEmpty_iff]
  have hvb : val big < 10 ^ pre.length := by rw [c2]; exact digitsValue_lt hdig.left
  unfold parseMantissa
  rcases c5 with ⟨e, hr, hlt⟩ | ⟨e, hlen⟩
  · rw [e]
    subst hr
    rw [List.append_nil] at hds hdig
    cases dot with
    | false =>
      refine ⟨big, pre.length, rfl, c3, c4, ?_⟩
      rw [hds, hdot rfl, List.append_nil]
      refine ⟨pre, [], ?_, hlt.le, Or.inl ⟨rfl, c2, rfl⟩⟩
      split
      · next h => rw [h]; rfl
      · rw [List.append_nil]
    | true =>
      have hfskip := skipZeros_ok _ frac le_rfl
      obtain ⟨f, hfdef⟩ : ∃ f, f = if pre.length = 0 then skipZeros frac else frac := ⟨_, rfl⟩
      have hfd : AllDigits f := by
        rw [hfdef]; split
        · rw [hfskip]; exact dropZeros_digits hf
        · exact hf
      have hfl : f.length ≤ frac.length + 1 := by
        rw [hfdef]; split
        · rw [hfskip]; exact (List.dropWhile_sublist _).length_le.trans (Nat.le_succ _)
        · exact Nat.le_succ _
      have hds2 : (int ++ frac).dropWhile (· == 48) = pre ++ f := by
        rw [hds, hfdef]
        by_cases h0 : pre = []
        · subst h0; rw [if_pos rfl, if_pos List.length_nil, hfskip]; rfl
        · rw [if_neg h0, if_neg (fun h => h0 (List.length_eq_zero_iff.1 h))]
      obtain ⟨pre2, rest2, big2, d1, d2, d3, d4, d5⟩ := readChunks_ok 769 le_rfl (frac.length + 1) f big pre.length hfl hfd hlt c3 c4 hvb
      have hval : val big2 = digitsValue (pre ++ pre2) := by rw [d2, c2, digitsValue_append]
      have hd2 : AllDigits (pre2 ++ rest2) := d1 ▸ hfd
      show ∃ big' digits, ((readChunks 769 (frac.length + 1) (if pre.length = 0 then skipZeros frac else frac) big pre.length).bind fun x =>
        match x with
        | (big, digits, rest) =>
          match rest with
          | some p => roundUpBig (isTruncated p) big digits
          | none => some (big, digits)) = some (big', digits) ∧ _
      rw [← hfdef]
      rcases d5 with ⟨e2, hr2, hlt2⟩ | ⟨e2, hlen2⟩
      · rw [e2]
        subst hr2
        refine ⟨big2, pre.length + pre2.length, rfl, d3, d4, ?_⟩
        rw [hds2, d1, List.append_nil]
        exact ⟨pre ++ pre2, [], by rw [List.append_nil], by rw [List.length_append]; omega, Or.inl ⟨rfl, hval, by rw [List.length_append]⟩⟩
      · rw [e2]
        have hvb2 : val big2 < 10 ^ (pre.length + pre2.length) := by
          rw [hval, ← List.length_append]; exact digitsValue_lt (hdig.append hd2.left)
        obtain ⟨big3, f1, f2, f3, f4⟩ := roundUpBig_ok (dropped := isTruncated rest2) d3 d4 hlen2.le hvb2
        refine ⟨big3, _, f1, f3, f4, ?_⟩
        rw [hds2, d1, ← List.append_assoc]
        refine ⟨pre ++ pre2, rest2, rfl, by rw [List.length_append]; omega, ?_⟩
        have ht : isTruncated rest2 = true ↔ digitsValue rest2 ≠ 0 := by rw [isTruncated_ok _ rest2 le_rfl]; exact any_digits hd2.right
        by_cases hz : digitsValue rest2 = 0
        · have hF : isTruncated rest2 = false := by rw [← Bool.not_eq_true, ht]; exact fun h => h hz
          left
          rw [hF] at f2 ⊢
          exact ⟨hz, f2.trans hval, by rw [List.length_append]; rfl⟩
        · right
          rw [ht.2 hz] at f2 ⊢
          refine ⟨by rw [List.length_append]; exact hlen2, hz, f2.trans (by rw [if_pos rfl, hval]), ?_⟩
          rw [if_pos rfl, hlen2]
  · rw [e]
    have hpre : pre ++ rest ≠ [] := by
      intro h
      rw [(List.append_eq_nil_iff.1 h).1] at hlen
      cases hlen
    rw [if_neg hpre] at hds
    show ∃ big' digits, roundUpBig (isTruncated rest || (Option.map isTruncated (if dot then some frac else none)).getD false) big pre.length = _ ∧ _
    obtain ⟨big3, f1, f2, f3, f4⟩ := roundUpBig_ok (dropped := isTruncated rest || (Option.map isTruncated (if dot then some frac else none)).getD false)
      c3 c4 hlen.le hvb
    refine ⟨big3, _, f1, f3, f4, ?_⟩
    rw [hds, List.append_assoc]
    refine ⟨pre, rest ++ frac, rfl, hlen.le, ?_⟩
    have ht : (isTruncated rest || (Option.map isTruncated (if dot then some frac else none)).getD false) = true ↔ digitsValue (rest ++ frac) ≠ 0 := by
      rw [← any_digits (hdig.right.append hf), List.any_append, isTruncated_ok _ rest le_rfl]
      cases dot with
      | true => rw [if_pos rfl, Option.map_some, Option.getD_some, isTruncated_ok _ frac le_rfl]
      | false => rw [hdot rfl]; rfl
    generalize (isTruncated rest || (Option.map isTruncated (if dot then some frac else none)).getD false) = dr at *
    by_cases hz : digitsValue (rest ++ frac) = 0
    · have hF : dr = false := by rw [← Bool.not_eq_true, ht]; exact fun h => h hz
      left
      rw [hF] at f2 ⊢
      exact ⟨hz, f2.trans c2, rfl⟩
    · right
      rw [ht.2 hz] at f2 ⊢
      exact ⟨hlen, hz, f2.trans (by rw [if_pos rfl, c2]), by rw [if_pos rfl, hlen]⟩

end Verif.FF
