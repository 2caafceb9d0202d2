import Verif.Proof.RyuText
import Verif.Proof.RyuDec
/-!
# `to_chars_fixed` writes the decimal rounded to the given number of decimals
-/
namespace Verif

theorem roundedTo_self (o : Nat) {e : Int} {p : Nat} (h : -(p : Int) ≤ e) : RoundedTo p (o * 10 ^ e) (o * 10 ^ e) := by
  have h1 : (10 : ℚ) ^ e * 10 ^ p = 10 ^ (e + p).toNat := by
    rw [← zpow_natCast, ← zpow_natCast, ← zpow_add₀ (by norm_num), Int.toNat_of_nonneg (by omega)]
  refine ⟨o * 10 ^ (e + p).toNat, ?_, ?_, ?_⟩
  · push_cast
    rw [← h1, ← mul_assoc]
    field_simp
  · push_cast; rw [mul_assoc, h1]; simp
  · push_cast; rw [mul_assoc, h1]; intro h; norm_num at h

theorem hasDigits_tenth {o L : Nat} (h : HasDigits o L) (h0 : o % 10 = 0) : HasDigits (o / 10) (L - 1) := by
  obtain ⟨h1, h2, h3⟩ := h
  have h4 : 2 ≤ L := by
    by_contra hc
    have : L = 1 := by omega
    subst this
    simp at h2 h3
    omega
  obtain ⟨K, rfl⟩ : ∃ K, L = K + 2 := ⟨L - 2, by omega⟩
  refine ⟨by omega, ?_, ?_⟩
  · show 10 ^ K ≤ o / 10
    rw [Nat.le_div_iff_mul_le (by decide), ← Nat.pow_succ]; exact h2
  · show o / 10 < 10 ^ (K + 1)
    rw [Nat.div_lt_iff_lt_mul (by decide), ← Nat.pow_succ]; exact h3

theorem dropZeros_ok : ∀ (k o : Nat) (e : Int) (L : Nat), o < 10 ^ k → (o = 0 ∨ HasDigits o L) →
    ∃ o' e' L', dropZeros (k + 1) o e L = some (o', e', L') ∧ (o' * 10 ^ e' : ℚ) = o * 10 ^ e ∧ (o' = 0 ∧ e' = e ∨ HasDigits o' L') ∧ o' ≤ o ∧ e ≤ e' ∧ L' ≤ L
  | k, o, e, L, hk, hL => by
    rw [dropZeros]
    by_cases h : o ≠ 0 ∧ o % 10 = 0
    · rw [if_pos h]
      have hd := hL.resolve_left h.1
      match k, hk with
      | 0, hk => simp at hk; exact absurd hk h.1
      | k + 1, hk =>
        obtain ⟨o', e', L', h1, h2, h3, h4, h5, h6⟩ := dropZeros_ok k (o / 10) (e + 1) (L - 1) (by rw [Nat.pow_succ] at hk; omega)
          (.inr (hasDigits_tenth hd h.2))
        have hv : ((o / 10 : Nat) * 10 ^ (e + 1) : ℚ) = o * 10 ^ e := by
          obtain ⟨j, hj⟩ : ∃ j, o = 10 * j := ⟨o / 10, by omega⟩
          rw [hj, Nat.mul_div_cancel_left _ (by decide), zpow_add_one₀ (by norm_num)]; push_cast; ring
        refine ⟨o', e', L', h1, by rw [h2, hv], .inr ?_, by omega, by omega, by omega⟩
        rcases h3 with ⟨rfl, _⟩ | h3
        · exfalso
          rw [hv] at h2
          have : (o : ℚ) * 10 ^ e ≠ 0 := mul_ne_zero (by exact_mod_cast h.1) (zpow_ne_zero _ (by norm_num))
          simp at h2
          rcases h2 with h2 | h2
          · exact h.1 h2
          · exact zpow_ne_zero e (by norm_num : (10 : ℚ) ≠ 0) h2
        · exact h3
    · rw [if_neg h]
      refine ⟨o, e, L, rfl, rfl, ?_, Nat.le_refl _, Int.le_refl _, Nat.le_refl _⟩
      rcases hL with h0 | h0
      · exact .inl ⟨h0, rfl⟩
      · exact .inr h0

/-- Rounding a number to a multiple of `D`, ties to even. -/
theorem half_even {o D q r k : Nat} (hD : 0 < D) (hr : o = q * D + r) (hlt : r < D) (heven : D % 2 = 0)
    (hk : k = if decide (r > D / 2) || (decide (r = D / 2) && decide (q % 2 = 1)) then q + 1 else q) :
    |(k : ℚ) - o / D| ≤ 1 / 2 ∧ (|(k : ℚ) - o / D| = 1 / 2 → k % 2 = 0) := by
  have hDq : (0 : ℚ) < D := by exact_mod_cast hD
  have ho : (o : ℚ) = q * D + r := by exact_mod_cast hr
  by_cases hup : r > D / 2 ∨ (r = D / 2 ∧ q % 2 = 1)
  · have e : k = q + 1 := by rw [hk, if_pos (by simpa using hup)]
    have e1 : (k : ℚ) - o / D = (D - r) / D := by rw [e, ho]; push_cast; field_simp; ring
    have hge : D ≤ 2 * r := by omega
    have hgeq : (D : ℚ) ≤ 2 * r := by exact_mod_cast hge
    have hltq : (r : ℚ) < D := by exact_mod_cast hlt
    rw [e1, abs_of_nonneg (div_nonneg (by linarith) hDq.le)]
    refine ⟨by rw [div_le_iff₀ hDq]; linarith, fun h => ?_⟩
    rw [div_eq_iff hDq.ne'] at h
    have : D = 2 * r := by have : (D : ℚ) = 2 * r := by linarith
                           exact_mod_cast this
    omega
  · have e : k = q := by rw [hk, if_neg (by simpa using hup)]
    have e1 : (k : ℚ) - o / D = -(r / D) := by rw [e, ho]; field_simp; ring
    have hle : 2 * r ≤ D := by omega
    have hleq : 2 * (r : ℚ) ≤ D := by exact_mod_cast hle
    rw [e1, abs_neg, abs_of_nonneg (by positivity)]
    refine ⟨by rw [div_le_iff₀ hDq]; linarith, fun h => ?_⟩
    rw [div_eq_iff hDq.ne'] at h
    have : D = 2 * r := by have : (D : ℚ) = 2 * r := by linarith
                           exact_mod_cast this
    omega

/-- The rounded number. -/
structure Rounded (x : ℚ) (p : Nat) (o : Nat) (e : Int) (L : Nat) : Prop where
  value : RoundedTo p x (o * 10 ^ e)
  digits : o = 0 ∧ e ≤ 0 ∨ HasDigits o L
  lt : o < 100000000000000000
  ge : -(p : Int) ≤ e
  len : e < 0 → L ≤ 17

theorem roundDecimals_ok {o L p : Nat} {exp : Int} (hd : HasDigits o L) (hL : L ≤ 17) (he : exp < 0) :
    ∃ o' e' L', roundDecimals o exp L p = some (o', e', L') ∧ Rounded (o * 10 ^ exp) p o' e' L' := by
  have hlt17 : o < 100000000000000000 := Nat.lt_of_lt_of_le hd.2.2 (Nat.le_trans (Nat.pow_le_pow_right (by decide) hL) (by norm_num))
  unfold roundDecimals
  by_cases h : (p : Int) < -exp
  · rw [if_pos h]
    dsimp only
    obtain ⟨t, ht⟩ : ∃ t, t = (-exp - p).toNat := ⟨_, rfl⟩
    rw [← ht]
    have hx : (o * 10 ^ exp : ℚ) * 10 ^ p = o / 10 ^ t := by
      have : exp = -(t : Int) - p := by omega
      rw [this, zpow_sub₀ (by norm_num), zpow_neg, zpow_natCast, zpow_natCast]
      field_simp
    by_cases htL : t > L
    · rw [if_pos htL]
      refine ⟨_, _, _, rfl, ⟨⟨0, by simp, ?_, fun _ => rfl⟩, .inl ⟨rfl, Int.le_refl _⟩, by norm_num, by omega, by omega⟩⟩
      have h1 : 10 * o < 10 ^ t := by
        have h2 : 10 ^ (L + 1) ≤ 10 ^ t := Nat.pow_le_pow_right (by decide) htL
        rw [Nat.pow_succ] at h2
        have := hd.2.2
        omega
      have h1q : 10 * (o : ℚ) < 10 ^ t := by exact_mod_cast h1
      rw [hx, Nat.cast_zero, zero_sub, abs_neg, abs_of_nonneg (by positivity), div_le_iff₀ (by positivity)]
      have : (0 : ℚ) ≤ o := by positivity
      linarith
    · rw [if_neg htL]
      have ht1 : 1 ≤ t := by omega
      have ht17 : t ≤ 17 := by omega
      have hp10 : pow10 t = some (10 ^ t) := by unfold pow10; rw [if_pos ht17]
      have hDpos : 0 < 10 ^ t := Nat.pow_pos (by decide)
      have heven : 10 ^ t % 2 = 0 := by
        obtain ⟨s, rfl⟩ : ∃ s, t = s + 1 := ⟨t - 1, by omega⟩
        rw [Nat.pow_succ]; omega
      have hdm := Nat.div_add_mod o (10 ^ t)
      have hrem : o - o / 10 ^ t * 10 ^ t = o % 10 ^ t := by rw [Nat.mul_comm]; omega
      have hrlt := Nat.mod_lt o hDpos
      have step : ∀ q r, q = o / 10 ^ t → r = o % 10 ^ t → (do
          let divisor ← pow10 t
          let half := divisor / 2
          let outputDiv := o / divisor
          let remainder := o - outputDiv * divisor
          let exp := exp + t
          let up := decide (remainder > half) || (decide (remainder = half) && decide (outputDiv % 2 = 1))
          dropZeros 64 (if up then outputDiv + 1 else outputDiv) exp (if up then decimalLength17 (outputDiv + 1) else L - t)) =
          dropZeros 64 (if decide (r > 10 ^ t / 2) || (decide (r = 10 ^ t / 2) && decide (q % 2 = 1)) then q + 1 else q) (exp + t)
            (if decide (r > 10 ^ t / 2) || (decide (r = 10 ^ t / 2) && decide (q % 2 = 1)) then decimalLength17 (q + 1) else L - t) := by
        intro q r hq hr
        rw [hp10, Option.bind_eq_bind, Option.bind_some]
        dsimp only
        rw [hrem, hq, hr]
      rw [step _ _ rfl rfl]
      generalize hq : o / 10 ^ t = q at *
      generalize hr : o % 10 ^ t = r at *
      generalize hup : (decide (r > 10 ^ t / 2) || (decide (r = 10 ^ t / 2) && decide (q % 2 = 1))) = up
      obtain ⟨k, hk⟩ : ∃ k, k = if up then q + 1 else q := ⟨_, rfl⟩
      obtain ⟨L1, hL1⟩ : ∃ L1, L1 = if up then decimalLength17 (q + 1) else L - t := ⟨_, rfl⟩
      have hqlt : 10 * q < 100000000000000000 := by
        have h2 : 10 * q ≤ 10 ^ t * q := Nat.mul_le_mul_right _ (by
          calc 10 = 10 ^ 1 := rfl
            _ ≤ 10 ^ t := Nat.pow_le_pow_right (by decide) ht1)
        omega
      have hq17 : q + 1 < 100000000000000000 := by
        omega
      have hk17 : k < 100000000000000000 := by rw [hk]; split <;> omega
      have hround := half_even (o := o) (D := 10 ^ t) (q := q) (r := r) (k := k) hDpos (by rw [Nat.mul_comm]; omega) hrlt heven (by rw [hup]; exact hk)
      have hkL : k = 0 ∨ HasDigits k L1 := by
        rw [hk, hL1]
        cases up with
        | true => exact .inr (decimalLength17_ok (Nat.succ_pos q) hq17).1
        | false =>
          rcases Nat.eq_zero_or_pos q with h0 | h0
          · left; simpa using h0
          · right
            simp only [Bool.false_eq_true, if_false]
            obtain ⟨d1, d2, d3⟩ := hd
            have htlt : t < L := by
              by_contra hc
              have : L = t := by omega
              subst this
              have : o / 10 ^ L = 0 := Nat.div_eq_of_lt d3
              omega
            refine ⟨by omega, ?_, ?_⟩
            · rw [← hq, Nat.le_div_iff_mul_le hDpos, ← Nat.pow_add, show L - t - 1 + t = L - 1 by omega]; exact d2
            · rw [← hq, Nat.div_lt_iff_lt_mul hDpos, ← Nat.pow_add, show L - t + t = L by omega]; exact d3
      obtain ⟨o', e', L', h1, h2, h3, h4, h5, h6⟩ := dropZeros_ok 63 k (exp + t) L1 (Nat.lt_trans hk17 (by norm_num)) hkL
      have het : exp + t = -(p : Int) := by omega
      have hL1' : L1 ≤ 17 := by
        rw [hL1]
        have := (decimalLength17_ok (Nat.succ_pos q) hq17).2
        split <;> omega
      refine ⟨o', e', L', by rw [← hk, ← hL1]; exact h1, ⟨k, ?_, ?_, ?_⟩, ?_, by omega, by omega, by omega⟩
      · rw [h2, het, zpow_neg, zpow_natCast]; rfl
      · rw [hx]; exact_mod_cast hround.1
      · rw [hx]; exact_mod_cast hround.2
      · rcases h3 with ⟨h6, h7⟩ | h6
        · exact .inl ⟨h6, by omega⟩
        · exact .inr h6
  · rw [if_neg h]
    exact ⟨_, _, _, rfl, ⟨roundedTo_self o (by omega), .inr hd, hlt17, by omega, fun _ => hL⟩⟩

/-- The parts of a number. -/
structure PartsOk (y : ℚ) (p : Nat) (a : FixedParts) : Prop where
  int : a.intPart = 0 ∧ a.intZeros = 0 ∨ HasDigits a.intPart a.intLength
  intLt : a.intPart < 100000000000000000
  dec : a.decPart = 0 ∨ HasDigits a.decPart a.decLength
  decLt : a.decPart < 100000000000000000
  value : y = a.intPart * 10 ^ a.intZeros + a.decPart / 10 ^ (a.decZeros + a.decLength)
  zeros : a.decPart ≠ 0 → a.intZeros = 0
  room : a.decPart ≠ 0 → a.decZeros + a.decLength ≤ p

theorem fixedParts_ok {v : Dec} {p : Nat} (h0 : 0 < v.mantissa) (h17 : v.mantissa < 100000000000000000) :
    ∃ a y, fixedParts v p = some a ∧ RoundedTo p v.value y ∧ PartsOk y p a := by
  obtain ⟨hd, hL⟩ := decimalLength17_ok h0 h17
  unfold fixedParts
  dsimp only
  by_cases he : v.exponent ≥ 0
  · rw [if_pos he]
    refine ⟨_, v.value, rfl, roundedTo_self _ (by omega), ⟨.inr hd, h17, .inl rfl, by norm_num, ?_, by simp, by simp⟩⟩
    simp only [Nat.cast_zero, zero_div, add_zero]
    rw [← zpow_natCast, Int.toNat_of_nonneg he]; rfl
  · rw [if_neg he]
    obtain ⟨o, e, L, h1, h2⟩ := roundDecimals_ok (p := p) hd hL (by omega : v.exponent < 0)
    rw [h1, Option.bind_eq_bind, Option.bind_some]
    dsimp only
    refine (fun (h : ∃ a, _ = some a ∧ PartsOk (o * 10 ^ e) p a) => let ⟨a, h3, h4⟩ := h; ⟨a, _, h3, h2.value, h4⟩) ?_
    by_cases he0 : e ≥ 0
    · rw [if_pos he0]
      refine ⟨_, rfl, ⟨?_, h2.lt, .inl rfl, by norm_num, ?_, by simp, by simp⟩⟩
      · rcases h2.digits with ⟨h3, h4⟩ | h3
        · exact .inl ⟨h3, by show e.toNat = 0; omega⟩
        · exact .inr h3
      · simp only [Nat.cast_zero, zero_div, add_zero]
        rw [← zpow_natCast, Int.toNat_of_nonneg he0]
    · rw [if_neg he0]
      obtain ⟨n, hn⟩ : ∃ n, n = (-e).toNat := ⟨_, rfl⟩
      have hen : e = -(n : Int) := by omega
      have hn1 : 1 ≤ n := by omega
      have hnp : n ≤ p := by have := h2.ge; omega
      rw [← hn]
      have hval : ∀ {a b c : Nat}, o = a * 10 ^ n + b → c = n → (o * 10 ^ e : ℚ) = a * 10 ^ 0 + b / 10 ^ c := by
        intro a b c ho hc
        have hq : (o : ℚ) = a * 10 ^ n + b := by exact_mod_cast ho
        rw [hen, zpow_neg, zpow_natCast, hq, hc]
        field_simp
      by_cases hnL : n < L
      · rw [if_pos hnL]
        -- here the number is not zero or its length is not needed
        have hP : 0 < 10 ^ n := Nat.pow_pos (by decide)
        have hdm := Nat.div_add_mod o (10 ^ n)
        have hmod := Nat.mod_lt o hP
        have hmodle : o % 10 ^ n ≤ o := Nat.mod_le _ _
        have hdivle : o / 10 ^ n ≤ o := Nat.div_le_self _ _
        have hlt := h2.lt
        have hint : o / 10 ^ n = 0 ∧ 0 = 0 ∨ HasDigits (o / 10 ^ n) (L - n) := by
          rcases h2.digits with ⟨h3, _⟩ | ⟨d1, d2, d3⟩
          · left; rw [h3]; simp
          · right
            refine ⟨by omega, ?_, ?_⟩
            · rw [Nat.le_div_iff_mul_le hP, ← Nat.pow_add, show L - n - 1 + n = L - 1 by omega]; exact d2
            · rw [Nat.div_lt_iff_lt_mul hP, ← Nat.pow_add, show L - n + n = L by omega]; exact d3
        have hn17 : n ≤ 17 := by have := h2.len (by omega); omega
        · have e1 : pow10 n = some (10 ^ n) := by unfold pow10; rw [if_pos hn17]
          have e2 : pow10 (n - 1) = some (10 ^ (n - 1)) := by unfold pow10; rw [if_pos (by omega)]
          rw [e1, Option.bind_eq_bind, Option.bind_some, e2, Option.bind_some]
          by_cases hlow : o % 10 ^ n < 10 ^ (n - 1)
          · rw [if_pos hlow]
            rcases Nat.eq_zero_or_pos (o % 10 ^ n) with hz | hz
            · refine ⟨_, rfl, ⟨hint, by show o / 10 ^ n < _; omega, .inl hz, by show o % 10 ^ n < _; omega, ?_, fun h => absurd hz h, fun h => absurd hz h⟩⟩
              show (o * 10 ^ e : ℚ) = (o / 10 ^ n : Nat) * 10 ^ 0 + (o % 10 ^ n : Nat) / _
              rw [hz, hval (a := o / 10 ^ n) (b := 0) (c := n) (by rw [Nat.mul_comm]; omega) rfl]; simp
            · obtain ⟨g1, g2⟩ := decimalLength17_ok hz (by omega)
              have hle : decimalLength17 (o % 10 ^ n) ≤ n := by
                by_contra hc
                have := Nat.pow_le_pow_right (show 0 < 10 by decide) (show n ≤ decimalLength17 (o % 10 ^ n) - 1 by omega)
                have := g1.2.1
                omega
              refine ⟨_, rfl, ⟨hint, by show o / 10 ^ n < _; omega, .inr g1, by show o % 10 ^ n < _; omega,
                hval (by dsimp only; rw [Nat.mul_comm]; omega) (by show n - decimalLength17 _ + decimalLength17 _ = n; omega), fun _ => rfl, fun _ => ?_⟩⟩
              show n - decimalLength17 _ + decimalLength17 _ ≤ p
              omega
          · rw [if_neg hlow]
            refine ⟨_, rfl, ⟨hint, by show o / 10 ^ n < _; omega, .inr ⟨hn1, Nat.le_of_not_lt hlow, hmod⟩, by show o % 10 ^ n < _; omega,
              hval (by dsimp only; rw [Nat.mul_comm]; omega) (by show 0 + n = n; omega), fun _ => rfl, fun _ => ?_⟩⟩
            show 0 + n ≤ p
            omega
      · rw [if_neg hnL]
        rcases h2.digits with ⟨h3, h4⟩ | hd'
        · refine ⟨_, rfl, ⟨.inl ⟨rfl, rfl⟩, by norm_num, .inl h3, h2.lt, ?_, fun h => absurd h3 h, fun h => absurd h3 h⟩⟩
          simp [h3]
        · refine ⟨_, rfl, ⟨.inl ⟨rfl, rfl⟩, by norm_num, .inr hd', h2.lt, hval (a := 0) (b := o) (by omega) (by show n - L + L = n; omega), fun _ => rfl, fun _ => ?_⟩⟩
          show n - L + L ≤ p
          omega

theorem AllDigits.ne_minus {l : List Byte} (h : AllDigits l) : ∀ b ∈ l, b ≠ 45#8 := fun b hb he => by
  have := h b hb; rw [he] at this; simp at this

/-- The text of a fixed decimal. -/
structure FixedText (t : List Byte) (neg : Bool) (y : ℚ) (p : Nat) : Prop where
  text : ∃ int frac, AllDigits int ∧ int ≠ [] ∧ AllDigits frac ∧ frac.length ≤ p ∧
    t = (if neg then str "-" else []) ++ int ++ (if frac = [] then [] else str "." ++ frac) ∧
    y = digitsValue (int ++ frac) * 10 ^ (-(frac.length : Int)) ∧
    (int.length = 1 ∨ (10 ^ (int.length - 1) : ℚ) ≤ y)

theorem toCharsFixed_ok {v : Dec} {p : Nat} (sign : Bool) (h0 : 0 < v.mantissa) (h17 : v.mantissa < 100000000000000000) :
    ∃ t y, toCharsFixed v sign p = some t ∧ RoundedTo p v.value y ∧ FixedText t (sign && decide (y ≠ 0)) y p := by
  obtain ⟨a, y, h1, h2, h3⟩ := fixedParts_ok (p := p) h0 h17
  obtain ⟨ti, i1, i2, i3⟩ := toCharsUint64_ok (L := a.intLength) h3.intLt (h3.int.imp And.left id)
  obtain ⟨z1, z2⟩ := zeros_ok a.intZeros
  have hny : (decide (a.intPart ≠ 0) || decide (a.decPart ≠ 0)) = decide (y ≠ 0) := by
    have hy : y = 0 ↔ a.intPart = 0 ∧ a.decPart = 0 := by
      rw [h3.value]
      have p1 : (0 : ℚ) ≤ a.intPart * 10 ^ a.intZeros := by positivity
      have p2 : (0 : ℚ) ≤ a.decPart / 10 ^ (a.decZeros + a.decLength) := by positivity
      constructor
      · intro h
        have q1 : (a.intPart * 10 ^ a.intZeros : ℚ) = 0 := by linarith
        have q2 : (a.decPart / 10 ^ (a.decZeros + a.decLength) : ℚ) = 0 := by linarith
        constructor
        · rcases mul_eq_zero.mp q1 with q | q
          · exact_mod_cast q
          · exact absurd q (by positivity)
        · rcases div_eq_zero_iff.mp q2 with q | q
          · exact_mod_cast q
          · exact absurd q (by positivity)
      · rintro ⟨q1, q2⟩; rw [q1, q2]; simp
    rw [Bool.eq_iff_iff]
    simp only [Bool.or_eq_true, decide_eq_true_eq, ne_eq, hy]
    tauto
  -- the digits before the point
  have hint : AllDigits (ti ++ List.replicate a.intZeros (digit 0)) ∧
      digitsValue (ti ++ List.replicate a.intZeros (digit 0)) = a.intPart * 10 ^ a.intZeros ∧
      ((ti ++ List.replicate a.intZeros (digit 0)).length = 1 ∨
        (10 ^ ((ti ++ List.replicate a.intZeros (digit 0)).length - 1) : ℚ) ≤ a.intPart * 10 ^ a.intZeros) := by
    refine ⟨i2.all.append z1, by rw [digitsValue_append, i2.value, z2, List.length_replicate, Nat.add_zero], ?_⟩
    rw [List.length_append, List.length_replicate]
    rcases h3.int with ⟨e1, e2⟩ | hd
    · left
      rw [e1] at i1
      have : ti = [digit 0] := by
        have : toCharsUint64 0 a.intLength = some [digit 0] := rfl
        rw [this] at i1; cases i1; rfl
      rw [this, e2]; rfl
    · right
      have hne : a.intPart ≠ 0 := by
        have := Nat.lt_of_lt_of_le (Nat.pow_pos (show 0 < 10 by decide)) hd.2.1
        omega
      rw [i3 hne, show a.intLength + a.intZeros - 1 = (a.intLength - 1) + a.intZeros by have := hd.1; omega, pow_add]
      exact mul_le_mul_of_nonneg_right (by exact_mod_cast hd.2.1) (by positivity)
  unfold toCharsFixed
  simp only [h1, i1, Option.bind_eq_bind, Option.bind_some]
  rw [hny]
  by_cases hdec : a.decPart ≠ 0
  · obtain ⟨td, d1, d2, d3⟩ := toCharsUint64_ok (L := a.decLength) h3.decLt h3.dec
    obtain ⟨w1, w2⟩ := zeros_ok a.decZeros
    have hlen : (List.replicate a.decZeros (digit 0) ++ td).length = a.decZeros + a.decLength := by
      rw [List.length_append, List.length_replicate, d3 hdec]
    have hz : a.intZeros = 0 := h3.zeros hdec
    rw [if_pos hdec, d1, Option.bind_some]
    refine ⟨_, y, rfl, h2, ⟨ti ++ List.replicate a.intZeros (digit 0), List.replicate a.decZeros (digit 0) ++ td, hint.1, ?_, w1.append d2.all, ?_, ?_, ?_, ?_⟩⟩
    · simp [i2.ne]
    · rw [hlen]; exact h3.room hdec
    · rw [if_neg (c := List.replicate a.decZeros (digit 0) ++ td = []) (by simp [d2.ne])]; simp only [List.append_assoc]
    · rw [digitsValue_append, hint.2.1, digitsValue_append, w2, d2.value, hlen, h3.value, zpow_neg, zpow_natCast]
      push_cast
      field_simp
      ring
    · refine hint.2.2.imp id fun h => h.trans ?_
      rw [h3.value]
      have : (0 : ℚ) ≤ a.decPart / 10 ^ (a.decZeros + a.decLength) := by positivity
      linarith
  · rw [if_neg hdec]
    have hd0 : a.decPart = 0 := by simpa using hdec
    have hy : y = a.intPart * 10 ^ a.intZeros := by rw [h3.value, hd0]; simp
    refine ⟨_, y, rfl, h2, ⟨ti ++ List.replicate a.intZeros (digit 0), [], hint.1, by simp [i2.ne], allDigits_nil, by simp, by simp, ?_, ?_⟩⟩
    · rw [List.append_nil, hint.2.1, hy]; simp
    · rw [hy]; exact hint.2.2

end Verif
