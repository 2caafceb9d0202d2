import Verif.Proof.RyuFixed
import Verif.Proof.RyuDecimal
/-!
# `GeoArrowPrintDouble` for every finite double
-/
namespace Verif

/-- The bits of `1e17`. -/
def bits1e17 : Nat := 0x4376345785D8A000

theorem magN_1e17 : magN bits1e17 = 10 ^ 17 := by
  unfold magN bits1e17
  norm_num

/-- The bits of the largest double. -/
def bitsMax : Nat := 0x7FEFFFFFFFFFFFFF

theorem magN_max : magN bitsMax + gap bitsMax = 2 ^ 1024 := by
  have h1 : bitsMax / 2 ^ 52 = 2046 := by unfold bitsMax; norm_num
  have h2 : bitsMax % 2 ^ 52 = 2 ^ 52 - 1 := by unfold bitsMax; norm_num
  unfold magN gap
  rw [h1, h2, if_neg (by decide), Nat.max_eq_left (by decide)]
  have e : ((2046 : Nat) : Int) - 1075 = ((971 : Nat) : Int) := by norm_num
  rw [e, zpow_natCast, show (1024 : Nat) = 53 + 971 from rfl, pow_add]
  generalize (2 : ℚ) ^ 971 = u
  push_cast
  norm_num
  ring

theorem gap_max : gap bitsMax = 2 ^ 971 := by
  have h1 : bitsMax / 2 ^ 52 = 2046 := by unfold bitsMax; norm_num
  unfold gap
  rw [h1, Nat.max_eq_left (by decide)]
  have e : ((2046 : Nat) : Int) - 1075 = ((971 : Nat) : Int) := by norm_num
  rw [e, zpow_natCast]

theorem Dbl.finite_bits {f : Dbl} : f.Finite ↔ f.bits ≤ bitsMax := by
  unfold Dbl.Finite bitsMax
  rw [← f.bits_div]
  have : f.bits < 2 ^ 63 := Nat.mod_lt _ (by decide)
  omega

/-- A number that rounds to a finite double does not overflow. -/
theorem RoundsTo.bounded {n : Nat} {x : ℚ} (h : RoundsTo n x) (hn : n ≤ bitsMax) : x < 2 ^ 1024 - 2 ^ 970 := by
  have h1 := magN_max
  have h2 := gap_max
  have h3 : (2 : ℚ) ^ 971 = 2 ^ 970 * 2 := pow_succ 2 970
  have hp : (0 : ℚ) < 2 ^ 970 := by positivity
  rw [h2, h3] at h1
  generalize (2 : ℚ) ^ 1024 = A at *
  generalize (2 : ℚ) ^ 970 = B at *
  rcases Nat.lt_or_eq_of_le hn with hlt | rfl
  · have h4 := magN_above hlt
    have := h.hi
    have := gap_pos n
    clear h2 h3
    linarith
  · have := h.hiS (by decide)
    rw [h2, h3] at this
    clear h2 h3
    linarith

theorem roundedTo_unique {o p : Nat} {e : Int} {y : ℚ} (h : -(p : Int) ≤ e) (hr : RoundedTo p (o * 10 ^ e) y) : y = o * 10 ^ e := by
  have h1 : (10 : ℚ) ^ e * 10 ^ p = 10 ^ (e + p).toNat := by
    rw [← zpow_natCast, ← zpow_natCast, ← zpow_add₀ (by norm_num), Int.toNat_of_nonneg (by omega)]
  obtain ⟨k, hk, hle, -⟩ := hr
  have h2 : (o * 10 ^ e : ℚ) * 10 ^ p = (o * 10 ^ (e + p).toNat : Nat) := by rw [mul_assoc, h1]; push_cast; rfl
  rw [h2] at hle
  have h3 : k = o * 10 ^ (e + p).toNat := by
    generalize o * 10 ^ (e + p).toNat = N at hle
    have h4 := abs_le.mp hle
    have h5 : (k : ℚ) < N + 1 := by linarith [h4.2]
    have h6 : (N : ℚ) < k + 1 := by linarith [h4.1]
    have h7 : k < N + 1 := by exact_mod_cast h5
    have h8 : N < k + 1 := by exact_mod_cast h6
    omega
  rw [hk, h3, ← h2]
  field_simp

theorem FixedText.decimal {t : List Byte} {neg : Bool} {y : ℚ} {p : Nat} (h : FixedText t neg y p) : DecimalText t neg y := by
  obtain ⟨int, frac, h1, h2, h3, h4, h5, h6, h7⟩ := h.text
  exact ⟨int, frac, [], 0, h1, h2, h3, by rw [h5, List.append_nil], .inl ⟨rfl, rfl⟩, by rw [h6, zero_sub]⟩

theorem pow_lt_of_le {a b : Nat} {y : ℚ} (h1 : (10 : ℚ) ^ a ≤ y) (h2 : y < 10 ^ b) : a < b := by
  by_contra hc
  have : (10 : ℚ) ^ b ≤ 10 ^ a := pow_le_pow_right₀ (by norm_num) (by omega)
  linarith

theorem FixedText.length {t : List Byte} {neg : Bool} {y : ℚ} {p n : Nat} (h : FixedText t neg y p) (hn : 1 ≤ n) (hy : y < 10 ^ n) : t.length ≤ n + p + 2 := by
  obtain ⟨int, frac, h1, h2, h3, h4, h5, h6, h7⟩ := h.text
  have hint : int.length ≤ n := by
    rcases h7 with h7 | h7
    · omega
    · have := pow_lt_of_le h7 hy; omega
  have hs : ((if neg then str "-" else []) : List Byte).length ≤ 1 := by cases neg <;> decide
  have hf : ((if frac = [] then [] else str "." ++ frac) : List Byte).length ≤ p + 1 := by
    split
    · simp
    · rw [List.length_append]; have : (str ".").length = 1 := by decide
      omega
  rw [h5, List.length_append, List.length_append]
  omega

theorem expText_ok {e : Int} (h : e.natAbs < 1000) : ∃ ds, expText e = some ((str "e" ++ if e < 0 then str "-" else str "+") ++ ds) ∧ AllDigits ds ∧
    ds ≠ [] ∧ digitsValue ds = e.natAbs ∧ ds.length ≤ 3 := by
  unfold expText
  dsimp only
  generalize e.natAbs = n at *
  by_cases h1 : n ≥ 100
  · obtain ⟨p, e1, a1, v1, l1⟩ := digitPair_ok (c := n / 10) (by omega)
    obtain ⟨a2, v2⟩ := digit_one (n := n % 10) (by omega)
    refine ⟨p ++ [digit (n % 10)], by rw [if_pos h1, e1]; rfl, a1.append a2, by simp, ?_, by rw [List.length_append, l1]; rfl⟩
    rw [digitsValue_append, v1, v2]; simp; omega
  · rw [if_neg h1]
    by_cases h2 : n ≥ 10
    · obtain ⟨p, e1, a1, v1, l1⟩ := digitPair_ok (c := n) (by omega)
      exact ⟨p, by rw [if_pos h2, e1]; rfl, a1, (by intro h; rw [h] at l1; cases l1), v1, by omega⟩
    · obtain ⟨a2, v2⟩ := digit_one (n := n) (by omega)
      exact ⟨[digit n], by rw [if_neg h2]; rfl, a2, by simp, v2, by simp⟩

theorem Dbl.sign_eq (f : Dbl) : f.sign = f.negative := by
  unfold Dbl.sign Dbl.negative
  have := f.isLt
  by_cases h : 2 ^ 63 ≤ f.toNat
  · rw [decide_eq_true h, decide_eq_true]; omega
  · rw [decide_eq_false h, decide_eq_false]; omega

theorem special_finite {f : Dbl} (hf : f.Finite) : f.special = decide (f.bits = 0) := by
  unfold Dbl.special
  unfold Dbl.Finite at hf
  rw [f.exponent_eq, f.mantissa_eq]
  rw [← f.bits_div] at hf
  rw [decide_eq_false (by omega : ¬ f.bits / 2 ^ 52 = 2 ^ 11 - 1), Bool.false_or, ← Bool.decide_and]
  congr 1
  apply propext
  omega

theorem printDouble_branch {f : Dbl} (hf : f.Finite) (p : Nat) :
    printDouble f p = if bits1e17 < f.bits then d2sExp f 17 else d2sFixed f p := by
  have hb := Dbl.finite_bits.mp hf
  unfold bitsMax at hb
  have e1 : (f.gt dbl1e17 || Dbl.gt (0xC376345785D8A000#64) f) = decide (bits1e17 < f.bits) := by
    unfold Dbl.gt
    have k1 : dbl1e17.toNat = 0x4376345785D8A000 := rfl
    have k2 : (0xC376345785D8A000#64).toNat = 0xC376345785D8A000 := rfl
    dsimp only
    simp only [k1, k2]
    unfold bits1e17 Dbl.bits at *
    have := f.isLt
    rw [Bool.eq_iff_iff]
    simp only [Bool.or_eq_true, Bool.and_eq_true, decide_eq_true_eq]
    by_cases hs : f.toNat < 2 ^ 63
    · simp only [hs, if_true]; norm_num; omega
    · simp only [hs, if_false]; norm_num; omega
  unfold printDouble
  rw [e1]
  by_cases h : bits1e17 < f.bits
  · rw [if_pos (by simpa using h), if_pos h]
  · rw [if_neg (by simpa using h), if_neg h]

theorem zpow_lt_pow {a : Int} {b : Nat} {y : ℚ} (h1 : (10 : ℚ) ^ a ≤ y) (h2 : y < 10 ^ b) : a < b := by
  by_contra hc
  have : (10 : ℚ) ^ (b : Int) ≤ 10 ^ a := zpow_le_zpow_right₀ (by norm_num) (by omega)
  rw [zpow_natCast] at this
  linarith

/-- What is printed for a finite double. -/
theorem printDouble_ok {f : Dbl} (hf : f.Finite) (p : Nat) : ∃ t, printDouble f p = some t ∧
    ((f.bits = 0 ∧ t = str "0") ∨
     (0 < f.bits ∧ f.bits ≤ bits1e17 ∧ ∃ d y, DecOk f.bits d ∧ RoundedTo p d.value y ∧ FixedText t (f.negative && decide (y ≠ 0)) y p) ∨
     (bits1e17 < f.bits ∧ ∃ d, DecOk f.bits d ∧ DecimalText t f.negative d.value ∧ t.length ≤ 25)) := by
  rw [printDouble_branch hf p]
  have hb := Dbl.finite_bits.mp hf
  have hexp : f.bits / 2 ^ 52 < 2047 := by rw [f.bits_div]; exact hf
  by_cases hbig : bits1e17 < f.bits
  · rw [if_pos hbig]
    obtain ⟨d, h1, h2⟩ := toDecimal_ok (f := f) (by omega) hexp
    have hspec : f.special = false := by rw [special_finite hf]; simp; omega
    obtain ⟨g1, g2⟩ := decimalLength17_ok h2.pos h2.digits
    obtain ⟨L, hL⟩ : ∃ L, L = decimalLength17 d.mantissa := ⟨_, rfl⟩
    rw [← hL] at g1 g2
    have hL1 := g1.1
    obtain ⟨t, y, h3, h4, h5⟩ := toCharsFixed_ok (v := ⟨d.mantissa, 1 - (L : Int)⟩) (p := 17) f.sign h2.pos h2.digits
    have hy : y = d.mantissa * 10 ^ (1 - (L : Int)) := roundedTo_unique (by omega) h4
    have hm : (0 : ℚ) < d.mantissa := by exact_mod_cast h2.pos
    have hy0 : y ≠ 0 := by rw [hy]; exact (mul_pos hm (zpow_pos (by norm_num) _)).ne'
    have hy1 : y < 10 ^ 1 := by
      have : (d.mantissa : ℚ) < 10 ^ L := by exact_mod_cast g1.2.2
      rw [hy, zpow_sub₀ (by norm_num), zpow_natCast, mul_div_assoc', div_lt_iff₀ (by positivity)]
      norm_num
      linarith
    have hval : y * 10 ^ (d.exponent + L - 1) = d.value := by
      rw [hy, mul_assoc, ← zpow_add₀ (by norm_num)]
      unfold Dec.value
      congr 2
      ring
    have hyge : 1 ≤ y := by
      have h6 : ((10 ^ (L - 1) : Nat) : ℚ) ≤ d.mantissa := by exact_mod_cast g1.2.1
      rw [hy, show (1 - (L : Int)) = -((L - 1 : Nat) : Int) by omega, zpow_neg, zpow_natCast]
      push_cast at h6
      rw [← div_eq_mul_inv, le_div_iff₀ (by positivity)]
      linarith
    have hE1 : d.exponent + L - 1 < ((309 : Nat) : Int) := by
      refine zpow_lt_pow (y := d.value) ?_ ?_
      · rw [← hval]
        have : (0 : ℚ) < 10 ^ (d.exponent + L - 1) := zpow_pos (by norm_num) _
        nlinarith
      · have h6 := h2.rounds.bounded hb
        have h7 : (2 : ℚ) ^ 1024 < 10 ^ 309 := by
          have : (2 : Nat) ^ 1024 < 10 ^ 309 := by decide +kernel
          exact_mod_cast this
        have h8 : (0 : ℚ) < 2 ^ 970 := by positivity
        exact lt_trans (lt_of_lt_of_le h6 (sub_le_self _ h8.le)) h7
    have hE0 : 0 ≤ d.exponent + L - 1 := by
      by_contra hc
      have h6 : (10 : ℚ) ^ (d.exponent + L - 1) ≤ 10 ^ (-1 : Int) := zpow_le_zpow_right₀ (by norm_num) (by omega)
      have h7 : d.value < 1 := by
        rw [← hval]
        have : (0 : ℚ) < 10 ^ (d.exponent + L - 1) := zpow_pos (by norm_num) _
        norm_num at h6 hy1
        nlinarith
      have h8 := h2.rounds.lo
      have h9 : magN bits1e17 ≤ magN f.bits - gap (f.bits - 1) := magN_below hbig
      have h10 := gap_pos (f.bits - 1)
      rw [magN_1e17] at h9
      norm_num at h9
      linarith
    obtain ⟨ds, x1, x2, x3, x4, x5⟩ := expText_ok (e := d.exponent + L - 1) (by omega)
    rw [if_neg (by omega)] at x1
    refine ⟨t ++ ((str "e" ++ str "+") ++ ds), ?_, .inr (.inr ⟨hbig, d, h2, ?_, ?_⟩)⟩
    · unfold d2sExp
      rw [if_neg (by simp [hspec])]
      simp only [h1, ← hL, h3, x1, Option.bind_eq_bind, Option.bind_some]
    · obtain ⟨int, frac, i1, i2, i3, i4, i5, i6, i7⟩ := h5.text
      refine ⟨int, frac, str "e+" ++ ds, d.exponent + L - 1, i1, i2, i3, ?_, .inr ⟨ds, x2, x3, .inl ⟨rfl, by omega⟩⟩, ?_⟩
      · rw [i5, f.sign_eq, decide_eq_true hy0, Bool.and_true]
        simp only [List.append_assoc]
        rfl
      · rw [← hval, i6, mul_assoc, ← zpow_add₀ (by norm_num)]
        congr 2
        ring
    · have := h5.length (n := 1) (Nat.le_refl _) hy1
      obtain ⟨int, frac, i1, i2, i3, i4, i5, i6, i7⟩ := h5.text
      rw [List.length_append, List.length_append]
      have e2 : (str "e" ++ str "+").length = 2 := by decide
      omega
  · rw [if_neg hbig]
    by_cases hz : f.bits = 0
    · refine ⟨str "0", ?_, .inl ⟨hz, rfl⟩⟩
      unfold d2sFixed
      rw [special_finite hf, if_pos (by simpa using hz)]
      unfold specialText
      rw [f.exponent_eq, f.mantissa_eq, hz]
      rfl
    · obtain ⟨d, h1, h2⟩ := toDecimal_ok (f := f) (by omega) hexp
      obtain ⟨t, y, h3, h4, h5⟩ := toCharsFixed_ok (v := d) (p := p) f.sign h2.pos h2.digits
      refine ⟨t, ?_, .inr (.inl ⟨by omega, by omega, d, y, h2, h4, by rw [← f.sign_eq]; exact h5⟩)⟩
      unfold d2sFixed
      rw [special_finite hf, if_neg (by simpa using hz), h1]
      exact h3

end Verif
