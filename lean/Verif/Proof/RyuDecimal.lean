import Verif.Proof.RyuDec
import Mathlib.Data.Rat.Floor
/-!
# `toDecimal`: small integers and all other numbers
-/
namespace Verif

theorem roundsTo_self (n : Nat) : RoundsTo n (magN n) := by
  have h1 := gap_pos n
  have h2 := gap_pos (n - 1)
  exact ⟨by linarith, by linarith, fun _ => by linarith, fun _ => by linarith⟩

theorem trimSmallInt_run : ∀ (k : Nat) (v : Dec), 0 < v.mantissa → v.mantissa < 10 ^ k → 0 ≤ v.exponent →
    ∃ d, trimSmallInt (k + 1) v = some d ∧ d.value = v.value ∧ 0 < d.mantissa ∧ d.mantissa ≤ v.mantissa ∧ 0 ≤ d.exponent
  | 0, v, h1, h2, _ => by simp at h2; omega
  | k + 1, v, h1, h2, h3 => by
    rw [trimSmallInt]
    by_cases h : v.mantissa % 10 ≠ 0
    · rw [if_pos h]; exact ⟨v, rfl, rfl, h1, Nat.le_refl _, h3⟩
    · rw [if_neg h]
      obtain ⟨d, e1, e2, e3, e4, e5⟩ := trimSmallInt_run k ⟨v.mantissa / 10, v.exponent + 1⟩ (by show 0 < v.mantissa / 10; omega)
        (by show v.mantissa / 10 < 10 ^ k; rw [Nat.pow_succ] at h2; omega) (by show 0 ≤ v.exponent + 1; omega)
      refine ⟨d, e1, ?_, e3, by have : d.mantissa ≤ v.mantissa / 10 := e4; omega, e5⟩
      rw [e2]
      obtain ⟨j, hj⟩ : ∃ j, v.mantissa = 10 * j := ⟨v.mantissa / 10, by omega⟩
      unfold Dec.value
      dsimp only
      rw [hj, Nat.mul_div_cancel_left _ (by decide), zpow_add_one₀ (by norm_num)]
      push_cast
      ring

theorem Dbl.exponent_eq (f : Dbl) : f.exponent = f.bits / 2 ^ 52 := by rw [f.bits_div]; rfl
theorem Dbl.mantissa_eq (f : Dbl) : f.mantissa = f.bits % 2 ^ 52 := by rw [f.bits_mod]; rfl

theorem toDecimal_ok {f : Dbl} (hn : 0 < f.bits) (hf : f.bits / 2 ^ 52 < 2047) : ∃ d, toDecimal f = some d ∧ DecOk f.bits d := by
  unfold toDecimal
  rw [f.exponent_eq, f.mantissa_eq]
  generalize f.bits = n at *
  cases hs : d2dSmallInt (n % 2 ^ 52) (n / 2 ^ 52) with
  | none => exact d2d_ok hn hf
  | some v =>
    unfold d2dSmallInt at hs
    dsimp only at hs
    by_cases h1 : ((n / 2 ^ 52 : Nat) : Int) - 1023 - 52 > 0
    · rw [if_pos h1] at hs; cases hs
    rw [if_neg h1] at hs
    by_cases h2 : ((n / 2 ^ 52 : Nat) : Int) - 1023 - 52 < -52
    · rw [if_pos h2] at hs; cases hs
    rw [if_neg h2] at hs
    by_cases h3 : (2 ^ 52 + n % 2 ^ 52) % 2 ^ (-(((n / 2 ^ 52 : Nat) : Int) - 1023 - 52)).toNat ≠ 0
    · rw [if_pos h3] at hs; cases hs
    rw [if_neg h3] at hs
    simp only [not_not] at h3
    cases hs
    have he : 0 < n / 2 ^ 52 := by omega
    have hk : ((n / 2 ^ 52 : Nat) : Int) - 1023 - 52 = -((1075 - n / 2 ^ 52 : Nat) : Int) := by omega
    rw [hk] at h3 ⊢
    rw [neg_neg, Int.toNat_natCast] at h3 ⊢
    generalize hj : 1075 - n / 2 ^ 52 = j at *
    have hj52 : j ≤ 52 := by omega
    have hv : ((2 ^ 52 + n % 2 ^ 52) / 2 ^ j : Nat) * 2 ^ j = 2 ^ 52 + n % 2 ^ 52 := Nat.div_mul_cancel (Nat.dvd_of_mod_eq_zero h3)
    have hpos : 0 < (2 ^ 52 + n % 2 ^ 52) / 2 ^ j := by
      apply Nat.pos_of_ne_zero; intro h0; rw [h0] at hv; omega
    have hle : (2 ^ 52 + n % 2 ^ 52) / 2 ^ j ≤ 2 ^ 52 + n % 2 ^ 52 := Nat.div_le_self _ _
    obtain ⟨d, e1, e2, e3, e4, e5⟩ := trimSmallInt_run 63 ⟨(2 ^ 52 + n % 2 ^ 52) / 2 ^ j, 0⟩ hpos
      (Nat.lt_of_le_of_lt hle (by have : (2 : Nat) ^ 52 + 2 ^ 52 < 10 ^ 63 := by norm_num
                                  omega)) (Int.le_refl _)
    have hm : magN n = d.value := by
      rw [e2]
      unfold magN Dec.value
      dsimp only
      rw [if_neg (by omega), Nat.max_eq_left (by omega), ← hv]
      have : ((n / 2 ^ 52 : Nat) : Int) - 1075 = -(j : Int) := by omega
      rw [this, zpow_neg, zpow_natCast]
      push_cast
      field_simp
      simp
    refine ⟨d, e1, ?_, e3, ?_, .inl e5, fun k _ => ?_⟩
    · rw [← hm]
      exact roundsTo_self n
    · have : d.mantissa ≤ (2 ^ 52 + n % 2 ^ 52) / 2 ^ j := e4
      have h17 : (2 : Nat) ^ 52 + 2 ^ 52 < 100000000000000000 := by norm_num
      omega
    · rw [← hm, sub_self, abs_zero]
      exact abs_nonneg _

/-- Open intervals longer than the unit contain a multiple of it. -/
theorem exists_multiple {a b c : ℚ} (ha : 0 ≤ a) (hc : 0 < c) (h : c < b - a) : ∃ k : Nat, a < k * c ∧ k * c < b := by
  refine ⟨⌊a / c⌋₊ + 1, ?_, ?_⟩
  · have := Nat.lt_floor_add_one (a / c)
    rw [div_lt_iff₀ hc] at this
    exact_mod_cast this
  · have := Nat.floor_le (div_nonneg ha hc.le)
    rw [le_div_iff₀ hc] at this
    push_cast
    linarith

theorem RoundsTo.lo_nonneg {n : Nat} (hn : 0 < n) : 0 ≤ magN n - gap (n - 1) / 2 := by
  have h1 := magN_above (n := n - 1) (m := n) (by omega)
  have h2 := magN_nonneg (n - 1)
  have h3 := gap_pos (n - 1)
  linarith

/-- If a number with `p` decimals is strictly inside the interval, the decimal found has at most `p` decimals. -/
theorem DecOk.exponent_ge {n : Nat} {d : Dec} (h : DecOk n d) {p k : Nat} (h1 : magN n - gap (n - 1) / 2 < k / 10 ^ p)
    (h2 : (k / 10 ^ p : ℚ) < magN n + gap n / 2) : -(p : Int) ≤ d.exponent := by
  rcases h.short with hs | hs
  · omega
  · by_contra hc
    have e : (k / 10 ^ p : ℚ) = ((k * 10 ^ (-(p : Int) - (d.exponent + 1)).toNat : Nat) : ℚ) * 10 ^ (d.exponent + 1) := by
      push_cast
      rw [mul_assoc, ← zpow_natCast, ← zpow_natCast, ← zpow_add₀ (by norm_num), Int.toNat_of_nonneg (by omega)]
      rw [show -(p : Int) - (d.exponent + 1) + (d.exponent + 1) = -(p : Int) by ring, zpow_neg]
      rfl
    rw [e] at h1 h2
    have := hs _ h1
    linarith

end Verif
