import Verif.Proof.RyuTable
import Verif.Proof.RyuLoop
/-!
# The multiplications of step 3 of `d2d` give exact integer parts
-/
namespace Verif

theorem mulShift_eq {m : Nat} {mul : Nat × Nat} {j : Nat} (h1 : 64 ≤ j) (h2 : j < 192) (hm : m < 2 ^ 55) (hT : mul.2 * 2 ^ 64 + mul.1 < 2 ^ 128) :
    mulShift m mul j = some (m * (mul.2 * 2 ^ 64 + mul.1) / 2 ^ j % 2 ^ 64) := by
  unfold mulShift
  dsimp only
  rw [if_pos ⟨by omega, by omega⟩]
  have e1 : m * mul.1 / 2 ^ 64 + m * mul.2 = m * (mul.2 * 2 ^ 64 + mul.1) / 2 ^ 64 := by
    have : m * (mul.2 * 2 ^ 64 + mul.1) = m * mul.1 + m * mul.2 * 2 ^ 64 := by ring
    rw [this, Nat.add_mul_div_right _ _ (by decide)]
  have e2 : m * (mul.2 * 2 ^ 64 + mul.1) / 2 ^ 64 < 2 ^ 128 := by
    rw [Nat.div_lt_iff_lt_mul (by decide)]
    calc m * (mul.2 * 2 ^ 64 + mul.1) ≤ 2 ^ 55 * 2 ^ 128 := Nat.mul_le_mul (by omega) (by omega)
      _ < _ := by decide
  have e3 : ((j : Int) - 64).toNat = j - 64 := by omega
  rw [e1, Nat.mod_eq_of_lt e2, e3, Nat.div_div_eq_div_mul, ← Nat.pow_add, show 64 + (j - 64) = j by omega]

/-- Approximation from above. -/
theorem floor_up {m a b T ε K2 : Nat} (hb : 0 < b) (hK : 0 < K2) (hT : T * b = K2 + ε) (hm : m < 2 ^ 55) {g : Nat}
    (hg : ∀ n, m * a < n * b → m * a + g ≤ n * b) (hε : ε * 2 ^ 55 * a < K2 * g) : m * a * T / K2 = m * a / b := by
  have h1 := Nat.div_add_mod (m * a) b
  have h2 := Nat.mod_lt (m * a) hb
  generalize m * a / b = N at *
  generalize hr : m * a % b = r at *
  have hgap : m * a + g ≤ (N + 1) * b := hg (N + 1) (by rw [Nat.add_mul, Nat.mul_comm N b]; omega)
  have key : m * a * T < (N + 1) * K2 := by
    by_contra hc
    have h3 : (N + 1) * K2 * b ≤ m * a * T * b := Nat.mul_le_mul_right b (by omega)
    have h4 : m * a * T * b = m * a * K2 + m * a * ε := by rw [Nat.mul_assoc, hT, Nat.mul_add]
    have h5 : (m * a + g) * K2 ≤ (N + 1) * b * K2 := Nat.mul_le_mul_right _ hgap
    have h6 : m * a * ε ≤ ε * 2 ^ 55 * a := by
      calc m * a * ε = m * (a * ε) := by ring
        _ ≤ 2 ^ 55 * (a * ε) := Nat.mul_le_mul_right _ (by omega)
        _ = _ := by ring
    have h7 : (m * a + g) * K2 = m * a * K2 + K2 * g := by ring
    have h8 : (N + 1) * b * K2 = (N + 1) * K2 * b := by ring
    omega
  have low : N * K2 ≤ m * a * T := by
    have : N * K2 * b ≤ m * a * T * b := by
      calc N * K2 * b = b * N * K2 := by ring
        _ ≤ m * a * K2 := Nat.mul_le_mul_right _ (by omega)
        _ ≤ m * a * (T * b) := Nat.mul_le_mul_left _ (by omega)
        _ = _ := by ring
    exact Nat.le_of_mul_le_mul_right this hb
  exact Nat.div_eq_of_lt_le low (by simpa using key)

/-- Approximation from below. -/
theorem floor_down {m a b T ε : Nat} (hb : 0 < b) (hT : T + ε = a) (hm : m < 2 ^ 55) {g : Nat}
    (hg : ∀ n, n * b < m * a → n * b + g ≤ m * a) (hn : m * a % b ≠ 0 ∨ ε = 0) (hε : 2 ^ 55 * ε ≤ g ∨ ε = 0) : m * T / b = m * a / b := by
  have h1 := Nat.div_add_mod (m * a) b
  have h2 := Nat.mod_lt (m * a) hb
  generalize m * a / b = N at *
  generalize hr : m * a % b = r at *
  have e1 : m * a = m * T + m * ε := by rw [← hT, Nat.mul_add]
  have e2 : b * N = N * b := Nat.mul_comm _ _
  have key : m * ε ≤ r := by
    rcases hn with hn | hn
    · rcases hε with hε | hε
      · have := hg N (by omega)
        have h3 : m * ε ≤ 2 ^ 55 * ε := Nat.mul_le_mul_right _ (by omega)
        omega
      · subst hε; omega
    · subst hn; omega
  exact Nat.div_eq_of_lt_le (by omega) (by rw [Nat.add_mul]; omega)

/-- `e2 >= 0`: every multiplication gives the exact integer part. -/
theorem up_exact {e2 : Nat} (he : e2 < 970) : ∃ mul, pow5InvSplit[upQ e2]? = some mul ∧ upQ e2 ≤ e2 ∧ 5 ^ upQ e2 ≤ 2 ^ (e2 - upQ e2) ∧
    ∀ m, m < 2 ^ 55 → m * 2 ^ (e2 - upQ e2) / 5 ^ upQ e2 < 2 ^ 64 ∧
      mulShift m mul (-(e2 : Int) + upQ e2 + (125 + pow5bits (upQ e2) - 1)) = some (m * 2 ^ (e2 - upQ e2) / 5 ^ upQ e2) := by
  have h : upOk e2 = true := List.all_eq_true.mp upOk_all e2 (by simpa using he)
  unfold upOk at h
  dsimp only at h
  generalize upQ e2 = q at h ⊢
  cases hm : pow5InvSplit[q]? with
  | none => rw [hm] at h; cases h
  | some mul =>
    rw [hm] at h
    dsimp only at h
    simp only [Bool.and_eq_true, decide_eq_true_eq] at h
    obtain ⟨⟨⟨⟨⟨⟨⟨h1, h2⟩, h3⟩, h4⟩, h5⟩, h6⟩, h7⟩, h8⟩ := h
    refine ⟨mul, rfl, h1, h7, fun m hlt => ?_⟩
    have hb : 0 < 5 ^ q := Nat.pow_pos (by decide)
    have hsmall : m * 2 ^ (e2 - q) / 5 ^ q < 2 ^ 64 := by
      rw [Nat.div_lt_iff_lt_mul hb]
      refine Nat.lt_of_lt_of_le (Nat.mul_lt_mul_of_pos_right hlt (Nat.pow_pos (by decide))) h6
    refine ⟨hsmall, ?_⟩
    generalize hK : 125 + pow5bits q - 1 = K at *
    have hp : 1 ≤ pow5bits q := by unfold pow5bits; omega
    have ej : -(e2 : Int) + q + (125 + pow5bits q - 1) = ((K - (e2 - q) : Nat) : Int) := by omega
    rw [ej, mulShift_eq (by omega) (by omega) hlt h4]
    generalize mul.2 * 2 ^ 64 + mul.1 = T at *
    have e1 : m * T / 2 ^ (K - (e2 - q)) = m * 2 ^ (e2 - q) * T / 2 ^ K := by
      have h9 : 2 ^ K = 2 ^ (K - (e2 - q)) * 2 ^ (e2 - q) := by rw [← Nat.pow_add]; congr 1; omega
      rw [h9, show m * 2 ^ (e2 - q) * T = m * T * 2 ^ (e2 - q) by ring, Nat.mul_div_mul_right _ _ (Nat.pow_pos (by decide))]
    have e2' : m * 2 ^ (e2 - q) * T / 2 ^ K = m * 2 ^ (e2 - q) / 5 ^ q := by
      rcases Nat.eq_zero_or_pos m with rfl | hm0
      · simp
      · exact floor_up (ε := T * 5 ^ q - 2 ^ K) hb (Nat.pow_pos (by decide)) (by omega) hlt (fun n => (gaps_le hm0 hlt).2) h8
    rw [e1, e2', Nat.mod_eq_of_lt hsmall]

theorem five_two (i q : Nat) : Nat.Coprime (2 ^ q) (5 ^ i) := Nat.Coprime.pow _ _ (by decide)

/-- `e2 < 0` -/
theorem down_exact {n : Nat} (hn : n < 1077) : ∃ mul, pow5Split[n - downQ n]? = some mul ∧ downQ n ≤ n ∧ 2 ^ downQ n ≤ 5 ^ (n - downQ n) ∧
    ∀ m, m < 2 ^ 55 → m * 5 ^ (n - downQ n) / 2 ^ downQ n < 2 ^ 64 ∧
      mulShift m mul ((downQ n : Int) - ((pow5bits (n - downQ n) : Int) - 125)) = some (m * 5 ^ (n - downQ n) / 2 ^ downQ n) := by
  have h : downOk n = true := List.all_eq_true.mp downOk_all n (by simpa using hn)
  unfold downOk at h
  dsimp only at h
  generalize downQ n = q at h ⊢
  generalize n - q = i at h ⊢
  cases hm : pow5Split[i]? with
  | none => rw [hm] at h; cases h
  | some mul =>
    rw [hm] at h
    dsimp only at h
    simp only [Bool.and_eq_true, decide_eq_true_eq] at h
    obtain ⟨⟨⟨⟨⟨⟨h1, h2⟩, h3⟩, h4⟩, h5⟩, h6⟩, h7⟩ := h
    refine ⟨mul, rfl, h1, h6, fun m hlt => ?_⟩
    have hb : 0 < 2 ^ q := Nat.pow_pos (by decide)
    have hsmall : m * 5 ^ i / 2 ^ q < 2 ^ 64 := by
      rw [Nat.div_lt_iff_lt_mul hb]
      refine Nat.lt_of_lt_of_le (Nat.mul_lt_mul_of_pos_right hlt (Nat.pow_pos (by decide))) h5
    refine ⟨hsmall, ?_⟩
    generalize pow5bits i = w at *
    have ej : (q : Int) - ((w : Int) - 125) = ((q + 125 - w : Nat) : Int) := by omega
    rw [ej, mulShift_eq (by omega) (by omega) hlt h4]
    generalize mul.2 * 2 ^ 64 + mul.1 = T at *
    have key : m * T / 2 ^ (q + 125 - w) = m * 5 ^ i / 2 ^ q := by
      by_cases hw : 125 ≤ w
      · rw [if_pos hw] at h7
        simp only [Bool.and_eq_true, Bool.or_eq_true, decide_eq_true_eq] at h7
        obtain ⟨h8, h9⟩ := h7
        have e1 : m * T / 2 ^ (q + 125 - w) = m * (T * 2 ^ (w - 125)) / 2 ^ q := by
          have h11 : q + 125 - w + (w - 125) = q := by omega
          have h10 : 2 ^ q = 2 ^ (q + 125 - w) * 2 ^ (w - 125) := by rw [← Nat.pow_add, h11]
          rw [h10, ← Nat.mul_assoc, Nat.mul_div_mul_right _ _ (Nat.pow_pos (by decide))]
        rw [e1]
        rcases Nat.eq_zero_or_pos m with rfl | hm0
        · simp
        · refine floor_down (ε := 5 ^ i - T * 2 ^ (w - 125)) hb (by omega) hlt (fun n => (gaps_le hm0 hlt).1) ?_ ?_
          · rcases h9 with h9 | ⟨h9, -⟩
            · right; omega
            · left
              intro hz
              have hd : 2 ^ q ∣ m * 5 ^ i := Nat.dvd_of_mod_eq_zero hz
              have := Nat.le_of_dvd hm0 ((five_two i q).dvd_of_dvd_mul_right hd)
              have := Nat.pow_le_pow_right (show 0 < 2 by decide) h9
              omega
          · rcases h9 with h9 | ⟨-, h9⟩
            · right; omega
            · left; exact h9
      · rw [if_neg hw] at h7
        simp only [decide_eq_true_eq] at h7
        have h11 : q + 125 - w = q + (125 - w) := by omega
        rw [h7, ← Nat.mul_assoc, h11, Nat.pow_add, Nat.mul_div_mul_right _ _ (Nat.pow_pos (by decide))]
    rw [key, Nat.mod_eq_of_lt hsmall]

end Verif
