import Verif.Proof.RyuStart
import Verif.Proof.DblOrder
/-!
# `d2d` finds a decimal that rounds to the double
-/
namespace Verif

/-- The value of a decimal. -/
def Dec.value (d : Dec) : ℚ := d.mantissa * 10 ^ d.exponent

section
variable {D m2 mm u o r : Nat} {accept : Bool}

/-- The decimal has at most 17 digits. -/
theorem RyuOk.digits (h : RyuOk D (4 * m2 * u) ((4 * m2 + 2) * u) ((4 * m2 - 1 - mm) * u) accept o r) (hD : 0 < D) (hu : 0 < u)
    (hm : 0 < m2) (hm' : m2 < 2 ^ 53) (hs : mm = 1 ∨ mm = 0 ∧ m2 = 2 ^ 52) : o < 100000000000000000 := by
  have hs1 : mm ≤ 1 := by omega
  have hU : 0 < D * 10 ^ (r + 1) := Nat.mul_pos hD (Nat.pow_pos (by decide))
  have e2 : (4 * m2 + 2) * u = (4 * m2 - 1 - mm) * u + (3 + mm) * u := by rw [← Nat.add_mul]; congr 1; omega
  have h1 : (3 + mm) * u ≤ D * 10 ^ (r + 1) := by
    have h2 := div_mul_bounds ((4 * m2 - 1 - mm) * u) hU
    have h3 := h.short ((4 * m2 - 1 - mm) * u / (D * 10 ^ (r + 1)) + 1)
    generalize (4 * m2 - 1 - mm) * u / (D * 10 ^ (r + 1)) = k at h2 h3
    rw [Nat.add_mul k, e2, Nat.one_mul] at h3
    have h3 := h3 (by omega)
    omega
  have h4 : o * (3 + mm) * u ≤ 10 * (4 * m2 + 2) * u := by
    calc o * (3 + mm) * u = o * ((3 + mm) * u) := Nat.mul_assoc _ _ _
      _ ≤ o * (D * 10 ^ (r + 1)) := Nat.mul_le_mul_left _ h1
      _ = 10 * (o * (D * 10 ^ r)) := by rw [Nat.pow_succ]; ring
      _ ≤ 10 * ((4 * m2 + 2) * u) := Nat.mul_le_mul_left _ h.hi
      _ = _ := by ring
  have h5 := Nat.le_of_mul_le_mul_right h4 hu
  rcases hs with rfl | ⟨rfl, rfl⟩ <;> omega

/-- The bounds as rational numbers. -/
theorem RyuOk.scale (h : RyuOk D (4 * m2 * u) ((4 * m2 + 2) * u) ((4 * m2 - 1 - mm) * u) accept o r) (hm : 0 < m2) (hs : mm ≤ 1)
    {c : ℚ} (hc : 0 < c) {e10 e2 : Int} (hD : (D : ℚ) * c = 10 ^ e10) (hu : (u : ℚ) * c = 2 ^ e2) :
    (4 * m2 - 1 - mm : ℚ) * 2 ^ e2 ≤ o * 10 ^ (e10 + r) ∧ (o * 10 ^ (e10 + r) : ℚ) ≤ (4 * m2 + 2) * 2 ^ e2 ∧
    (accept = false → (4 * m2 - 1 - mm : ℚ) * 2 ^ e2 < o * 10 ^ (e10 + r)) ∧
    (accept = false → (o * 10 ^ (e10 + r) : ℚ) < (4 * m2 + 2) * 2 ^ e2) ∧
    ∀ k : Nat, (4 * m2 - 1 - mm : ℚ) * 2 ^ e2 < k * 10 ^ (e10 + r + 1) → ((4 * m2 + 2) * 2 ^ e2 : ℚ) ≤ k * 10 ^ (e10 + r + 1) := by
  have eM : ((((4 * m2 - 1 - mm) * u : Nat) : ℚ)) * c = (4 * m2 - 1 - mm : ℚ) * 2 ^ e2 := by
    rw [Nat.cast_mul, mul_assoc, hu, Nat.cast_sub (by omega), Nat.cast_sub (by omega)]; push_cast; ring
  have eP : ((((4 * m2 + 2) * u : Nat) : ℚ)) * c = (4 * m2 + 2 : ℚ) * 2 ^ e2 := by
    rw [Nat.cast_mul, mul_assoc, hu]; push_cast; ring
  have ex : ∀ k s : Nat, ((k * (D * 10 ^ s) : Nat) : ℚ) * c = k * 10 ^ (e10 + s) := by
    intro k s
    rw [zpow_add₀ (by norm_num), ← hD, zpow_natCast]; push_cast; ring
  have ex1 : ∀ k : Nat, ((k * (D * 10 ^ (r + 1)) : Nat) : ℚ) * c = k * 10 ^ (e10 + r + 1) := by
    intro k; rw [ex, Nat.cast_add, Nat.cast_one, add_assoc]
  rw [← eM, ← eP, ← ex]
  refine ⟨?_, ?_, fun ha => ?_, fun ha => ?_, fun k hk => ?_⟩
  · exact mul_le_mul_of_nonneg_right (Nat.cast_le.mpr h.lo) hc.le
  · exact mul_le_mul_of_nonneg_right (Nat.cast_le.mpr h.hi) hc.le
  · exact mul_lt_mul_of_pos_right (Nat.cast_lt.mpr (h.loS ha)) hc
  · exact mul_lt_mul_of_pos_right (Nat.cast_lt.mpr (h.hiS ha)) hc
  · rw [← ex1] at hk ⊢
    exact mul_le_mul_of_nonneg_right (Nat.cast_le.mpr (h.short k (Nat.cast_lt.mp (lt_of_mul_lt_mul_right hk hc.le)))) hc.le

/-- The closest of its length, as rational numbers. -/
theorem RyuOk.scale_closest (h : RyuOk D (4 * m2 * u) ((4 * m2 + 2) * u) ((4 * m2 - 1 - mm) * u) accept o r) (hm : 0 < m2) (hs : mm ≤ 1)
    {c : ℚ} (hc : 0 < c) {e10 e2 : Int} (hD : (D : ℚ) * c = 10 ^ e10) (hu : (u : ℚ) * c = 2 ^ e2) (k : Nat)
    (h1 : (4 * m2 - 1 - mm : ℚ) * 2 ^ e2 ≤ k * 10 ^ (e10 + r)) (h2 : accept = false → (4 * m2 - 1 - mm : ℚ) * 2 ^ e2 < k * 10 ^ (e10 + r)) :
    |(o * 10 ^ (e10 + r) : ℚ) - 4 * m2 * 2 ^ e2| ≤ |(k * 10 ^ (e10 + r) : ℚ) - 4 * m2 * 2 ^ e2| := by
  have eM : ((((4 * m2 - 1 - mm) * u : Nat) : ℚ)) * c = (4 * m2 - 1 - mm : ℚ) * 2 ^ e2 := by
    rw [Nat.cast_mul, mul_assoc, hu, Nat.cast_sub (by omega), Nat.cast_sub (by omega)]; push_cast; ring
  have eV : ((4 * m2 * u : Nat) : ℚ) * c = (4 * m2 : ℚ) * 2 ^ e2 := by
    rw [Nat.cast_mul, mul_assoc, hu]; push_cast; ring
  have ex : ∀ k : Nat, ((k * (D * 10 ^ r) : Nat) : ℚ) * c = k * 10 ^ (e10 + r) := by
    intro k
    rw [zpow_add₀ (by norm_num), ← hD, zpow_natCast]; push_cast; ring
  rw [← eM, ← ex] at h1 h2
  rw [← eV, ← ex, ← ex, ← sub_mul, ← sub_mul, abs_mul, abs_mul]
  refine mul_le_mul_of_nonneg_right ?_ (abs_nonneg c)
  have h3 := h.closest k (Nat.cast_le.mp (le_of_mul_le_mul_right h1 hc)) (fun ha => Nat.cast_lt.mp (lt_of_mul_lt_mul_right (h2 ha) hc.le))
  have h4 : ((|((o * (D * 10 ^ r) : Nat) : Int) - (4 * m2 * u : Nat)| : Int) : ℚ) ≤ ((|((k * (D * 10 ^ r) : Nat) : Int) - (4 * m2 * u : Nat)| : Int) : ℚ) :=
    Int.cast_le.mpr h3
  rw [Int.cast_abs, Int.cast_abs, Int.cast_sub, Int.cast_sub, Int.cast_natCast, Int.cast_natCast, Int.cast_natCast] at h4
  exact h4

end

/-- A decimal for the double with the bits `n`. -/
structure DecOk (n : Nat) (d : Dec) : Prop where
  rounds : RoundsTo n d.value
  pos : 0 < d.mantissa
  digits : d.mantissa < 100000000000000000
  short : 0 ≤ d.exponent ∨ ∀ k : Nat, magN n - gap (n - 1) / 2 < k * 10 ^ (d.exponent + 1) → magN n + gap n / 2 ≤ k * 10 ^ (d.exponent + 1)
  closest : ∀ k : Nat, RoundsTo n (k * 10 ^ d.exponent) → |d.value - magN n| ≤ |k * 10 ^ d.exponent - magN n|

theorem gap_pred {n : Nat} (hn : 0 < n) : gap (n - 1) = if n % 2 ^ 52 ≠ 0 ∨ n / 2 ^ 52 ≤ 1 then gap n else gap n / 2 := by
  unfold gap
  by_cases h : n % 2 ^ 52 = 0
  · have e1 : (n - 1) / 2 ^ 52 = n / 2 ^ 52 - 1 := by omega
    by_cases h1 : n / 2 ^ 52 ≤ 1
    · rw [if_pos (Or.inr h1), e1, Nat.max_eq_right h1, Nat.max_eq_right (by omega)]
    · rw [if_neg (by omega), e1, Nat.max_eq_left (by omega), Nat.max_eq_left (by omega)]
      have e2 : ((n / 2 ^ 52 : Nat) - 1075 : Int) = ((n / 2 ^ 52 - 1 : Nat) - 1075 : Int) + 1 := by omega
      rw [e2, zpow_add_one₀ (by norm_num)]
      ring
  · have e1 : (n - 1) / 2 ^ 52 = n / 2 ^ 52 := by omega
    rw [if_pos (Or.inl h), e1]

theorem d2d_ok {n : Nat} (hn : 0 < n) (hf : n / 2 ^ 52 < 2047) : ∃ d, d2d (n % 2 ^ 52) (n / 2 ^ 52) = some d ∧ DecOk n d := by
  obtain ⟨m2, hm2⟩ : ∃ m2, m2 = if n / 2 ^ 52 = 0 then n % 2 ^ 52 else 2 ^ 52 + n % 2 ^ 52 := ⟨_, rfl⟩
  obtain ⟨mm, hmm⟩ : ∃ mm, mm = if n % 2 ^ 52 ≠ 0 ∨ n / 2 ^ 52 ≤ 1 then 1 else 0 := ⟨_, rfl⟩
  obtain ⟨e2, he2⟩ : ∃ e2 : Int, e2 = if n / 2 ^ 52 = 0 then 1 - 1023 - 52 - 2 else ((n / 2 ^ 52 : Nat) : Int) - 1023 - 52 - 2 := ⟨_, rfl⟩
  have hpos : 0 < m2 := by rw [hm2]; split <;> omega
  have hlt : m2 < 2 ^ 53 := by rw [hm2]; split <;> omega
  have hs : mm = 1 ∨ mm = 0 ∧ m2 = 2 ^ 52 := by
    rw [hmm, hm2]
    by_cases h : n % 2 ^ 52 ≠ 0 ∨ n / 2 ^ 52 ≤ 1
    · rw [if_pos h]; exact .inl rfl
    · rw [if_neg h, if_neg (by omega)]; exact .inr ⟨rfl, by omega⟩
  have hs1 : mm ≤ 1 := by omega
  have hgap : gap n = 4 * 2 ^ e2 := by
    unfold gap
    have : ((max (n / 2 ^ 52) 1 : Nat) - 1075 : Int) = e2 + 2 := by rw [he2]; split <;> omega
    rw [this, zpow_add₀ (by norm_num)]; norm_num; ring
  have hmag : magN n = 4 * m2 * 2 ^ e2 := by
    have : magN n = m2 * gap n := by unfold magN gap; rw [hm2]
    rw [this, hgap]; ring
  have hgp : gap (n - 1) / 2 = (1 + mm) * 2 ^ e2 := by
    rw [gap_pred hn, hmm]
    by_cases h : n % 2 ^ 52 ≠ 0 ∨ n / 2 ^ 52 ≤ 1
    · rw [if_pos h, if_pos h, hgap]; push_cast; ring
    · rw [if_neg h, if_neg h, hgap]; push_cast; ring
  have hlo : magN n - gap (n - 1) / 2 = (4 * m2 - 1 - mm) * 2 ^ e2 := by rw [hmag, hgp]; ring
  have hhi : magN n + gap n / 2 = (4 * m2 + 2) * 2 ^ e2 := by rw [hmag, hgap]; ring
  have hodd : n % 2 = m2 % 2 := by rw [hm2]; split <;> omega
  -- the end, from either way through step 3
  have fin : ∀ (b : RyuBounds) (D u : Nat) (c : ℚ), 0 < c → (D : ℚ) * c = 10 ^ b.e10 → (u : ℚ) * c = 2 ^ e2 → 0 < D → 0 < u →
      RyuStart D (4 * m2 * u) ((4 * m2 + 2) * u) ((4 * m2 - 1 - mm) * u) (decide (m2 % 2 = 0)) b →
      ∃ d, (if b.vmZeros || b.vrZeros then d2dGeneral b (decide (m2 % 2 = 0)) else d2dCommon b) = some d ∧ DecOk n d := by
    intro b D u c hc h1 h2 hD hu hst
    have key : ∃ o r, (if b.vmZeros || b.vrZeros then d2dGeneral b (decide (m2 % 2 = 0)) else d2dCommon b) = some ⟨o, b.e10 + (r : Nat)⟩ ∧
        RyuOk D (4 * m2 * u) ((4 * m2 + 2) * u) ((4 * m2 - 1 - mm) * u) (decide (m2 % 2 = 0)) o r := by
      split
      · exact d2dGeneral_ok hst
      next hz => exact d2dCommon_ok hst (by simp only [Bool.or_eq_true, not_or, Bool.not_eq_true] at hz; exact hz.1)
    obtain ⟨o, r, h3, h4⟩ := key
    obtain ⟨s1, s2, s3, s4, s5⟩ := h4.scale hpos hs1 hc h1 h2
    refine ⟨_, h3, ⟨by rw [hlo]; exact s1, by rw [hhi]; exact s2, fun ho => by rw [hlo]; exact s3 (by simp; omega),
      fun ho => by rw [hhi]; exact s4 (by simp; omega)⟩, h4.pos, h4.digits hD hu hpos hlt hs, .inr fun k => ?_, fun k hk => ?_⟩
    · rw [hlo, hhi]; exact s5 k
    · unfold Dec.value
      rw [hmag]
      refine h4.scale_closest hpos hs1 hc h1 h2 k (by rw [← hlo]; exact hk.lo) fun ha => ?_
      rw [← hlo]
      exact hk.loS (by simp at ha; omega)
  unfold d2d
  dsimp only
  rw [← hm2, ← hmm, ← he2]
  by_cases h0 : 0 ≤ e2
  · obtain ⟨b, h1, h2, h3, h4⟩ := d2dUp_ok (m2 := m2) (e2 := e2.toNat) (mmShift := mm) hpos hlt hs (by
      rw [he2] at h0 ⊢; split at h0 <;> omega)
    rw [if_pos h0, h1]
    refine fin b _ _ (2 ^ upQ e2.toNat) (by positivity) ?_ ?_ (Nat.pow_pos (by decide)) (Nat.pow_pos (by decide)) h4
    · rw [h2, zpow_natCast]; push_cast; rw [← mul_pow]; norm_num
    · push_cast
      rw [← pow_add, Nat.sub_add_cancel h3, ← zpow_natCast, Int.toNat_of_nonneg h0]
  · obtain ⟨b, h1, h2, h3, h4⟩ := d2dDown_ok (m2 := m2) (n := (-e2).toNat) (mmShift := mm) hpos hlt hs1 (by
      rw [he2] at h0 ⊢; split at h0 <;> omega)
    rw [if_neg h0, h1]
    generalize hN : (-e2).toNat = N at *
    have hN' : e2 = -(N : Int) := by omega
    generalize downQ N = q at *
    refine fin b _ _ (5 ^ q * (10 ^ N)⁻¹) (by positivity) ?_ ?_ (Nat.pow_pos (by decide)) (Nat.pow_pos (by decide)) h4
    · rw [h2, zpow_sub₀ (by norm_num), zpow_natCast, zpow_natCast]
      push_cast
      rw [← mul_assoc, ← mul_pow]; norm_num
      rfl
    · have : (5 : ℚ) ^ N = 5 ^ (N - q) * 5 ^ q := by rw [← pow_add, Nat.sub_add_cancel h3]
      push_cast
      rw [← mul_assoc, ← this, hN', zpow_neg, zpow_natCast, show (10 : ℚ) = 2 * 5 by norm_num, mul_pow, mul_inv]
      field_simp

end Verif
