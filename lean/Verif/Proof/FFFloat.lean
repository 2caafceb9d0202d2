import Verif.Proof.FFTable
import Verif.Proof.FFRound
/-!
# The short way: 64 bits of digits times a power of ten
-/
namespace Verif.FF
open Verif

attribute [local irreducible] powerOfFive128

/-- What an entry of the table stands for: `5^q`, scaled to 128 bits. -/
def scale (q : Int) : ℚ := 5 ^ q * 2 ^ (190 + q - power q)

/-- What is known of an entry. -/
structure Entry (q : Int) : Prop where
  hi : tabHi q < 2 ^ 64
  lo : tabLo q < 2 ^ 64
  top : 2 ^ 127 ≤ tab q
  how : (0 ≤ q ∧ scale q = tab q ∧ (q ≤ 27 → tabLo q = 0) ∧ (q ≤ 23 → tabHi q % 2 = 0)) ∨
    ((27 < q ∨ q < -27) ∧ (tab q : ℚ) ≤ scale q ∧ scale q < tab q + 1 ∧ 2 ^ 64 ≤ gapAbove (2 ^ 64) (tab q) (2 ^ 137)) ∨
    (∃ p k : Nat, q = -p ∧ 1 ≤ p ∧ p ≤ 27 ∧ 130 ≤ k ∧ scale q = 2 ^ k / 5 ^ p ∧ 2 ^ k < tab q * 5 ^ p ∧ tab q * 5 ^ p < 2 ^ k + 5 ^ p)

theorem entry {q : Int} (h1 : -342 ≤ q) (h2 : q ≤ 308) : Entry q := by
  by_cases h0 : 0 ≤ q
  · obtain ⟨n, rfl⟩ := Int.eq_ofNat_of_zero_le h0
    have hn := List.all_eq_true.1 tabUpOk_all n (List.mem_range.2 (by omega))
    unfold tabUpOk at hn
    simp only [Bool.and_eq_true, decide_eq_true_eq] at hn
    obtain ⟨⟨⟨⟨hp, hh⟩, hl⟩, ht⟩, hr⟩ := hn
    refine ⟨hh, hl, ht, ?_⟩
    have es : scale n = 5 ^ n * 2 ^ (127 - (topUp n : Int)) := by
      unfold scale; rw [hp, zpow_natCast]; congr 2; ring
    rw [es]
    by_cases h55 : n ≤ 55
    · rw [if_pos h55] at hr
      simp only [Bool.and_eq_true, decide_eq_true_eq, Bool.or_eq_true] at hr
      obtain ⟨⟨⟨he, hT⟩, ha⟩, hb⟩ := hr
      refine .inl ⟨h0, ?_, fun h => ?_, fun h => ?_⟩
      · rw [hT, show (127 : Int) - (topUp n : Int) = ((127 - topUp n : Nat) : Int) by omega, zpow_natCast]; push_cast; rfl
      · rcases ha with ha | ha
        · omega
        · exact ha
      · rcases hb with hb | hb
        · omega
        · exact hb
    · rw [if_neg h55] at hr
      simp only [Bool.and_eq_true, decide_eq_true_eq] at hr
      obtain ⟨⟨⟨he, ha⟩, hb⟩, hg⟩ := hr
      refine .inr (.inl ⟨.inl (by omega), ?_, ?_, hg⟩)
      all_goals
        rw [show (127 : Int) - (topUp n : Int) = -((topUp n - 127 : Nat) : Int) by omega, zpow_neg, zpow_natCast]
        rw [← div_eq_mul_inv]
      · rw [le_div_iff₀ (by positivity)]; exact_mod_cast ha
      · rw [div_lt_iff₀ (by positivity)]; exact_mod_cast hb
  · obtain ⟨i, hi⟩ : ∃ i : Nat, q = -((i + 1 : Nat) : Int) := ⟨(-q - 1).toNat, by omega⟩
    have hn := List.all_eq_true.1 tabDownOk_all i (List.mem_range.2 (by omega))
    unfold tabDownOk at hn
    simp only [Bool.and_eq_true, decide_eq_true_eq] at hn
    rw [← hi] at hn
    obtain ⟨⟨⟨⟨⟨hp, hh⟩, hl⟩, ht⟩, hk⟩, hr⟩ := hn
    refine ⟨hh, hl, ht, ?_⟩
    have es : scale q = 2 ^ (topDown (i + 1)) / 5 ^ (i + 1) := by
      unfold scale
      rw [hp, hi, zpow_neg, zpow_natCast, show (190 : Int) + -((i + 1 : Nat) : Int) - (190 - ((i + 1 : Nat) : Int) - (topDown (i + 1) : Int)) = (topDown (i + 1) : Int) by ring,
        zpow_natCast]
      field_simp
    rw [es]
    by_cases h27 : i + 1 ≤ 27
    · rw [if_pos h27] at hr
      simp only [Bool.and_eq_true, decide_eq_true_eq] at hr
      exact .inr (.inr ⟨i + 1, topDown (i + 1), hi, by omega, h27, hk, rfl, hr.1, hr.2⟩)
    · rw [if_neg h27] at hr
      simp only [Bool.and_eq_true, decide_eq_true_eq] at hr
      obtain ⟨⟨ha, hb⟩, hg⟩ := hr
      refine .inr (.inl ⟨.inr (by omega), ?_, ?_, hg⟩)
      · rw [le_div_iff₀ (by positivity)]; exact_mod_cast ha
      · rw [div_lt_iff₀ (by positivity)]; exact_mod_cast hb

/-- The bits above the lowest 137 are the same for the product with the entry and with the power of five itself. -/
theorem tab_floor {q : Int} (h1 : -342 ≤ q) (h2 : q ≤ 308) {W : Nat} (hW : W < 2 ^ 64) (n : Nat) :
    n * 2 ^ 137 ≤ W * tab q ↔ ((n * 2 ^ 137 : Nat) : ℚ) ≤ W * scale q := by
  rcases Nat.eq_zero_or_pos W with h0 | h0
  · subst h0; rw [Nat.zero_mul, Nat.cast_zero, zero_mul]; norm_cast
  have hW' : (W : ℚ) < 2 ^ 64 := by exact_mod_cast hW
  have hW0 : (0 : ℚ) < W := by exact_mod_cast h0
  rcases (entry h1 h2).how with ⟨_, e, _⟩ | ⟨_, ha, hb, hg⟩ | ⟨p, k, hq, hp1, hp, hk, e, ha, hb⟩
  · rw [e]; norm_cast
  · constructor
    · intro h
      have h' : ((n * 2 ^ 137 : Nat) : ℚ) ≤ ((W * tab q : Nat) : ℚ) := by exact_mod_cast h
      rw [Nat.cast_mul W] at h'
      exact h'.trans (mul_le_mul_of_nonneg_left ha hW0.le)
    · intro h
      by_contra hc
      have hg' := gapAbove_le h0 hW (not_le.1 hc)
      have h3 : W * tab q + 2 ^ 64 ≤ n * 2 ^ 137 := by omega
      have h3' : (W : ℚ) * tab q + 2 ^ 64 ≤ ((n * 2 ^ 137 : Nat) : ℚ) := by exact_mod_cast h3
      have h4 : (W : ℚ) * scale q < W * (tab q + 1) := mul_lt_mul_of_pos_left hb hW0
      have h5 : (W : ℚ) * tab q + 2 ^ 64 < W * (tab q + 1) := h3'.trans_lt (h.trans_lt h4)
      linarith
  · have h5 : (0 : ℚ) < 5 ^ p := by positivity
    rw [e, ← mul_div_assoc, le_div_iff₀ h5]
    norm_cast
    have hp5 : 5 ^ p ≤ 5 ^ 27 := Nat.pow_le_pow_right (by norm_num) hp
    have hp0 : 0 < 5 ^ p := by positivity
    have hWT : W * 2 ^ k < W * (tab q * 5 ^ p) := Nat.mul_lt_mul_of_pos_left ha h0
    have hWT2 : W * (tab q * 5 ^ p) < W * (2 ^ k + 5 ^ p) := Nat.mul_lt_mul_of_pos_left hb h0
    constructor
    · intro h
      by_contra hc
      have hc := not_le.1 hc
      -- both are multiples of 2^130
      obtain ⟨j, hj⟩ : ∃ j, k = 130 + j := ⟨k - 130, by omega⟩
      have e1 : n * 2 ^ 137 * 5 ^ p = 2 ^ 130 * (n * 2 ^ 7 * 5 ^ p) := by ring
      have e2 : W * 2 ^ k = 2 ^ 130 * (W * 2 ^ j) := by rw [hj, pow_add]; ring
      rw [e1, e2] at hc
      have hc2 : W * 2 ^ j + 1 ≤ n * 2 ^ 7 * 5 ^ p := Nat.lt_of_mul_lt_mul_left hc
      have hc3 := Nat.mul_le_mul_left (2 ^ 130) hc2
      rw [Nat.mul_add, ← e1, ← e2] at hc3
      have h6 := Nat.mul_le_mul_right (5 ^ p) h
      have h7 : W * tab q * 5 ^ p = W * (tab q * 5 ^ p) := by ring
      have h8 : W * 5 ^ p < 2 ^ 64 * 5 ^ 27 := by
        calc W * 5 ^ p ≤ W * 5 ^ 27 := Nat.mul_le_mul_left _ hp5
          _ < _ := Nat.mul_lt_mul_of_pos_right hW (by norm_num)
      rw [Nat.mul_add] at hWT2
      have h9 : 2 ^ 64 * 5 ^ 27 < 2 ^ 130 * 1 := by norm_num
      omega
    · intro h
      have h6 : n * 2 ^ 137 * 5 ^ p < W * tab q * 5 ^ p := by
        rw [Nat.mul_assoc W]; exact lt_of_le_of_lt h hWT
      exact (Nat.lt_of_mul_lt_mul_right h6).le

theorem productApprox_eq (q : Int) (W : Nat) : productApprox q W =
    (if (W * tabHi q / 2 ^ 64) % 2 ^ 9 = 2 ^ 9 - 1 then
      (if W * tabLo q / 2 ^ 64 > u64 (W * tabHi q % 2 ^ 64 + W * tabLo q / 2 ^ 64) then
        (u64 (W * tabHi q / 2 ^ 64 + 1), u64 (W * tabHi q % 2 ^ 64 + W * tabLo q / 2 ^ 64))
      else (W * tabHi q / 2 ^ 64, u64 (W * tabHi q % 2 ^ 64 + W * tabLo q / 2 ^ 64)))
    else (W * tabHi q / 2 ^ 64, W * tabHi q % 2 ^ 64)) := rfl

/-- What the approximation of the product returns: the first product alone, or the two words at the top of the whole. -/
theorem productApprox_cases {q : Int} (h1 : -342 ≤ q) (h2 : q ≤ 308) {W : Nat} (hW : W < 2 ^ 64) :
    (let r := productApprox q W
     let P := W * tab q
     r.1 / 2 ^ 9 = P / 2 ^ 137 ∧ r.2 < 2 ^ 64 ∧ r.1 < 2 ^ 64 ∧
      ((r.1 * 2 ^ 64 + r.2 = P / 2 ^ 64) ∨ (r.1 * 2 ^ 64 + r.2 = W * tabHi q ∧ r.1 % 2 ^ 9 ≠ 2 ^ 9 - 1))) := by
  have he := entry h1 h2
  have hhi := he.hi
  have hlo := he.lo
  have hT : W * tab q = W * tabHi q * 2 ^ 64 + W * tabLo q := by unfold tab; ring
  have hf : W * tabHi q ≤ (2 ^ 64 - 1) * (2 ^ 64 - 1) := Nat.mul_le_mul (by omega) (by omega)
  have hs : W * tabLo q ≤ (2 ^ 64 - 1) * (2 ^ 64 - 1) := Nat.mul_le_mul (by omega) (by omega)
  rw [productApprox_eq, hT]
  generalize W * tabHi q = F at *
  generalize W * tabLo q = S at *
  clear hT he hhi hlo hW h1 h2
  unfold u64
  simp only
  by_cases c : F / 2 ^ 64 % 2 ^ 9 = 2 ^ 9 - 1
  · rw [if_pos c]
    by_cases d : S / 2 ^ 64 > (F % 2 ^ 64 + S / 2 ^ 64) % 2 ^ 64
    · rw [if_pos d]
      dsimp only
      omega
    · rw [if_neg d]
      dsimp only
      omega
  · rw [if_neg c]
    dsimp only
    omega

/-- The mantissa taken from the product: 54 bits, the floor of the scaled value. -/
theorem product_floor {q : Int} (h1 : -342 ≤ q) (h2 : q ≤ 308) {W : Nat} (hW : W < 2 ^ 64) (hW1 : 2 ^ 63 ≤ W) {hi ub m : Nat}
    (ehi : hi = (productApprox q W).1) (eub : ub = hi / 2 ^ 63) (em : m = hi / 2 ^ (9 + ub)) :
    ub ≤ 1 ∧ 2 ^ 53 ≤ m ∧ m < 2 ^ 54 ∧ m * 2 ^ (137 + ub) ≤ W * tab q ∧ (m : ℚ) * 2 ^ (137 + ub) ≤ W * scale q ∧
      W * scale q < ((m : ℚ) + 1) * 2 ^ (137 + ub) := by
  obtain ⟨ha, _, hc, _⟩ := productApprox_cases h1 h2 hW
  rw [← ehi] at ha hc
  have ht := (entry h1 h2).top
  have hP : 2 ^ 63 * 2 ^ 127 ≤ W * tab q := Nat.mul_le_mul hW1 ht
  have hf := fun n => tab_floor h1 h2 hW n
  generalize W * tab q = P at *
  have hub : ub ≤ 1 := by omega
  have key : m = P / 2 ^ 137 / 2 ^ ub := by
    rw [← ha, em, Nat.div_div_eq_div_mul, ← Nat.pow_add]
  have e1 : m * 2 ^ ub ≤ P / 2 ^ 137 := by rw [key]; exact Nat.div_mul_le_self _ _
  have e2 : P / 2 ^ 137 < (m + 1) * 2 ^ ub := by
    rw [key, Nat.mul_comm]; exact Nat.lt_mul_div_succ _ (by positivity)
  have f1 : m * 2 ^ ub * 2 ^ 137 ≤ P := (Nat.le_div_iff_mul_le (by positivity)).1 e1
  have f2 : P < (m + 1) * 2 ^ ub * 2 ^ 137 := (Nat.div_lt_iff_lt_mul (by positivity)).1 e2
  refine ⟨hub, ?_, ?_, ?_, ?_, ?_⟩
  · rcases (by omega : ub = 0 ∨ ub = 1) with h | h <;> subst h <;> omega
  · rcases (by omega : ub = 0 ∨ ub = 1) with h | h <;> rw [h] at em <;> omega
  · rw [Nat.add_comm, Nat.pow_add, ← Nat.mul_assoc]; exact f1
  · have := (hf (m * 2 ^ ub)).1 f1
    push_cast at this
    rw [add_comm 137, pow_add, ← mul_assoc]; exact this
  · have := (not_congr (hf ((m + 1) * 2 ^ ub))).1 (not_le.2 f2)
    rw [not_le] at this
    push_cast at this
    rw [add_comm 137, pow_add, ← mul_assoc]; exact this

theorem tabHi_small : tabHi (-1) = 0xcccccccccccccccc ∧ tabHi (-2) = 0xa3d70a3d70a3d70a ∧ tabHi (-3) = 0x83126e978d4fdf3b ∧
    tabHi (-4) = 0xd1b71758e219652b := by decide +kernel

/-- Only small powers of five reach the middle between two doubles. -/
theorem tie_range {q : Int} {W m j : Nat} (hW : W < 2 ^ 64) (h53 : 2 ^ 53 ≤ m) (h54 : m < 2 ^ 54) (hodd : m % 2 = 1)
    (h : (W : ℚ) * scale q = m * 2 ^ j) : -4 ≤ q ∧ q ≤ 23 := by
  obtain ⟨a, b, hz⟩ : ∃ a b : Nat, 190 + q - power q = (a : Int) - b := ⟨(190 + q - power q).toNat, (-(190 + q - power q)).toNat, by omega⟩
  unfold scale at h
  rw [hz, zpow_sub₀ (by norm_num), zpow_natCast, zpow_natCast] at h
  have hm2 : ∀ n, Nat.Coprime m (2 ^ n) := fun n => Nat.Coprime.pow_right _ (by unfold Nat.Coprime; rw [Nat.gcd_comm, Nat.gcd_rec, hodd]; rfl)
  have h52 : ∀ n i, Nat.Coprime (5 ^ n) (2 ^ i) := fun n i => Nat.Coprime.pow _ _ (by decide)
  by_cases h0 : 0 ≤ q
  · obtain ⟨n, rfl⟩ := Int.eq_ofNat_of_zero_le h0
    rw [zpow_natCast] at h
    have h' : W * 5 ^ n * 2 ^ a = m * 2 ^ (j + b) := by
      have : (W : ℚ) * 5 ^ n * 2 ^ a = m * 2 ^ (j + b) := by
        rw [pow_add]
        field_simp at h
        linarith
      exact_mod_cast this
    have hd : 5 ^ n ∣ m := (h52 n (j + b)).dvd_of_dvd_mul_right (by rw [← h']; exact ⟨W * 2 ^ a, by ring⟩)
    have hle : 5 ^ n ≤ m := Nat.le_of_dvd (by omega) hd
    refine ⟨by omega, ?_⟩
    by_contra hc
    have : 5 ^ 24 ≤ 5 ^ n := Nat.pow_le_pow_right (by norm_num) (by omega)
    have : (2 : Nat) ^ 54 < 5 ^ 24 := by norm_num
    omega
  · obtain ⟨p, rfl⟩ : ∃ p : Nat, q = -(p : Int) := ⟨(-q).toNat, by omega⟩
    rw [zpow_neg, zpow_natCast] at h
    have h' : W * 2 ^ a = m * 5 ^ p * 2 ^ (j + b) := by
      have : (W : ℚ) * 2 ^ a = m * 5 ^ p * 2 ^ (j + b) := by
        rw [pow_add]
        field_simp at h
        linarith
      exact_mod_cast this
    have hd : m * 5 ^ p ∣ W := (Nat.Coprime.mul_left (hm2 a) (h52 p a)).dvd_of_dvd_mul_right (by rw [h']; exact ⟨2 ^ (j + b), by ring⟩)
    have hpos : 0 < W := by
      rcases Nat.eq_zero_or_pos W with h0 | h0
      · rw [h0, Nat.zero_mul] at h'
        have : 0 < m * 5 ^ p * 2 ^ (j + b) := by positivity
        omega
      · exact h0
    have hle : m * 5 ^ p ≤ W := Nat.le_of_dvd hpos hd
    refine ⟨?_, by omega⟩
    by_contra hc
    have h5 : 5 ^ 5 ≤ 5 ^ p := Nat.pow_le_pow_right (by norm_num) (by omega)
    have := Nat.mul_le_mul h53 h5
    have : (2 : Nat) ^ 64 < 2 ^ 53 * 5 ^ 5 := by norm_num
    omega

/-- With the first product alone no number is taken for one in the middle between two doubles, if the power is negative. -/
theorem short_tie {W m ub lo T f r k : Nat} (h : m * 2 ^ (9 + ub) * 2 ^ 64 + lo = W * T) (hT : f * T + r = 2 ^ k) (hW : W < 2 ^ 64) (hW1 : 2 ^ 63 ≤ W)
    (hl : lo ≤ 1) (hub : ub ≤ 1) (hk : k ≤ 73) (hc1 : 2 ^ 64 * r + f < 2 * 2 ^ k ∧ 0 < r)
    (hc2 : (2 ^ k) % r ≠ 0 ∨ 2 ^ 64 ≤ 2 ^ k / r) (hc3 : f ≤ 2 ^ k ∧ (2 ^ k - f) % r ≠ 0) : False := by
  have e1 : W * r + f * lo + f * (m * 2 ^ (9 + ub) * 2 ^ 64) = W * 2 ^ k := by
    rw [← hT]
    have : f * (m * 2 ^ (9 + ub) * 2 ^ 64 + lo) = f * (W * T) := by rw [h]
    rw [Nat.mul_add] at this
    linarith [this, Nat.mul_add W (f * T) r, Nat.mul_left_comm f W T]
  have e2 : f * (m * 2 ^ (9 + ub) * 2 ^ 64) = 2 ^ k * (f * m * 2 ^ ub * 2 ^ (73 - k)) := by
    have : (2 : Nat) ^ (9 + ub) * 2 ^ 64 = 2 ^ k * 2 ^ ub * 2 ^ (73 - k) := by
      rw [← Nat.pow_add, ← Nat.pow_add, ← Nat.pow_add]; congr 1; omega
    rw [Nat.mul_assoc m, this]; ring
  have hd : 2 ^ k ∣ W * r + f * lo := by
    have : 2 ^ k ∣ W * r + f * lo + f * (m * 2 ^ (9 + ub) * 2 ^ 64) := by rw [e1]; exact ⟨W, by ring⟩
    exact (Nat.dvd_add_left ⟨_, e2⟩).1 this
  obtain ⟨t, ht⟩ := hd
  have hlt : W * r + f * lo < 2 * 2 ^ k := by
    have a1 : W * r ≤ 2 ^ 64 * r := Nat.mul_le_mul_right _ hW.le
    have a2 : f * lo ≤ f * 1 := Nat.mul_le_mul_left _ hl
    omega
  have hpos : 0 < W * r := Nat.mul_pos (by omega) hc1.2
  have ht1 : t = 1 := by
    rw [ht, Nat.mul_comm] at hlt
    have : t < 2 := Nat.lt_of_mul_lt_mul_right hlt
    have : t ≠ 0 := by rintro rfl; omega
    omega
  rw [ht1, Nat.mul_one] at ht
  rcases (by omega : lo = 0 ∨ lo = 1) with rfl | rfl
  · rw [Nat.mul_zero, Nat.add_zero] at ht
    rcases hc2 with h' | h'
    · exact h' (by rw [← ht]; exact Nat.mul_mod_left _ _)
    · rw [← ht, Nat.mul_div_cancel _ hc1.2] at h'; omega
  · exact hc3.2 (by rw [← ht, Nat.mul_one, Nat.add_sub_cancel]; exact Nat.mul_mod_left _ _)

/-- The test for a number in the middle between two doubles is exact. -/
theorem tie_iff {q : Int} (h1 : -342 ≤ q) (h2 : q ≤ 308) {W : Nat} (hW : W < 2 ^ 64) (hW1 : 2 ^ 63 ≤ W) {hi lo ub m : Nat}
    (ehi : hi = (productApprox q W).1) (elo : lo = (productApprox q W).2) (eub : ub = hi / 2 ^ 63) (em : m = hi / 2 ^ (9 + ub)) (hodd : m % 2 = 1) :
    (lo ≤ 1 ∧ q ≥ -4 ∧ q ≤ 23 ∧ u64 (m * 2 ^ (9 + ub)) = hi) ↔ (W : ℚ) * scale q = m * 2 ^ (137 + ub) := by
  obtain ⟨hub, h53, h54, hPm, _, _⟩ := product_floor h1 h2 hW hW1 ehi eub em
  obtain ⟨ha, hlo, hhi, hform⟩ := productApprox_cases h1 h2 hW
  rw [← ehi, ← elo] at hform
  rw [← ehi] at ha hhi
  rw [← elo] at hlo
  have hE := entry h1 h2
  have eu : u64 (m * 2 ^ (9 + ub)) = m * 2 ^ (9 + ub) := by
    unfold u64
    apply Nat.mod_eq_of_lt
    have : m * 2 ^ (9 + ub) ≤ hi := by rw [em]; exact Nat.div_mul_le_self _ _
    omega
  rw [eu]
  have hT : W * tab q = W * tabHi q * 2 ^ 64 + W * tabLo q := by unfold tab; ring
  -- the powers that matter
  suffices hs : -4 ≤ q → q ≤ 23 → ((lo ≤ 1 ∧ m * 2 ^ (9 + ub) = hi) ↔ (W : ℚ) * scale q = m * 2 ^ (137 + ub)) by
    constructor
    · rintro ⟨a, b, c, d⟩; exact (hs b c).1 ⟨a, d⟩
    · intro h
      obtain ⟨b, c⟩ := tie_range hW h53 h54 hodd h
      obtain ⟨a, d⟩ := (hs b c).2 h
      exact ⟨a, b, c, d⟩
  intro hq1 hq2
  rcases hE.how with ⟨_, e, ht0, ht2⟩ | ⟨hbad, _⟩ | ⟨p, k, hq, hp1, hp, hk, e, hA, hB⟩
  · have ht0 := ht0 (by omega)
    have ht2 := ht2 hq2
    rw [e]
    rw [ht0, Nat.mul_zero, Nat.add_zero] at hT
    have hev : W * tabHi q % 2 = 0 := by rw [Nat.mul_mod, ht2]; simp
    have hform' : hi * 2 ^ 64 + lo = W * tabHi q := by
      rcases hform with h | h
      · rw [h, hT, Nat.mul_div_cancel _ (by positivity)]
      · exact h.1
    have ecast : ((W : ℚ) * tab q = m * 2 ^ (137 + ub)) ↔ W * tab q = m * 2 ^ (137 + ub) := by norm_cast
    rw [ecast, hT]
    clear ecast hT
    generalize W * tabHi q = F at *
    rcases (by omega : ub = 0 ∨ ub = 1) with h | h <;> rw [h] <;> omega
  · omega
  · have h5 : (0 : ℚ) < 5 ^ p := by positivity
    have ecast : ((W : ℚ) * scale q = m * 2 ^ (137 + ub)) ↔ W * 2 ^ k = m * 2 ^ (137 + ub) * 5 ^ p := by
      rw [e, ← mul_div_assoc, div_eq_iff h5.ne']; norm_cast
    rw [ecast]
    have hp4 : p ≤ 4 := by omega
    have hp5 : 5 ^ p ≤ 5 ^ 4 := Nat.pow_le_pow_right (by norm_num) hp4
    have hp0 : 0 < 5 ^ p := by positivity
    have hWT : W * 2 ^ k < W * (tab q * 5 ^ p) := Nat.mul_lt_mul_of_pos_left hA (by omega)
    have hWT2 : W * (tab q * 5 ^ p) < W * (2 ^ k + 5 ^ p) := Nat.mul_lt_mul_of_pos_left hB (by omega)
    rw [← Nat.mul_assoc] at hWT hWT2
    rw [Nat.mul_add] at hWT2
    have hW5 : W * 5 ^ p < 2 ^ 64 * 5 ^ p := Nat.mul_lt_mul_of_pos_right hW hp0
    constructor
    · rintro ⟨hl, hm⟩
      rcases hform with h | ⟨h, _⟩
      · have hPu : W * tab q < m * 2 ^ (137 + ub) + 2 ^ 65 := by
          rcases (by omega : ub = 0 ∨ ub = 1) with h' | h' <;> rw [h'] at hm hPm ⊢ <;> omega
        have g1 : m * 2 ^ (137 + ub) * 5 ^ p ≤ W * tab q * 5 ^ p := Nat.mul_le_mul_right _ hPm
        have g2 : W * tab q * 5 ^ p < (m * 2 ^ (137 + ub) + 2 ^ 65) * 5 ^ p := Nat.mul_lt_mul_of_pos_right hPu hp0
        rw [Nat.add_mul] at g2
        obtain ⟨j, hj⟩ : ∃ j, k = 130 + j := ⟨k - 130, by omega⟩
        have e1 : m * 2 ^ (137 + ub) * 5 ^ p = 2 ^ 130 * (m * 2 ^ (7 + ub) * 5 ^ p) := by
          rw [show 137 + ub = 130 + (7 + ub) by omega, pow_add 2 130]; ring
        have e2 : W * 2 ^ k = 2 ^ 130 * (W * 2 ^ j) := by rw [hj, pow_add]; ring
        rw [e1] at g1 g2 ⊢
        rw [e2] at hWT hWT2 ⊢
        generalize W * tab q * 5 ^ p = Z at *
        generalize W * 2 ^ j = X at *
        generalize m * 2 ^ (7 + ub) * 5 ^ p = Y at *
        generalize W * 5 ^ p = V at *
        generalize 5 ^ p = f at *
        clear e1 e2
        omega
      · exfalso
        obtain ⟨t1, t2, t3, t4⟩ := tabHi_small
        rcases (by omega : p = 1 ∨ p = 2 ∨ p = 3 ∨ p = 4) with h' | h' | h' | h' <;> rw [hq, h'] at h
        · rw [show (-((1 : Nat) : Int)) = -1 by rfl, t1, ← hm] at h
          exact short_tie (f := 5) (r := 4) (k := 66) h (by norm_num) hW hW1 hl hub (by norm_num) (by norm_num) (by norm_num) (by norm_num)
        · rw [show (-((2 : Nat) : Int)) = -2 by rfl, t2, ← hm] at h
          exact short_tie (f := 25) (r := 6) (k := 68) h (by norm_num) hW hW1 hl hub (by norm_num) (by norm_num) (by norm_num) (by norm_num)
        · rw [show (-((3 : Nat) : Int)) = -3 by rfl, t3, ← hm] at h
          exact short_tie (f := 125) (r := 49) (k := 70) h (by norm_num) hW hW1 hl hub (by norm_num) (by norm_num) (by norm_num) (by norm_num)
        · rw [show (-((4 : Nat) : Int)) = -4 by rfl, t4, ← hm] at h
          exact short_tie (f := 625) (r := 517) (k := 73) h (by norm_num) hW hW1 hl hub (by norm_num) (by norm_num) (by norm_num) (by norm_num)
    · intro heq
      rw [heq] at hWT hWT2
      have g1 : m * 2 ^ (137 + ub) < W * tab q := Nat.lt_of_mul_lt_mul_right hWT
      have g2 : W * tab q < m * 2 ^ (137 + ub) + W := by
        rw [← Nat.add_mul] at hWT2
        exact Nat.lt_of_mul_lt_mul_right hWT2
      have hle : W * tabHi q ≤ W * tab q / 2 ^ 64 := by
        rw [hT]; omega
      clear hWT hWT2 heq hA hB e ecast hT hE
      generalize W * tab q = P at *
      rcases (by omega : ub = 0 ∨ ub = 1) with h | h <;> rw [h] at g1 g2 ⊢ <;> rcases hform with h' | h' <;> omega

/-- The bits of a double (or of the infinity) in two parts. -/
def Encodes (a : Adjusted) (N : Nat) : Prop :=
  ((a.mantissa < 2 ^ 52 ∧ 0 ≤ a.power2 ∧ N = a.mantissa + a.power2.toNat * 2 ^ 52) ∨ (a = ⟨2 ^ 52, 1⟩ ∧ N = 2 ^ 52)) ∧ N ≤ bitsInf

theorem Encodes.bits_eq {a : Adjusted} {N : Nat} (h : Encodes a N) : a.bits = N := by
  obtain ⟨h, hN⟩ := h
  unfold bitsInf at hN
  rcases h with ⟨h1, h2, h3⟩ | ⟨h1, h2⟩
  · unfold Adjusted.bits
    obtain ⟨n, hn⟩ := Int.eq_ofNat_of_zero_le h2
    rw [hn] at h3 ⊢
    have h3' : N = a.mantissa + n * 2 ^ 52 := h3
    have hn' : n < 2 ^ 12 := by omega
    have e1 : ((n : Int) % 2 ^ 64).toNat = n := by omega
    rw [e1]
    unfold u64
    rw [Nat.mod_eq_of_lt (by rw [Nat.shiftLeft_eq]; omega), Nat.or_comm, ← Nat.shiftLeft_add_eq_or_of_lt h1, Nat.shiftLeft_eq]
    omega
  · rw [h1, h2]; decide

theorem Encodes.inf_iff {a : Adjusted} {N : Nat} (h : Encodes a N) : a.power2 = 0x7FF ↔ N = bitsInf := by
  obtain ⟨h, hN⟩ := h
  unfold bitsInf at *
  rcases h with ⟨h1, h2, h3⟩ | ⟨h1, h2⟩
  · omega
  · rw [h1, h2]; decide

theorem Encodes.zero_iff {a : Adjusted} {N : Nat} (h : Encodes a N) : (a.mantissa = 0 ∧ a.power2 = 0) ↔ N = 0 := by
  obtain ⟨h, hN⟩ := h
  rcases h with ⟨h1, h2, h3⟩ | ⟨h1, h2⟩
  · omega
  · rw [h1, h2]; decide

theorem Encodes.of {m E N : Nat} {e : Int} (he : e = E) (hm : m < 2 ^ 52) (hN : N = m + E * 2 ^ 52) (h : N ≤ bitsInf) : Encodes ⟨m, e⟩ N := by
  subst he
  exact ⟨.inl ⟨hm, Int.natCast_nonneg _, by rw [Int.toNat_natCast]; exact hN⟩, h⟩

theorem Encodes.infinity {N : Nat} (h : N = bitsInf) : Encodes ⟨0, 0x7FF⟩ N :=
  .of (E := 2047) rfl (by decide) (by rw [h]; rfl) h.le

theorem leadingZeroes_ok {w : Nat} (h0 : w ≠ 0) (hw : w < 2 ^ 64) : leadingZeroes w ≤ 63 ∧ 2 ^ 63 ≤ w * 2 ^ leadingZeroes w ∧
    w * 2 ^ leadingZeroes w < 2 ^ 64 := by
  unfold leadingZeroes
  have h1 := Nat.log2_self_le h0
  have h2 := Nat.lt_log2_self (n := w)
  have h3 : w.log2 < 64 := (Nat.log2_lt h0).2 hw
  refine ⟨by omega, ?_, ?_⟩
  · have := Nat.mul_le_mul_right (2 ^ (63 - w.log2)) h1
    rw [← Nat.pow_add, show w.log2 + (63 - w.log2) = 63 by omega] at this
    exact this
  · have := Nat.mul_lt_mul_of_pos_right h2 (by positivity : 0 < 2 ^ (63 - w.log2))
    rw [← Nat.pow_add, show w.log2 + 1 + (63 - w.log2) = 64 by omega] at this
    exact this

theorem value_scale (q : Int) (w lz : Nat) : (w : ℚ) * 10 ^ q = ((w * 2 ^ lz : Nat) : ℚ) * scale q * 2 ^ (power q - lz - 190) := by
  unfold scale
  have e10 : (10 : ℚ) ^ q = 5 ^ q * 2 ^ q := by rw [← mul_zpow]; norm_num
  have e2 : (2 : ℚ) ^ q = 2 ^ (lz : Int) * (2 ^ (190 + q - power q) * 2 ^ (power q - lz - 190)) := by
    rw [← zpow_add₀ (by norm_num), ← zpow_add₀ (by norm_num)]; congr 1; ring
  push_cast
  rw [e10, e2, zpow_natCast]
  ring

theorem two_zpow_le {a b : Int} (h : a ≤ b) : (2 : ℚ) ^ a ≤ 2 ^ b := zpow_le_zpow_right₀ (by norm_num) h

theorem rounds_zero {x : ℚ} (h0 : 0 ≤ x) (h : x ≤ 2 ^ (-1075 : Int)) : Rounds 0 x := by
  have g := half_gap_zero
  have gp := gap_pos 0
  have m0 := magN_zero
  refine .inl ⟨by decide, ⟨?_, ?_, fun h => absurd h (by decide), fun h => absurd h (by decide)⟩⟩
  · rw [m0]; linarith
  · rw [m0, g, zero_add]; exact h

theorem rounds_inf {x : ℚ} (h : 2 ^ 1024 - 2 ^ 970 ≤ x) : Rounds bitsInf x := .inr ⟨rfl, h⟩

end Verif.FF
