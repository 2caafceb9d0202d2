import Verif.Spec.Ieee
import Verif.Proof.FFComp
/-!
# A parsed number is turned into the nearest double
-/
namespace Verif.FF
open Verif

attribute [local irreducible] powerOfFive128

/-! ## The ends of the range -/

theorem Rounds.zero_iff {N : Nat} {x : ℚ} (h : Rounds N x) : N = 0 ↔ x ≤ 2 ^ (-1075 : Int) := by
  rcases h with ⟨_, h⟩ | ⟨rfl, h⟩
  · constructor
    · rintro rfl
      have := h.hi
      rwa [magN_zero, half_gap_zero, zero_add] at this
    · intro hx
      by_contra hne
      exact absurd ((h.above hne).trans_le hx) (lt_irrefl _)
  · refine ⟨fun h => by exact absurd h (by decide), fun hx => ?_⟩
    have h1 : (2 : ℚ) ^ (-1075 : Int) ≤ 1 := zpow_le_one_of_nonpos₀ (by norm_num) (by norm_num)
    have h2 : (1 : ℚ) < 2 ^ 1024 - 2 ^ 970 := by
      have e : (2 : ℚ) ^ 1024 = 2 ^ 970 * 2 ^ 54 := by rw [← pow_add]
      have h3 : (1 : ℚ) ≤ 2 ^ 970 := one_le_pow₀ (by norm_num)
      rw [e]
      clear h e
      generalize (2 : ℚ) ^ 970 = a at *
      norm_num
      linarith
    exact absurd (h2.trans_le (h.trans (hx.trans h1))) (lt_irrefl _)

theorem Rounds.inf_iff {N : Nat} {x : ℚ} (h : Rounds N x) : N = bitsInf ↔ 2 ^ 1024 - 2 ^ 970 ≤ x := by
  rcases h with ⟨h1, h⟩ | ⟨h1, h⟩
  · refine ⟨?_, fun h2 => absurd (h2.trans_lt (h.bounded h1)) (lt_irrefl _)⟩
    intro h2; rw [h2] at h1; exact absurd h1 (by decide)
  · exact ⟨fun _ => h, fun _ => h1⟩

theorem Rounds.zero {N : Nat} (h : Rounds N 0) : N = 0 := h.zero_iff.2 (zpow_pos (by norm_num) _).le

theorem Encodes.inf_eq {a : Adjusted} (h : Encodes a bitsInf) : a = ⟨0, 0x7FF⟩ := by
  obtain ⟨h, _⟩ := h
  obtain ⟨m, p⟩ := a
  unfold bitsInf at h
  rcases h with ⟨h1, h2, h3⟩ | ⟨_, h2⟩
  · simp only at h1 h2 h3
    obtain ⟨n, rfl⟩ := Int.eq_ofNat_of_zero_le h2
    simp only [Int.toNat_natCast] at h3
    have h4 : m = 0 := by omega
    have h5 : n = 0x7FF := by omega
    rw [h4, h5]; rfl
  · exact absurd h2 (by decide)

theorem Encodes.nonneg {a : Adjusted} {N : Nat} (h : Encodes a N) : 0 ≤ a.power2 := by
  rcases h.1 with ⟨_, h2, _⟩ | ⟨rfl, _⟩
  · exact h2
  · exact Int.le_of_lt Int.one_pos

/-! ## Integers that are doubles -/

theorem natBits_ok {m : Nat} (hm : m ≠ 0) (hd : 2 ^ m.log2 ∣ m * 2 ^ 52) (hL : m.log2 ≤ 1000) : magN (natBits m) = m ∧ natBits m ≤ bitsMax := by
  obtain ⟨S, hS⟩ := hd
  have hp : 0 < 2 ^ m.log2 := Nat.pow_pos (by norm_num)
  have h1 : 2 ^ m.log2 ≤ m := Nat.log2_self_le hm
  have h2 : m < 2 ^ m.log2 * 2 := by rw [← Nat.pow_succ]; exact Nat.lt_log2_self
  have hS1 : 2 ^ 52 ≤ S := by
    apply Nat.le_of_mul_le_mul_left _ hp
    rw [← hS]; exact Nat.mul_le_mul_right _ h1
  have hS2 : S < 2 ^ 53 := by
    apply Nat.lt_of_mul_lt_mul_left (a := 2 ^ m.log2)
    rw [← hS]
    calc m * 2 ^ 52 < 2 ^ m.log2 * 2 * 2 ^ 52 := Nat.mul_lt_mul_of_pos_right h2 (by norm_num)
      _ = 2 ^ m.log2 * 2 ^ 53 := by rw [Nat.mul_assoc]; congr 1
  have e1 : natBits m = S + (m.log2 + 1023 - 1) * 2 ^ 52 := by
    unfold natBits
    rw [if_neg hm, hS, Nat.mul_div_cancel_left _ hp]
    clear hS h1 h2 hp
    generalize m.log2 = L at *
    omega
  have e2 := (magN_sig (E := m.log2 + 1023) (M := S) (by omega) hS2 (Or.inl hS1)).1
  rw [e1]
  refine ⟨?_, by unfold bitsMax; omega⟩
  rw [e2]
  have hS' : (m : ℚ) * 2 ^ 52 = 2 ^ m.log2 * S := by exact_mod_cast hS
  have e3 : ((m.log2 + 1023 : Nat) : Int) - 1075 = (m.log2 : Int) - (52 : Nat) := by push_cast; ring
  rw [e3, zpow_sub₀ (by norm_num), zpow_natCast, zpow_natCast, mul_div_assoc', div_eq_iff (by norm_num), hS', mul_comm]

theorem natBits_zero : magN (natBits 0) = (0 : Nat) ∧ natBits 0 ≤ bitsMax := ⟨by unfold natBits; rw [if_pos rfl, magN_zero]; rfl, by decide⟩

theorem natBits_shift {n q : Nat} (hn : n ≤ 2 ^ 53) (hq : q ≤ 22) : magN (natBits (n * 2 ^ q)) = (n * 2 ^ q : Nat) ∧ natBits (n * 2 ^ q) ≤ bitsMax := by
  rcases Nat.eq_zero_or_pos n with rfl | h0
  · rw [Nat.zero_mul]; exact natBits_zero
  have hn0 : n ≠ 0 := Nat.pos_iff_ne_zero.1 h0
  have hne : n * 2 ^ q ≠ 0 := Nat.mul_ne_zero hn0 (by positivity)
  have hlog : (n * 2 ^ q).log2 = n.log2 + q := by
    rw [Nat.log2_eq_iff hne]
    have h1 : 2 ^ n.log2 ≤ n := Nat.log2_self_le hn0
    have h2 : n < 2 ^ (n.log2 + 1) := Nat.lt_log2_self
    constructor
    · rw [pow_add]; exact Nat.mul_le_mul_right _ h1
    · rw [show n.log2 + q + 1 = n.log2 + 1 + q by ring, pow_add]
      exact Nat.mul_lt_mul_of_pos_right h2 (by positivity)
  have hlog53 : n.log2 ≤ 53 := by
    by_contra hc
    have h1 : 2 ^ n.log2 ≤ n := Nat.log2_self_le hn0
    have h2 : 2 ^ 54 ≤ 2 ^ n.log2 := Nat.pow_le_pow_right (by norm_num) (by omega)
    omega
  apply natBits_ok hne
  · rw [hlog]
    rcases (by omega : n.log2 ≤ 52 ∨ n.log2 = 53) with h | h
    · have hdv : 2 ^ n.log2 ∣ 2 ^ 52 := Nat.pow_dvd_pow 2 h
      rw [pow_add, mul_comm n, mul_comm (2 ^ n.log2), mul_assoc]
      exact Nat.mul_dvd_mul_left _ (Dvd.dvd.mul_left hdv n)
    · have h1 : 2 ^ n.log2 ≤ n := Nat.log2_self_le hn0
      rw [h] at h1
      have : n = 2 ^ 53 := by omega
      rw [h, this, pow_add]
      exact Dvd.intro _ rfl
  · omega

theorem natBits_ten : ∀ k, k ≤ 22 → magN (natBits (10 ^ k)) = (10 ^ k : Nat) ∧ natBits (10 ^ k) ≤ bitsMax := by
  intro k hk
  have h : (List.range 23).all (fun k => decide ((10 ^ k * 2 ^ 52) % 2 ^ (10 ^ k).log2 = 0 ∧ (10 ^ k).log2 ≤ 1000)) = true := by decide +kernel
  have h := List.all_eq_true.1 h k (List.mem_range.2 (by omega))
  simp only [decide_eq_true_eq] at h
  exact natBits_ok (by positivity) (Nat.dvd_of_mod_eq_zero h.1) h.2

/-! ## The machine's arithmetic -/

theorem ofNat_bits {n : Nat} (h : n ≤ bitsMax) : (Dbl.ofNat n).bits = n := by
  unfold Dbl.ofNat Dbl.bits
  rw [BitVec.toNat_ofNat]
  unfold bitsMax at h
  omega

theorem ofNat_magnitude {n : Nat} (h : n ≤ bitsMax) : (Dbl.ofNat n).magnitude = magN n := by
  rw [Dbl.magnitude_eq, ofNat_bits h]

theorem rounds_of_nearest {n : Nat} {x : ℚ} (h : n ≤ bitsMax) (h0 : 0 ≤ x) (hx : x < 2 ^ 1024 - 2 ^ 970) (hn : Nearest x (Dbl.ofNat n)) : Rounds n x := by
  obtain ⟨m, hm, hr⟩ := exists_rounds h0 hx
  have hb := ofNat_bits hm
  have hu := nearest_unique (f := Dbl.ofNat m) (Dbl.finite_bits.2 (by rw [hb]; exact hm)) (by rw [hb]; exact hr) hn
  rw [hb, ofNat_bits h] at hu
  exact .inl ⟨h, hu ▸ hr⟩

theorem small_bound {x : ℚ} (h : x ≤ 2 ^ 53 * 10 ^ 22) : x < 2 ^ 1024 - 2 ^ 970 := by
  have e : (2 : ℚ) ^ 1024 = 2 ^ 970 * 2 ^ 54 := by rw [← pow_add]
  have e2 : (2 : ℚ) ^ 970 = 2 ^ 200 * 2 ^ 770 := by rw [← pow_add]
  have h3 : (1 : ℚ) ≤ 2 ^ 770 := one_le_pow₀ (by norm_num)
  have h4 : (2 : ℚ) ^ 200 ≤ 2 ^ 970 := by rw [e2]; exact le_mul_of_one_le_right (by norm_num) h3
  rw [e]
  clear e e2
  generalize (2 : ℚ) ^ 970 = a at *
  generalize (2 : ℚ) ^ 770 = b at *
  norm_num at h h4
  linarith

variable {fpu : Fpu}

theorem div_ok (hI : Ieee fpu) (hn : fpu.nearest = true) {w k : Nat} (hw : w ≤ 2 ^ 53) (hk : k ≤ 22) :
    Rounds (fpu.div (natBits w) (natBits (10 ^ k))) (w * 10 ^ (-(k : Int))) := by
  obtain ⟨a1, a2⟩ := natBits_shift (q := 0) hw (by norm_num)
  rw [pow_zero, mul_one] at a1 a2
  obtain ⟨b1, b2⟩ := natBits_ten k hk
  have hx : (Dbl.ofNat (natBits w)).magnitude / (Dbl.ofNat (natBits (10 ^ k))).magnitude = w * 10 ^ (-(k : Int)) := by
    rw [ofNat_magnitude a2, ofNat_magnitude b2, a1, b1, zpow_neg, zpow_natCast, div_eq_mul_inv]
    push_cast; rfl
  have hlt : (w : ℚ) * 10 ^ (-(k : Int)) < 2 ^ 1024 - 2 ^ 970 := by
    apply small_bound
    have h1 : (10 : ℚ) ^ (-(k : Int)) ≤ 1 := zpow_le_one_of_nonpos₀ (by norm_num) (by omega)
    have h2 : (w : ℚ) ≤ 2 ^ 53 := by exact_mod_cast hw
    have h3 : (w : ℚ) * 10 ^ (-(k : Int)) ≤ w := mul_le_of_le_one_right (Nat.cast_nonneg _) h1
    refine h3.trans (h2.trans ?_)
    norm_num
  have hb0 : natBits (10 ^ k) ≠ 0 := by
    intro h
    rw [h, magN_zero] at b1
    have : (0 : ℚ) < (10 ^ k : Nat) := by positivity
    linarith
  obtain ⟨h1, h2⟩ := hI.div_nearest hn _ _ a2 b2 hb0 (by rw [hx]; exact hlt)
  rw [hx] at h2
  exact rounds_of_nearest h1 (mul_nonneg (Nat.cast_nonneg _) (zpow_pos (by norm_num) _).le) hlt h2

theorem mul_ok (hI : Ieee fpu) (hn : fpu.nearest = true) {w k : Nat} (hw : w ≤ 2 ^ 53) (hk : k ≤ 22) :
    Rounds (fpu.mul (natBits w) (natBits (10 ^ k))) (w * 10 ^ (k : Int)) := by
  obtain ⟨a1, a2⟩ := natBits_shift (q := 0) hw (by norm_num)
  rw [pow_zero, mul_one] at a1 a2
  obtain ⟨b1, b2⟩ := natBits_ten k hk
  have hx : (Dbl.ofNat (natBits w)).magnitude * (Dbl.ofNat (natBits (10 ^ k))).magnitude = w * 10 ^ (k : Int) := by
    rw [ofNat_magnitude a2, ofNat_magnitude b2, a1, b1, zpow_natCast]
    push_cast; rfl
  have hlt : (w : ℚ) * 10 ^ (k : Int) < 2 ^ 1024 - 2 ^ 970 := by
    apply small_bound
    have h1 : (10 : ℚ) ^ (k : Int) ≤ 10 ^ 22 := by rw [zpow_natCast]; exact pow_le_pow_right₀ (by norm_num) hk
    have h2 : (w : ℚ) ≤ 2 ^ 53 := by exact_mod_cast hw
    exact mul_le_mul h2 h1 (zpow_pos (by norm_num) _).le (by norm_num)
  obtain ⟨h1, h2⟩ := hI.mul_nearest hn _ _ a2 b2 (by rw [hx]; exact hlt)
  rw [hx] at h2
  exact rounds_of_nearest h1 (mul_nonneg (Nat.cast_nonneg _) (zpow_pos (by norm_num) _).le) hlt h2

theorem roundsTo_self (n : Nat) : RoundsTo n (magN n) := by
  have h1 := gap_pos n
  have h2 := gap_pos (n - 1)
  exact ⟨by linarith, by linarith, fun _ => by linarith, fun _ => by linarith⟩

theorem mul_exact_ok (hI : Ieee fpu) {w k : Nat} (hw : w ≤ 2 ^ 53 / 5 ^ k) (hk : k ≤ 22) :
    Rounds (fpu.mul (natBits w) (natBits (10 ^ k))) (w * 10 ^ (k : Int)) := by
  have hp : 0 < 5 ^ k := by positivity
  have hw5 : w * 5 ^ k ≤ 2 ^ 53 := (Nat.le_div_iff_mul_le hp).1 hw
  have hw' : w ≤ 2 ^ 53 := (Nat.le_mul_of_pos_right _ hp).trans hw5
  obtain ⟨a1, a2⟩ := natBits_shift (q := 0) hw' (by norm_num)
  rw [pow_zero, mul_one] at a1 a2
  obtain ⟨b1, b2⟩ := natBits_ten k hk
  obtain ⟨c1, c2⟩ := natBits_shift hw5 hk
  have e : w * 5 ^ k * 2 ^ k = w * 10 ^ k := by rw [Nat.mul_assoc, ← Nat.mul_pow]
  have hm := hI.mul_exact _ _ _ a2 b2 c2 (by
    rw [ofNat_magnitude a2, ofNat_magnitude b2, ofNat_magnitude c2, a1, b1, c1, e]; push_cast; rfl)
  rw [hm]
  have := roundsTo_self (natBits (w * 5 ^ k * 2 ^ k))
  rw [c1] at this
  rw [zpow_natCast]
  have e4 : ((w * 5 ^ k * 2 ^ k : Nat) : ℚ) = w * 10 ^ k := by rw [e]; push_cast; rfl
  rw [e4] at this
  exact .inl ⟨c2, this⟩

/-! ## A parsed number -/

/-- The outcome for a number that is `V` times a power of ten and rounds to the double with the bits `N`. -/
def outcome (neg : Bool) (V N : Nat) (rest : List Byte) : Outcome :=
  if (V ≠ 0 ∧ N = 0) ∨ N = bitsInf then .range (signed neg N) else .value (signed neg N) rest

/-- The value before the digits are compared. -/
def pick (p : Parsed) : Adjusted :=
  if p.tooMany && decide ((computeFloat p.exponent p.mantissa).power2 ≥ 0) &&
      decide (computeFloat p.exponent p.mantissa ≠ computeFloat p.exponent (u64 (p.mantissa + 1))) then
    computeError p.exponent p.mantissa else computeFloat p.exponent p.mantissa

/-- The end of `fromParsed`. -/
def close (p : Parsed) : Option Adjusted → Outcome
  | none => .stuck
  | some am =>
    if (p.mantissa ≠ 0 ∧ am.mantissa = 0 ∧ am.power2 = 0) ∨ am.power2 = 0x7FF then .range (signed p.negative am.bits)
    else .value (signed p.negative am.bits) p.rest

attribute [local irreducible] computeFloat computeError digitComp in
theorem fromParsed_eq (fpu : Fpu) (p : Parsed) : fromParsed fpu p =
    if decide (-22 ≤ p.exponent ∧ p.exponent ≤ 22) && !p.tooMany && fpu.nearest && decide (p.mantissa ≤ 2 * 2 ^ 52) then
      .value (signed p.negative (if p.exponent < 0 then fpu.div (natBits p.mantissa) (natBits (10 ^ (-p.exponent).toNat))
        else fpu.mul (natBits p.mantissa) (natBits (10 ^ p.exponent.toNat)))) p.rest
    else if decide (-22 ≤ p.exponent ∧ p.exponent ≤ 22) && !p.tooMany && !fpu.nearest && decide (p.exponent ≥ 0) &&
        decide (p.mantissa ≤ 2 ^ 53 / 5 ^ p.exponent.toNat) then
      .value (signed p.negative (fpu.mul (natBits p.mantissa) (natBits (10 ^ p.exponent.toNat)))) p.rest
    else close p (if (pick p).power2 < 0 then digitComp p (pick p) else some (pick p)) := by
  unfold fromParsed
  congr 1

theorem close_ok {p : Parsed} {am : Adjusted} {V N : Nat} (h : Encodes am N) (hV : p.mantissa = 0 ↔ V = 0) :
    close p (some am) = outcome p.negative V N p.rest := by
  unfold close outcome
  have e : ((p.mantissa ≠ 0 ∧ am.mantissa = 0 ∧ am.power2 = 0) ∨ am.power2 = 0x7FF) ↔ ((V ≠ 0 ∧ N = 0) ∨ N = bitsInf) := by
    rw [h.zero_iff, h.inf_iff, Ne, Ne, hV]
  simp only [h.bits_eq]
  by_cases hc : (V ≠ 0 ∧ N = 0) ∨ N = bitsInf
  · rw [if_pos hc, if_pos (e.2 hc)]
  · rw [if_neg hc, if_neg (fun h => hc (e.1 h))]

theorem outcome_small {V N : Nat} {neg : Bool} {rest : List Byte} {q : Int} (h : Rounds N (V * 10 ^ q)) (hV : V ≤ 2 ^ 53) (h1 : -22 ≤ q) (h2 : q ≤ 22) :
    outcome neg V N rest = .value (signed neg N) rest := by
  have hp : (0 : ℚ) < 10 ^ q := zpow_pos (by norm_num) _
  have hq : (10 : ℚ) ^ q ≤ 10 ^ 22 := by
    rw [← zpow_natCast]; exact zpow_le_zpow_right₀ (by norm_num) (by exact_mod_cast h2)
  have hV' : (V : ℚ) ≤ 2 ^ 53 := by exact_mod_cast hV
  unfold outcome
  rw [if_neg]
  rintro (⟨h3, h4⟩ | h3)
  · rw [h.zero_iff] at h4
    have h5 : (1 : ℚ) ≤ V := by exact_mod_cast Nat.one_le_iff_ne_zero.2 h3
    have h6 : (10 : ℚ) ^ q ≤ V * 10 ^ q := le_mul_of_one_le_left hp.le h5
    have h7 : (10 : ℚ) ^ (-22 : Int) ≤ 10 ^ q := zpow_le_zpow_right₀ (by norm_num) h1
    have h8 : (2 : ℚ) ^ (-1075 : Int) ≤ 2 ^ (-100 : Int) := zpow_le_zpow_right₀ (by norm_num) (by norm_num)
    have h9 : (2 : ℚ) ^ (-100 : Int) < 10 ^ (-22 : Int) := by norm_num
    exact absurd (h9.trans_le (h7.trans (h6.trans (h4.trans h8)))) (lt_irrefl _)
  · rw [h.inf_iff] at h3
    exact absurd (h3.trans_lt (small_bound (mul_le_mul hV' hq hp.le (by norm_num)))) (lt_irrefl _)

theorem computeFloat_under {q : Int} (h : q < -342) (w : Nat) : computeFloat q w = ⟨0, 0⟩ := by
  unfold computeFloat
  rw [if_pos (Or.inr h)]

theorem computeFloat_over {q : Int} (h : 308 < q) {w : Nat} (hw : w ≠ 0) : computeFloat q w = ⟨0, 0x7FF⟩ := by
  unfold computeFloat
  rw [if_neg (by rintro (h1 | h1); exact hw h1; omega), if_pos (by omega)]

theorem u64_small {n : Nat} (h : n < 2 ^ 64) : u64 n = n := by unfold u64; exact Nat.mod_eq_of_lt h

attribute [local irreducible] computeFloat computeError digitComp natBits

theorem fromParsed_ok (hI : Ieee fpu) {p : Parsed} {frac : List Byte} {dot : Bool} {e0 : Int} (hi : AllDigits p.integer) (hf : AllDigits frac)
    (hdot : dot = false → frac = []) (hfr : p.fraction = if dot then some frac else none)
    (h1 : p.tooMany = false → digitsValue (p.integer ++ frac) < 10 ^ 19 ∧ p.mantissa = digitsValue (p.integer ++ frac) ∧ p.exponent = e0)
    (h2 : p.tooMany = true → ∃ k r, digitsValue (p.integer ++ frac) = p.mantissa * 10 ^ k + r ∧ r < 10 ^ k ∧ 10 ^ 18 ≤ p.mantissa ∧ p.mantissa < 10 ^ 19 ∧
      p.exponent = e0 + (k : Nat)) :
    ∃ N, Rounds N (digitsValue (p.integer ++ frac) * 10 ^ e0) ∧ fromParsed fpu p = outcome p.negative (digitsValue (p.integer ++ frac)) N p.rest := by
  rw [fromParsed_eq]
  cases htm : p.tooMany with
  | false =>
    obtain ⟨hV, hm, he⟩ := h1 htm
    rw [← hm] at hV ⊢
    rw [← he]
    by_cases c1 : (decide (-22 ≤ p.exponent ∧ p.exponent ≤ 22) && !false && fpu.nearest && decide (p.mantissa ≤ 2 * 2 ^ 52)) = true
    · rw [if_pos c1]
      simp only [Bool.and_eq_true, decide_eq_true_eq] at c1
      obtain ⟨⟨⟨⟨q1, q2⟩, _⟩, hn⟩, hw⟩ := c1
      have hw : p.mantissa ≤ 2 ^ 53 := by omega
      by_cases hq : p.exponent < 0
      · rw [if_pos hq]
        have hr := div_ok hI hn (k := (-p.exponent).toNat) hw (by omega)
        rw [show (-((-p.exponent).toNat : Int)) = p.exponent by omega] at hr
        exact ⟨_, hr, (outcome_small hr hw q1 q2).symm⟩
      · rw [if_neg hq]
        have hr := mul_ok hI hn (k := p.exponent.toNat) hw (by omega)
        rw [show ((p.exponent.toNat : Int)) = p.exponent by omega] at hr
        exact ⟨_, hr, (outcome_small hr hw q1 q2).symm⟩
    · rw [if_neg c1]
      by_cases c2 : (decide (-22 ≤ p.exponent ∧ p.exponent ≤ 22) && !false && !fpu.nearest && decide (p.exponent ≥ 0) &&
          decide (p.mantissa ≤ 2 ^ 53 / 5 ^ p.exponent.toNat)) = true
      · rw [if_pos c2]
        simp only [Bool.and_eq_true, decide_eq_true_eq] at c2
        obtain ⟨⟨⟨⟨⟨q1, q2⟩, _⟩, hn⟩, hq⟩, hw⟩ := c2
        have hr := mul_exact_ok hI (k := p.exponent.toNat) hw (by omega)
        rw [show ((p.exponent.toNat : Int)) = p.exponent by omega] at hr
        exact ⟨_, hr, (outcome_small hr (hw.trans (Nat.div_le_self _ _)) q1 q2).symm⟩
      · rw [if_neg c2]
        obtain ⟨N, hN, hr⟩ := computeFloat_ok p.exponent (w := p.mantissa) (hV.trans (by norm_num))
        have hp : pick p = computeFloat p.exponent p.mantissa := by unfold pick; rw [htm]; rfl
        rw [hp, if_neg (not_lt.2 hN.nonneg)]
        exact ⟨N, hr, close_ok hN Iff.rfl⟩
  | true =>
    obtain ⟨k, r, hV, hrk, w1, w2, he⟩ := h2 htm
    have hc : ∀ a b c : Bool, (a && !true && b && c) = false := by decide
    have hc' : ∀ a b c d : Bool, (a && !true && b && c && d) = false := by decide
    rw [hc, hc']
    simp only [Bool.false_eq_true, if_false]
    have hmV : p.mantissa = 0 ↔ digitsValue (p.integer ++ frac) = 0 := by
      rw [hV]
      have : p.mantissa ≤ p.mantissa * 10 ^ k := Nat.le_mul_of_pos_right _ (by positivity)
      omega
    obtain ⟨N, hN, hr⟩ := computeFloat_ok p.exponent (w := p.mantissa) (w2.trans (by norm_num))
    obtain ⟨N', hN', hr'⟩ := computeFloat_ok p.exponent (w := p.mantissa + 1) (by omega)
    have hu : u64 (p.mantissa + 1) = p.mantissa + 1 := u64_small (by omega)
    have hp : pick p = if computeFloat p.exponent p.mantissa ≠ computeFloat p.exponent (p.mantissa + 1) then
        computeError p.exponent p.mantissa else computeFloat p.exponent p.mantissa := by
      unfold pick
      rw [htm, hu, decide_eq_true (show (computeFloat p.exponent p.mantissa).power2 ≥ 0 from hN.nonneg)]
      simp only [Bool.true_and, decide_eq_true_eq]
    rw [hp]
    -- where the number lies
    have hwq : (digitsValue (p.integer ++ frac) : ℚ) = p.mantissa * 10 ^ k + r := by rw [hV]; push_cast; ring
    have eq10 : (10 : ℚ) ^ p.exponent = 10 ^ k * 10 ^ e0 := by rw [he, zpow_add₀ (by norm_num), zpow_natCast, mul_comm]
    have hp0 : (0 : ℚ) < 10 ^ e0 := zpow_pos (by norm_num) _
    have hxlo : (p.mantissa : ℚ) * 10 ^ p.exponent ≤ digitsValue (p.integer ++ frac) * 10 ^ e0 := by
      rw [eq10, ← mul_assoc]
      apply mul_le_mul_of_nonneg_right _ hp0.le
      rw [hwq]
      have : (0 : ℚ) ≤ r := Nat.cast_nonneg _
      linarith
    have hxhi : (digitsValue (p.integer ++ frac) : ℚ) * 10 ^ e0 ≤ (p.mantissa + 1 : Nat) * 10 ^ p.exponent := by
      rw [eq10, ← mul_assoc]
      apply mul_le_mul_of_nonneg_right _ hp0.le
      rw [hwq]
      have : (r : ℚ) < 10 ^ k := by exact_mod_cast hrk
      push_cast
      linarith
    by_cases hne : computeFloat p.exponent p.mantissa ≠ computeFloat p.exponent (p.mantissa + 1)
    · rw [if_pos hne]
      have hq1 : -342 ≤ p.exponent := by
        by_contra h
        exact hne (by rw [computeFloat_under (by omega), computeFloat_under (by omega)])
      have hq2 : p.exponent ≤ 308 := by
        by_contra h
        exact hne (by rw [computeFloat_over (by omega) (by omega), computeFloat_over (by omega) (by omega)])
      have hlim : (p.mantissa : ℚ) * 10 ^ p.exponent < 2 ^ 1024 := by
        by_contra h
        have h970 : (0 : ℚ) < 2 ^ 970 := pow_pos (by norm_num) _
        have i1 : (2 : ℚ) ^ 1024 - 2 ^ 970 ≤ p.mantissa * 10 ^ p.exponent := (sub_le_self _ h970.le).trans (not_lt.1 h)
        have i2 := i1.trans (hxlo.trans hxhi)
        rw [hr.inf_iff.2 i1] at hN
        rw [hr'.inf_iff.2 i2] at hN'
        exact hne (by rw [hN.inf_eq, hN'.inf_eq])
      obtain ⟨am, d1, N'', d2, d3⟩ := digitComp_ok hi hf hdot hfr hV hrk w1 w2 he hq1 hq2 hlim
      obtain ⟨d4, _⟩ := error_ok hq1 hq2 (w := p.mantissa) (by omega) (w2.trans (by norm_num))
      rw [if_pos d4, d1]
      exact ⟨N'', d3, close_ok d2 hmV⟩
    · rw [if_neg hne, if_neg (not_lt.2 hN.nonneg)]
      rw [not_not] at hne
      rw [← hne] at hN'
      have hNN : N = N' := by rw [← hN.bits_eq, hN'.bits_eq]
      rw [← hNN] at hr'
      exact ⟨N, hr.between hr' hxlo hxhi, close_ok hN hmV⟩

end Verif.FF
