import Verif.Proof.FFCompute
import Verif.Proof.FFMantissa
/-!
# Comparing all the digits with the middle between two doubles
-/
namespace Verif.FF
open Verif

attribute [local irreducible] powerOfFive128

/-- The double below `x` and what rounding `am` up or down gives. -/
structure Down (am : Adjusted) (x : ℚ) (M E : Nat) : Prop where
  hE : 1 ≤ E
  hM : M < 2 ^ 53
  hn : 2 ^ 52 ≤ M ∨ E = 1
  lo : M * 2 ^ ((E : Int) - 1075) ≤ x
  hi : x < (M + 1) * 2 ^ ((E : Int) - 1075)
  round : ∃ half above, ∀ f : Bool → Bool → Bool → Bool,
    Encodes (round f am) (min (M + (E - 1) * 2 ^ 52 + if f (decide (M % 2 = 1)) half above then 1 else 0) bitsInf)

theorem round_normal {m : Nat} {P : Int} {E : Nat} (h63 : 2 ^ 63 ≤ m) (h64 : m < 2 ^ 64) (hE : (E : Int) = P + 11) (h1 : 1 ≤ E) (f : Bool → Bool → Bool → Bool) :
    Encodes (round f ⟨m, P⟩) (min (m / 2 ^ 11 + (E - 1) * 2 ^ 52 +
      if f (decide (m / 2 ^ 11 % 2 = 1)) (decide (m % 2 ^ 11 = 2 ^ 10)) (decide (m % 2 ^ 11 > 2 ^ 10)) then 1 else 0) bitsInf) := by
  have e : round f ⟨m, P⟩ = finish (m / 2 ^ 11 + if f (decide (m / 2 ^ 11 % 2 = 1)) (decide (m % 2 ^ 11 = 2 ^ 10)) (decide (m % 2 ^ 11 > 2 ^ 10)) then 1 else 0) E := by
    unfold round
    rw [if_neg (show ¬ (-P ≥ 11) from by omega), hE]
    rfl
  rw [e]
  have b1 : 4503599627370496 ≤ m / 2 ^ 11 := by omega
  have b2 : m / 2 ^ 11 + 1 ≤ 9007199254740992 := by omega
  generalize f (decide (m / 2 ^ 11 % 2 = 1)) (decide (m % 2 ^ 11 = 2 ^ 10)) (decide (m % 2 ^ 11 > 2 ^ 10)) = up
  generalize m / 2 ^ 11 = M at *
  cases up with
  | true =>
    rw [if_pos rfl, two52]
    refine encodes_end (by omega) b2 h1 ?_
    rw [Nat.add_right_comm]
    rfl
  | false =>
    rw [if_neg (by decide), Nat.add_zero, Nat.add_zero, two52]
    exact encodes_end b1 (by omega) h1 rfl

theorem round_sub {m : Nat} {P : Int} (h64 : m < 2 ^ 64) (hP : P ≤ -11) : ∃ M half above, M < 2 ^ 52 ∧
    M = m / 2 ^ (1 - P).toNat ∧ ∀ f : Bool → Bool → Bool → Bool,
    Encodes (round f ⟨m, P⟩) (min (M + if f (decide (M % 2 = 1)) half above then 1 else 0) bitsInf) := by
  obtain ⟨s, hs⟩ : ∃ s, s = (min (-P + 1) 64).toNat := ⟨_, rfl⟩
  have hs12 : 12 ≤ s := by omega
  have hM : m / 2 ^ s < 2 ^ 52 := by
    rw [Nat.div_lt_iff_lt_mul (by positivity)]
    calc m < 2 ^ 64 := h64
      _ = 2 ^ 52 * 2 ^ 12 := by norm_num
      _ ≤ 2 ^ 52 * 2 ^ s := Nat.mul_le_mul_left _ (Nat.pow_le_pow_right (by norm_num) hs12)
  have heq : m / 2 ^ s = m / 2 ^ (1 - P).toNat := by
    by_cases hp : 1 - P ≤ 64
    · congr 2; omega
    · have e64 : s = 64 := by omega
      rw [e64, Nat.div_eq_of_lt h64, Nat.div_eq_of_lt (h64.trans_le (Nat.pow_le_pow_right (by norm_num) (by omega)))]
  refine ⟨m / 2 ^ s, decide (m % 2 ^ s = if s = 0 then 0 else 2 ^ (s - 1)), decide (m % 2 ^ s > if s = 0 then 0 else 2 ^ (s - 1)), hM, heq, fun f => ?_⟩
  have e : round f ⟨m, P⟩ = (⟨m / 2 ^ s + if f (decide (m / 2 ^ s % 2 = 1)) (decide (m % 2 ^ s = if s = 0 then 0 else 2 ^ (s - 1)))
      (decide (m % 2 ^ s > if s = 0 then 0 else 2 ^ (s - 1))) then 1 else 0, if m / 2 ^ s + (if f (decide (m / 2 ^ s % 2 = 1))
        (decide (m % 2 ^ s = if s = 0 then 0 else 2 ^ (s - 1))) (decide (m % 2 ^ s > if s = 0 then 0 else 2 ^ (s - 1))) then 1 else 0) < 2 ^ 52 then 0 else 1⟩ : Adjusted) := by
    unfold round
    rw [if_pos (show -P ≥ 11 from by omega)]
    show (⟨roundShift f m (min (-P + 1) 64).toNat, if roundShift f m (min (-P + 1) 64).toNat < 2 ^ 52 then 0 else 1⟩ : Adjusted) = _
    rw [← hs]
    rfl
  rw [e, two52]
  apply encodes_sub
  rw [two52] at hM
  clear e heq
  generalize f _ _ _ = up
  generalize m / 2 ^ s = M at *
  cases up
  · rw [if_neg (by decide)]; omega
  · rw [if_pos rfl]; omega

theorem floor_scaled {m : Nat} (s t : Nat) {x : ℚ} {c : Int} (h1 : ((m / 2 ^ s : Nat) : ℚ) * 2 ^ c ≤ x) (h2 : x < ((m / 2 ^ s : Nat) + 1) * 2 ^ c) :
    ((m / 2 ^ (s + t) : Nat) : ℚ) * 2 ^ (c + t) ≤ x ∧ x < ((m / 2 ^ (s + t) : Nat) + 1) * 2 ^ (c + t) := by
  have e : m / 2 ^ (s + t) = m / 2 ^ s / 2 ^ t := by rw [pow_add, Nat.div_div_eq_div_mul]
  rw [e, zpow_add₀ (by norm_num), zpow_natCast]
  have hc : (0 : ℚ) < 2 ^ c := zpow_pos (by norm_num) _
  generalize (2 : ℚ) ^ c = C at *
  generalize m / 2 ^ s = A at *
  have g1 : ((A / 2 ^ t : Nat) : ℚ) * 2 ^ t ≤ A := by exact_mod_cast Nat.div_mul_le_self A (2 ^ t)
  have g2 : (A : ℚ) + 1 ≤ ((A / 2 ^ t : Nat) + 1) * 2 ^ t := by
    have := Nat.lt_mul_div_succ A (show 0 < 2 ^ t from by positivity)
    have : A + 1 ≤ (A / 2 ^ t + 1) * 2 ^ t := by rw [Nat.mul_comm]; exact this
    exact_mod_cast this
  generalize ((A / 2 ^ t : Nat) : ℚ) = B at *
  generalize (2 : ℚ) ^ t = T at *
  constructor
  · calc B * (C * T) = B * T * C := by ring
      _ ≤ A * C := mul_le_mul_of_nonneg_right g1 hc.le
      _ ≤ x := h1
  · calc x < (A + 1) * C := h2
      _ ≤ (B + 1) * T * C := mul_le_mul_of_nonneg_right g2 hc.le
      _ = _ := by ring

/-- The approximation that is handed to the comparison of digits lies just below the number. -/
theorem error_ok {q : Int} (h1 : -342 ≤ q) (h2 : q ≤ 308) {w : Nat} (h0 : w ≠ 0) (hw : w < 2 ^ 64) :
    (computeError q w).power2 < 0 ∧ ∃ M E, Down ⟨(computeError q w).mantissa, (computeError q w).power2 - -0x8000⟩ (w * 10 ^ q) M E := by
  obtain ⟨hlz, hW1, hW⟩ := leadingZeroes_ok h0 hw
  have hu : u64 (w * 2 ^ leadingZeroes w) = w * 2 ^ leadingZeroes w := Nat.mod_eq_of_lt hW
  have hx := value_scale q w (leadingZeroes w)
  obtain ⟨hi, ehi⟩ : ∃ hi, hi = (productApprox q (w * 2 ^ leadingZeroes w)).1 := ⟨_, rfl⟩
  obtain ⟨ub, eub⟩ : ∃ ub, ub = hi / 2 ^ 63 := ⟨_, rfl⟩
  obtain ⟨hub, h53, h54, _, f1, f2⟩ := product_floor h1 h2 hW hW1 ehi eub rfl
  obtain ⟨_, _, hhi, _⟩ := productApprox_cases h1 h2 hW
  rw [← ehi] at hhi
  obtain ⟨lz, hlzd⟩ : ∃ lz, lz = leadingZeroes w := ⟨_, rfl⟩
  have hce : computeError q w = ⟨hi * 2 ^ (1 - ub), power q + (52 + 1023) - ((1 - ub : Nat) : Int) - (lz : Int) - 62 + -0x8000⟩ := by
    have e0 : computeError q w = ⟨u64 ((productApprox q (u64 (w * 2 ^ leadingZeroes w))).1 * 2 ^ (if (productApprox q (u64 (w * 2 ^ leadingZeroes w))).1 / 2 ^ 63 = 1 then 0 else 1)),
        power q + (52 + 1023) - ((if (productApprox q (u64 (w * 2 ^ leadingZeroes w))).1 / 2 ^ 63 = 1 then 0 else 1 : Nat) : Int) - (leadingZeroes w : Int) - 62 + -0x8000⟩ := rfl
    rw [e0, hu, ← ehi, ← hlzd]
    have e1 : (if hi / 2 ^ 63 = 1 then 0 else 1) = 1 - ub := by rw [← eub]; split <;> omega
    rw [e1]
    have e2 : u64 (hi * 2 ^ (1 - ub)) = hi * 2 ^ (1 - ub) := by
      unfold u64
      rcases (by omega : ub = 0 ∨ ub = 1) with h | h
      · rw [h] at eub ⊢; omega
      · rw [h] at eub ⊢; omega
    rw [e2]
  rw [← hlzd] at hlz hx f1 f2
  have hpow : power q = 217706 * q / 2 ^ 16 + 63 := rfl
  have hpl : power q ≤ 2000 := by omega
  have hm : hi * 2 ^ (1 - ub) / 2 ^ 11 = hi / 2 ^ (10 + ub) := by
    rcases (by omega : ub = 0 ∨ ub = 1) with h | h
    · rw [h] at eub ⊢; omega
    · rw [h] at eub ⊢; omega
  have hm63 : 2 ^ 63 ≤ hi * 2 ^ (1 - ub) := by
    rcases (by omega : ub = 0 ∨ ub = 1) with h | h
    · rw [h] at eub h53 ⊢; omega
    · rw [h] at eub ⊢; omega
  have hm64 : hi * 2 ^ (1 - ub) < 2 ^ 64 := by
    rcases (by omega : ub = 0 ∨ ub = 1) with h | h
    · rw [h] at eub ⊢; omega
    · rw [h] at eub ⊢; omega
  obtain ⟨P, hP⟩ : ∃ P : Int, P = power q + (52 + 1023) - ((1 - ub : Nat) : Int) - (lz : Int) - 62 := ⟨_, rfl⟩
  have hlow : ((hi / 2 ^ (10 + ub) : Nat) : ℚ) * 2 ^ (P + 11 - 1075) ≤ w * 10 ^ q ∧
      (w : ℚ) * 10 ^ q < ((hi / 2 ^ (10 + ub) : Nat) + 1) * 2 ^ (P + 11 - 1075) := by
    have g : ∀ t : Int, (2 : ℚ) ^ (137 + ub) * 2 ^ t = 2 ^ ((137 + ub : Nat) + t : Int) := fun t => by
      rw [zpow_add₀ (by norm_num), zpow_natCast]
    have k1 : ((hi / 2 ^ (9 + ub) : Nat) : ℚ) * 2 ^ ((137 + ub : Nat) + (power q - lz - 190) : Int) ≤ w * 10 ^ q := by
      rw [hx, ← g, ← mul_assoc]
      exact mul_le_mul_of_nonneg_right f1 (zpow_pos (by norm_num) _).le
    have k2 : (w : ℚ) * 10 ^ q < ((hi / 2 ^ (9 + ub) : Nat) + 1) * 2 ^ ((137 + ub : Nat) + (power q - lz - 190) : Int) := by
      rw [hx, ← g, ← mul_assoc]
      exact mul_lt_mul_of_pos_right f2 (zpow_pos (by norm_num) _)
    have := floor_scaled (9 + ub) 1 k1 k2
    have e1 : 9 + ub + 1 = 10 + ub := by omega
    have e2 : ((137 + ub : Nat) + (power q - lz - 190) : Int) + (1 : Nat) = P + 11 - 1075 := by rw [hP]; omega
    rwa [e1, e2] at this
  rw [hce]
  refine ⟨by show power q + (52 + 1023) - ((1 - ub : Nat) : Int) - (lz : Int) - 62 + -0x8000 < 0; omega, ?_⟩
  have hPe : power q + (52 + 1023) - ((1 - ub : Nat) : Int) - (lz : Int) - 62 + -0x8000 - -0x8000 = P := by rw [hP]; ring
  show ∃ M E, Down ⟨hi * 2 ^ (1 - ub), power q + (52 + 1023) - ((1 - ub : Nat) : Int) - (lz : Int) - 62 + -0x8000 - -0x8000⟩ _ M E
  rw [hPe, ← hm] at *
  clear hPe hP hce hpow hpl f1 f2 h53 h54 hx hm
  generalize hi * 2 ^ (1 - ub) = m at *
  by_cases hsub : P ≤ -11
  · obtain ⟨M, half, above, c1, c2, c3⟩ := round_sub hm64 hsub
    refine ⟨M, 1, le_rfl, c1.trans (by norm_num), Or.inr rfl, ?_, ?_, half, above, fun f => ?_⟩
    · obtain ⟨t, ht⟩ : ∃ t : Nat, (1 - P).toNat = 11 + t := ⟨(1 - P).toNat - 11, by omega⟩
      have := (floor_scaled 11 t hlow.1 hlow.2).1
      rw [← ht, ← c2, show P + 11 - 1075 + (t : Int) = ((1 : Nat) : Int) - 1075 from by omega] at this
      exact this
    · obtain ⟨t, ht⟩ : ∃ t : Nat, (1 - P).toNat = 11 + t := ⟨(1 - P).toNat - 11, by omega⟩
      have := (floor_scaled 11 t hlow.1 hlow.2).2
      rw [← ht, ← c2, show P + 11 - 1075 + (t : Int) = ((1 : Nat) : Int) - 1075 from by omega] at this
      exact this
    · have := c3 f
      rw [Nat.sub_self, Nat.zero_mul, Nat.add_zero]
      exact this
  · obtain ⟨E, hE⟩ : ∃ E : Nat, (E : Int) = P + 11 := ⟨(P + 11).toNat, by omega⟩
    rw [← hE] at hlow
    exact ⟨m / 2 ^ 11, E, by omega, by omega, Or.inl (by omega), hlow.1, hlow.2, _, _, fun f => round_normal hm63 hm64 hE (by omega) f⟩

theorem halfwayAbove_ok {M E : Nat} (hE : 1 ≤ E) (hM : M < 2 ^ 53) (hn : 2 ^ 52 ≤ M ∨ E = 1) (hb : M + (E - 1) * 2 ^ 52 < bitsInf) :
    halfwayAbove (M + (E - 1) * 2 ^ 52) = ⟨2 * M + 1, (E : Int) - 1076⟩ := by
  have hinf : bitsInf = 9218868437227405312 := rfl
  rw [hinf] at hb
  have key : ∀ m : Nat, m < 2 ^ 53 → u64 (m * 2 + 1) = 2 * m + 1 := fun m h => by unfold u64; omega
  unfold halfwayAbove
  by_cases h : 2 ^ 52 ≤ M
  · have e1 : (M + (E - 1) * 2 ^ 52) / 2 ^ 52 % 2 ^ 11 = E := by omega
    have e2 : (M + (E - 1) * 2 ^ 52) % 2 ^ 52 + 2 ^ 52 = M := by omega
    have hne : ¬ E = 0 := by omega
    rw [e1, e2, if_neg hne]
    show (⟨u64 (M * 2 + 1), (E : Int) - (52 + 1023) - 1⟩ : Adjusted) = _
    rw [key M hM]
    congr 1
    ring
  · have hE1 : E = 1 := hn.resolve_left h
    subst hE1
    have e1 : (M + (1 - 1) * 2 ^ 52) / 2 ^ 52 % 2 ^ 11 = 0 := by omega
    have e2 : (M + (1 - 1) * 2 ^ 52) % 2 ^ 52 = M := by omega
    rw [e1, e2, if_pos rfl]
    show (⟨u64 (M * 2 + 1), (1 : Int) - (52 + 1023) - 1⟩ : Adjusted) = _
    rw [key M hM]
    congr 1

/-- Both sides of the comparison, scaled to integers. -/
theorem sides (B T f : Nat) (c : Int) :
    ((B * 2 ^ (-(c + f)).toNat : Nat) : ℚ) = B * 10 ^ (-(f : Int)) * (10 ^ f * 2 ^ (-(c + f)).toNat) ∧
    ((T * 5 ^ f * 2 ^ (c + f).toNat : Nat) : ℚ) = T * 2 ^ c * (10 ^ f * 2 ^ (-(c + f)).toNat) := by
  constructor
  · push_cast
    rw [zpow_neg, zpow_natCast]
    have : (10 : ℚ) ^ f ≠ 0 := (pow_pos (by norm_num) _).ne'
    field_simp
  · push_cast
    have e10 : (10 : ℚ) ^ f = 5 ^ f * 2 ^ f := by rw [← mul_pow]; norm_num
    have e2 : (2 : ℚ) ^ (c + f).toNat = 2 ^ c * (2 ^ f * 2 ^ (-(c + f)).toNat) := by
      rw [← zpow_natCast, ← zpow_natCast, ← zpow_natCast, ← zpow_add₀ (by norm_num), ← zpow_add₀ (by norm_num)]
      congr 1
      omega
    rw [e10, e2]
    ring

theorem mid_le {M u x y : ℚ} (hu : 0 < u) (hM : 1 ≤ M) (h1 : M * (2 * u) ≤ x) (h2 : x ≤ 10 * y) : (2 * M + 1) * u ≤ 20 * y := by
  have : u ≤ M * u := by nlinarith
  nlinarith

/-- What is compared when the digits are compared with the middle between two doubles. -/
theorem negative_ok {am : Adjusted} {x y : ℚ} {M E : Nat} (hd : Down am x M E) (hinf : M + (E - 1) * 2 ^ 52 < bitsInf) {big : List Nat} (hL : Limbs big)
    (hN : Norm big) (hp : 0 < val big) {f : Nat} (hf0 : 0 < f) (hf : f ≤ 1093) (hB : val big < 10 ^ 770) (hy : y = val big * 10 ^ (-(f : Int)))
    (hxy : x ≤ 10 * y) : ∃ am', negativeDigitComp big am (-(f : Int)) = some am' ∧ ∃ up : Bool,
      Encodes am' (min (M + (E - 1) * 2 ^ 52 + if up then 1 else 0) bitsInf) ∧
      (up = true ↔ ((2 * M + 1 : Nat) * 2 ^ ((E : Int) - 1076) < y ∨ (y = (2 * M + 1 : Nat) * 2 ^ ((E : Int) - 1076) ∧ M % 2 = 1))) := by
  obtain ⟨half, above, hr⟩ := hd.round
  have hb : (round (fun _ _ _ => false) am).bits = M + (E - 1) * 2 ^ 52 := by
    have := (hr fun _ _ _ => false).bits_eq
    rw [this, if_neg (by decide), Nat.add_zero]
    exact Nat.min_eq_left hinf.le
  have hth := halfwayAbove_ok hd.hE hd.hM hd.hn hinf
  have hT : 2 * M + 1 < 2 ^ 54 := by have := hd.hM; omega
  obtain ⟨s1, s2⟩ := sides (val big) (2 * M + 1) f ((E : Int) - 1076)
  obtain ⟨z, hz⟩ : ∃ z : Int, z = (E : Int) - 1076 + f := ⟨_, rfl⟩
  rw [← hz] at s1 s2
  obtain ⟨κ, hκ⟩ : ∃ κ : ℚ, κ = 10 ^ f * 2 ^ (-z).toNat := ⟨_, rfl⟩
  have hκ0 : 0 < κ := by rw [hκ]; exact mul_pos (pow_pos (by norm_num) _) (pow_pos (by norm_num) _)
  rw [← hκ, ← hy] at s1
  rw [← hκ] at s2
  have c0 : 2 ^ 54 * 5 ^ 1093 * 2 ^ 18 ≤ (2 ^ 64) ^ 62 := by decide +kernel
  have h5 : 5 ^ f ≤ 5 ^ 1093 := Nat.pow_le_pow_right Nat.succ_pos' hf
  have c1 : (2 * M + 1) * 5 ^ f < (2 ^ 64) ^ 62 := by
    have a1 : (2 * M + 1) * 5 ^ f < 2 ^ 54 * 5 ^ f := Nat.mul_lt_mul_of_pos_right hT (pow_pos (by norm_num) _)
    have a2 : 2 ^ 54 * 5 ^ f ≤ 2 ^ 54 * 5 ^ 1093 := Nat.mul_le_mul_left _ h5
    have a3 : 2 ^ 54 * 5 ^ 1093 * 1 ≤ 2 ^ 54 * 5 ^ 1093 * 2 ^ 18 := Nat.mul_le_mul_left _ (by norm_num)
    rw [Nat.mul_one] at a3
    exact a1.trans_le (a2.trans (a3.trans c0))
  -- the theoretical digits fit
  have c2 : 0 < z → (2 * M + 1) * 5 ^ f * 2 ^ z.toNat < (2 ^ 64) ^ 62 := by
    intro hz0
    by_cases hM0 : M = 0
    · have hE1 : E = 1 := by have := hd.hn; omega
      subst hM0
      have a1 : 1 * 5 ^ f * 2 ^ z.toNat ≤ 5 ^ 1093 * 2 ^ 18 := by
        rw [Nat.one_mul]
        exact Nat.mul_le_mul h5 (Nat.pow_le_pow_right (by norm_num) (by omega))
      have a2 : 5 ^ 1093 * 2 ^ 18 < 2 ^ 54 * 5 ^ 1093 * 2 ^ 18 := by decide +kernel
      exact lt_of_le_of_lt a1 (a2.trans_le c0)
    · have hlo := hd.lo
      have hu : (2 : ℚ) ^ ((E : Int) - 1075) = 2 * 2 ^ ((E : Int) - 1076) := by
        rw [show (E : Int) - 1075 = 1 + (E - 1076) by ring, zpow_add₀ (by norm_num), zpow_one]
      have hu0 : (0 : ℚ) < 2 ^ ((E : Int) - 1076) := zpow_pos (by norm_num) _
      have hM1 : (1 : ℚ) ≤ M := by exact_mod_cast Nat.pos_of_ne_zero hM0
      have hmid : ((2 * M + 1 : Nat) : ℚ) * 2 ^ ((E : Int) - 1076) ≤ 20 * y := by
        rw [hu] at hlo
        push_cast
        exact mid_le hu0 hM1 hlo hxy
      have hle : (((2 * M + 1) * 5 ^ f * 2 ^ z.toNat : Nat) : ℚ) ≤ ((20 * (val big * 2 ^ (-z).toNat) : Nat) : ℚ) := by
        rw [s2, Nat.cast_mul, s1]
        calc _ ≤ 20 * y * κ := mul_le_mul_of_nonneg_right hmid hκ0.le
          _ = _ := by push_cast; ring
      have hle : (2 * M + 1) * 5 ^ f * 2 ^ z.toNat ≤ 20 * (val big * 2 ^ (-z).toNat) := by exact_mod_cast hle
      have e0 : (-z).toNat = 0 := by omega
      rw [e0, pow_zero, Nat.mul_one] at hle
      have : 20 * 10 ^ 770 < (2 ^ 64) ^ 62 := by decide +kernel
      omega
  have c3 : val big * 2 ^ (-z).toNat < (2 ^ 64) ^ 62 := by
    have hE := hd.hE
    have a1 : 2 ^ (-z).toNat ≤ 2 ^ 1075 := Nat.pow_le_pow_right (by norm_num) (by omega)
    have a2 : 10 ^ 770 * 2 ^ 1075 < (2 ^ 64) ^ 62 := by decide +kernel
    exact lt_of_le_of_lt (Nat.mul_le_mul hB.le a1) a2
  obtain ⟨o1, o2, o3⟩ := bigOf_ok (n := 2 * M + 1) (hT.trans (by norm_num))
  obtain ⟨t1, p1, p2, p3, p4⟩ := pow5_ok f o2 o3 (by rw [o1]; omega) (by rw [o1]; exact c1)
  rw [o1] at p2
  have hp2 : 0 < val t1 := by rw [p2]; exact Nat.mul_pos (by omega) (pow_pos (by norm_num) _)
  have st2 : ∃ t2, onlyIf (decide (z > 0)) (shl z.toNat) t1 = some t2 ∧ val t2 = (2 * M + 1) * 5 ^ f * 2 ^ z.toNat ∧ Limbs t2 ∧ Norm t2 := by
    unfold onlyIf
    by_cases hz0 : z > 0
    · rw [decide_eq_true hz0, if_pos rfl]
      obtain ⟨t2, q1, q2, q3, q4⟩ := shl_ok z.toNat p3 p4 hp2 (by rw [p2]; exact c2 hz0)
      exact ⟨t2, q1, by rw [q2, p2], q3, q4⟩
    · rw [decide_eq_false hz0, if_neg (by decide)]
      have e0 : z.toNat = 0 := by omega
      exact ⟨t1, rfl, by rw [p2, e0, pow_zero, Nat.mul_one], p3, p4⟩
  have sb : ∃ b2, onlyIf (decide (z < 0)) (shl (-z).toNat) big = some b2 ∧ val b2 = val big * 2 ^ (-z).toNat ∧ Limbs b2 ∧ Norm b2 := by
    unfold onlyIf
    by_cases hz0 : z < 0
    · rw [decide_eq_true hz0, if_pos rfl]
      exact shl_ok (-z).toNat hL hN hp c3
    · rw [decide_eq_false hz0, if_neg (by decide)]
      have e0 : (-z).toNat = 0 := by omega
      exact ⟨big, rfl, by rw [e0, pow_zero, Nat.mul_one], hL, hN⟩
  obtain ⟨t2, q1, q2, q3, q4⟩ := st2
  obtain ⟨b2, r1, r2, r3, r4⟩ := sb
  rw [← q2] at s2
  rw [← r2] at s1
  have hcmp := compareBig_ok r3 q3 r4 q4
  have e5 : onlyIf (decide (f ≠ 0)) (pow5 f) (bigOf (2 * M + 1)) = some t1 := by
    unfold onlyIf
    rw [decide_eq_true (show f ≠ 0 from by omega), if_pos rfl]
    exact p1
  have main : negativeDigitComp big am (-(f : Int)) =
      some (round (fun odd _ _ => match compareBig b2 t2 with | .gt => true | .lt => false | .eq => odd) am) := by
    unfold negativeDigitComp
    simp only
    rw [hb, hth]
    simp only [neg_neg, Int.toNat_natCast, sub_neg_eq_add]
    rw [e5]
    simp only [← hz]
    show ((onlyIf (decide (z > 0)) (shl z.toNat) t1).bind fun t => (onlyIf (decide (z < 0)) (shl (-z).toNat) big).bind fun b =>
      some (round (fun odd _ _ => match compareBig b t with | .gt => true | .lt => false | .eq => odd) am)) = _
    rw [q1]
    show ((onlyIf (decide (z < 0)) (shl (-z).toNat) big).bind fun b =>
      some (round (fun odd _ _ => match compareBig b t2 with | .gt => true | .lt => false | .eq => odd) am)) = _
    rw [r1]
    rfl
  rw [main]
  have henc := hr (fun odd _ _ => match compareBig b2 t2 with | .gt => true | .lt => false | .eq => odd)
  refine ⟨_, rfl, (match compareBig b2 t2 with | .gt => true | .lt => false | .eq => decide (M % 2 = 1)), henc, ?_⟩
  generalize ((2 * M + 1 : Nat) : ℚ) * 2 ^ ((E : Int) - 1076) = mid at *
  have lt1 : val t2 < val b2 → mid < y := fun h => by
    have h : (val t2 : ℚ) < val b2 := by exact_mod_cast h
    rw [s1, s2] at h
    exact lt_of_mul_lt_mul_right h hκ0.le
  have lt2 : val b2 < val t2 → y < mid := fun h => by
    have h : (val b2 : ℚ) < val t2 := by exact_mod_cast h
    rw [s1, s2] at h
    exact lt_of_mul_lt_mul_right h hκ0.le
  have eq1 : val b2 = val t2 → y = mid := fun h => by
    have h : (val b2 : ℚ) = val t2 := by exact_mod_cast h
    rw [s1, s2] at h
    exact mul_right_cancel₀ hκ0.ne' h
  cases hc : compareBig b2 t2 <;> rw [hc] at hcmp
  · have := lt2 hcmp
    refine ⟨fun h => (by cases h), ?_⟩
    rintro (h | ⟨h, _⟩)
    · exact absurd h (not_lt.2 this.le)
    · exact absurd h this.ne
  · have := eq1 hcmp
    show decide (M % 2 = 1) = true ↔ _
    rw [decide_eq_true_iff]
    refine ⟨fun h => Or.inr ⟨this, h⟩, ?_⟩
    rintro (h | ⟨_, h⟩)
    · exact absurd this h.ne'
    · exact h
  · exact ⟨fun _ => Or.inl (lt1 hcmp), fun _ => rfl⟩

/-- Digits with an exponent that is not negative are an integer, which is rounded. -/
theorem positive_ok {big : List Nat} (hL : Limbs big) (hN : Norm big) (hp : 0 < val big) {g : Nat} (hX : val big * 10 ^ g < (2 ^ 64) ^ 62) :
    ∃ am, positiveDigitComp big g = some am ∧ ∃ N, Encodes am N ∧ Rounds N ((val big * 10 ^ g : Nat) : ℚ) := by
  obtain ⟨v, p1, p2, p3, p4⟩ := pow10_ok g hL hN hp hX
  have hv : 0 < val v := by rw [p2]; exact Nat.mul_pos hp (pow_pos (by norm_num) _)
  obtain ⟨h63, h64, hh⟩ := hi64_ok p3 p4 hv
  have main : positiveDigitComp big g = some (round (fun odd half above => above || (half && (hi64 v).2) || (odd && half)) ⟨(hi64 v).1, bitLength v - 64 + (52 + 1023)⟩) := by
    unfold positiveDigitComp
    rw [p1]
    rfl
  rw [main, ← p2]
  clear main p1 p2 p3 p4 hX hL hN hp
  obtain ⟨z, hz⟩ : ∃ z : Int, z = bitLength v - 64 := ⟨_, rfl⟩
  generalize (hi64 v).2 = tr at *
  generalize (hi64 v).1 = m at *
  have key : (m : ℚ) * 2 ^ z ≤ val v ∧ (val v : ℚ) < (m + 1) * 2 ^ z ∧ (tr = true ↔ (m : ℚ) * 2 ^ z ≠ val v) ∧ -64 ≤ z := by
    have hz0 : (0 : ℚ) < 2 ^ z := zpow_pos (by norm_num) _
    rcases hh with ⟨s, b1, b2, b3⟩ | ⟨j, b1, b2, b3, b4⟩
    · have ez : z = -(s : Int) := by rw [hz, b1]; ring
      have e : (m : ℚ) * 2 ^ z = val v := by
        rw [b2, ez, zpow_neg, zpow_natCast]
        push_cast
        rw [mul_assoc, mul_inv_cancel₀ (pow_pos (by norm_num) _).ne', mul_one]
      have hs : s ≤ 64 := by
        by_contra hc
        have : 2 ^ 64 ≤ 2 ^ s := Nat.pow_le_pow_right (by norm_num) (by omega)
        have : 1 * 2 ^ s ≤ val v * 2 ^ s := Nat.mul_le_mul_right _ hv
        omega
      refine ⟨e.le, ?_, ?_, by omega⟩
      · rw [← e, add_mul, one_mul]; linarith
      · rw [b3, e]; simp
    · have ez : z = (j : Int) := by rw [hz, b1]; ring
      rw [ez, zpow_natCast]
      refine ⟨by exact_mod_cast b2, by exact_mod_cast b3, ?_, by omega⟩
      rw [b4]
      norm_cast
  obtain ⟨k1, k2, k3, k4⟩ := key
  obtain ⟨E, hE⟩ : ∃ E : Nat, (E : Int) = z + (52 + 1023) + 11 := ⟨(z + (52 + 1023) + 11).toNat, by omega⟩
  have hE1 : 1 ≤ E := by omega
  rw [← hz]
  refine ⟨_, rfl, _, round_normal h63 h64 hE hE1 _, ?_⟩
  have hu : (2 : ℚ) ^ ((E : Int) - 1075) = 2 ^ 11 * 2 ^ z := by
    rw [hE, show z + (52 + 1023) + 11 - 1075 = ((11 : Nat) : Int) + z by push_cast; ring, zpow_add₀ (by norm_num), zpow_natCast]
  have hz0 : (0 : ℚ) < 2 ^ z := zpow_pos (by norm_num) _
  have hm : (m : ℚ) = 2 ^ 11 * ((m / 2 ^ 11 : Nat) : ℚ) + ((m % 2 ^ 11 : Nat) : ℚ) := by
    have : m = 2 ^ 11 * (m / 2 ^ 11) + m % 2 ^ 11 := by omega
    exact_mod_cast this
  have hmod : m % 2 ^ 11 < 2 ^ 11 := Nat.mod_lt _ (by norm_num)
  have hM53 : m / 2 ^ 11 < 2 ^ 53 := by omega
  have hM52 : 2 ^ 52 ≤ m / 2 ^ 11 := by omega
  clear hE h63 h64 hz hh
  generalize (2 : ℚ) ^ z = u at *
  generalize (val v : ℚ) = X at *
  apply rounds_floor hE1 hM53 (Or.inl hM52) <;> rw [hu] <;> clear hM53 hM52 hu
  · generalize m / 2 ^ 11 = M at *
    generalize m % 2 ^ 11 = d at *
    have : (0 : ℚ) ≤ d := Nat.cast_nonneg _
    refine le_trans ?_ k1
    rw [hm]
    nlinarith
  · generalize m / 2 ^ 11 = M at *
    generalize m % 2 ^ 11 = d at *
    have : (d : ℚ) + 1 ≤ 2 ^ 11 := by exact_mod_cast hmod
    refine lt_of_lt_of_le k2 ?_
    rw [hm]
    nlinarith
  · generalize m / 2 ^ 11 = M at *
    generalize m % 2 ^ 11 = d at *
    have e1 : ((M : ℚ) + 1 / 2) * (2 ^ 11 * u) = (2 ^ 11 * M + 2 ^ 10) * u := by ring
    rw [e1]
    simp only [Bool.or_eq_true, Bool.and_eq_true, decide_eq_true_eq]
    rcases Nat.lt_trichotomy d (2 ^ 10) with h | h | h
    · have hX : X < (2 ^ 11 * M + 2 ^ 10) * u := by
        refine lt_of_lt_of_le k2 (mul_le_mul_of_nonneg_right ?_ hz0.le)
        rw [hm]
        have : (d : ℚ) + 1 ≤ 2 ^ 10 := by exact_mod_cast h
        linarith
      constructor
      · rintro ((h' | ⟨h', _⟩) | ⟨_, h'⟩) <;> omega
      · rintro (h' | ⟨h', _⟩)
        · exact absurd h' (not_lt.2 hX.le)
        · exact absurd h' hX.ne
    · have hX : (2 ^ 11 * (M : ℚ) + 2 ^ 10) * u = m * u := by
        rw [hm, h]; push_cast; ring
      rw [hX]
      constructor
      · rintro ((h' | ⟨_, h'⟩) | ⟨h', _⟩)
        · omega
        · exact Or.inl (lt_of_le_of_ne k1 (k3.1 h'))
        · by_cases he : (m : ℚ) * u = X
          · exact Or.inr ⟨he.symm, h'⟩
          · exact Or.inl (lt_of_le_of_ne k1 he)
      · rintro (h' | ⟨_, h'⟩)
        · exact Or.inl (Or.inr ⟨h, k3.2 h'.ne⟩)
        · exact Or.inr ⟨h', h⟩
    · have hX : (2 ^ 11 * (M : ℚ) + 2 ^ 10) * u < X := by
        refine lt_of_lt_of_le (mul_lt_mul_of_pos_right ?_ hz0) k1
        rw [hm]
        have : (2 : ℚ) ^ 10 < d := by exact_mod_cast h
        linarith
      exact ⟨fun _ => Or.inl hX, fun _ => Or.inl (Or.inl h)⟩

/-- The middle between two doubles has at most 769 significant digits. -/
theorem no_middle {a c : Nat} {k f : Int} (ha : 10 ^ 768 ≤ a) (hc : c < 2 ^ 54) (hf : -1075 ≤ f) (h1 : (a : ℚ) * 10 ^ k < c * 2 ^ f)
    (h2 : (c : ℚ) * 2 ^ f < (a + 1) * 10 ^ k) (h3 : (a : ℚ) * 10 ^ k < 2 ^ 1025) : False := by
  have hk : k ≤ 0 := by
    by_contra hk
    have e1 : (1 : ℚ) ≤ 10 ^ k := one_le_zpow₀ (by norm_num) (by omega)
    have e2 : (2 : ℚ) ^ 1025 ≤ a := by
      have : 2 ^ 1025 ≤ 10 ^ 768 := by decide +kernel
      exact_mod_cast this.trans ha
    have e3 : (0 : ℚ) ≤ a := Nat.cast_nonneg _
    generalize (2 : ℚ) ^ 1025 = A at *
    generalize (10 : ℚ) ^ k = K at *
    nlinarith
  obtain ⟨j, rfl⟩ : ∃ j : Nat, k = -j := ⟨(-k).toNat, by omega⟩
  have hj0 : (0 : ℚ) < 10 ^ j := pow_pos (by norm_num) _
  have e : ∀ y : ℚ, y * 10 ^ (-(j : Int)) * 10 ^ j = y := fun y => by
    rw [zpow_neg, zpow_natCast, mul_assoc, inv_mul_cancel₀ hj0.ne', mul_one]
  have g1 := mul_lt_mul_of_pos_right h1 hj0
  have g2 := mul_lt_mul_of_pos_right h2 hj0
  rw [e] at g1 g2
  clear h1 h2 h3
  have e10 : (c : ℚ) * 2 ^ f * 10 ^ j = c * 5 ^ j * 2 ^ (f + j) := by
    rw [zpow_add₀ (by norm_num), zpow_natCast, show (10 : ℚ) = 5 * 2 by norm_num, mul_pow]; ring
  rw [e10] at g1 g2
  by_cases hs : 0 ≤ f + j
  · obtain ⟨i, hi⟩ := Int.eq_ofNat_of_zero_le hs
    rw [hi] at g1 g2
    simp only [zpow_natCast] at g1 g2
    have g1 : a < c * 5 ^ j * 2 ^ i := by exact_mod_cast g1
    have g2 : c * 5 ^ j * 2 ^ i < a + 1 := by exact_mod_cast g2
    omega
  · have e1 : (2 : ℚ) ^ (f + j) ≤ 1 := zpow_le_one_of_nonpos₀ (by norm_num) (by omega)
    have g3 : (a : ℚ) < c * 5 ^ j := lt_of_lt_of_le g1 (mul_le_of_le_one_right (mul_nonneg (Nat.cast_nonneg _) (pow_pos (by norm_num) _).le) e1)
    have g3 : a < c * 5 ^ j := by exact_mod_cast g3
    have g4 : c * 5 ^ j ≤ 2 ^ 54 * 5 ^ 1074 := Nat.mul_le_mul hc.le (Nat.pow_le_pow_right (by norm_num) (by omega))
    have g5 : 2 ^ 54 * 5 ^ 1074 ≤ 10 ^ 768 := by decide +kernel
    exact absurd (g3.trans_le (g4.trans (g5.trans ha))) (lt_irrefl _)

theorem scientificExponent_ok {w : Nat} (h1 : 10 ^ 18 ≤ w) (h2 : w < 10 ^ 19) (q : Int) : scientificExponent w q = q + 18 := by
  have a1 : 10000 ≤ w := by omega
  have a2 : 10000 ≤ w / 10000 := by omega
  have a3 : 10000 ≤ w / 10000 / 10000 := by omega
  have a4 : 10000 ≤ w / 10000 / 10000 / 10000 := by omega
  have a5 : ¬ 10000 ≤ w / 10000 / 10000 / 10000 / 10000 := by omega
  have b1 : 100 ≤ w / 10000 / 10000 / 10000 / 10000 := by omega
  have b2 : ¬ 100 ≤ w / 10000 / 10000 / 10000 / 10000 / 100 := by omega
  have c1 : ¬ 10 ≤ w / 10000 / 10000 / 10000 / 10000 / 100 := by omega
  have hr : List.range 6 = [0, 1, 2, 3, 4, 5] := by decide
  unfold scientificExponent
  simp only [hr, List.foldl_cons, List.foldl_nil, ge_iff_le, a1, a2, a3, a4, a5, b1, b2, c1, if_true, if_false]
  ring

/-- The number that the big integer stands for, and where the digits lie. -/
theorem digits_value {V n digits : Nat} {e0 : Int} {ds : List Byte} {big : List Nat} (hds : AllDigits ds) (hV : digitsValue ds = V) (hn : ds.length = n)
    (hlow : 10 ^ (n - 1) ≤ V) (hn0 : 0 < n) (h : Digits769 ds big digits) : 0 < val big ∧ val big < 10 ^ 770 ∧ digits ≤ 770 ∧
      (((val big : ℚ) * 10 ^ (e0 + n - digits) = V * 10 ^ e0) ∨
       (∃ (A : Nat) (c : Int), 10 ^ 768 ≤ A ∧ e0 + n - digits = c - 1 ∧ (A : ℚ) * 10 ^ c < V * 10 ^ e0 ∧ (V : ℚ) * 10 ^ e0 < (A + 1) * 10 ^ c ∧
        (val big : ℚ) * 10 ^ (e0 + n - digits) = (A + 1 / 10) * 10 ^ c)) := by
  obtain ⟨a, b, rfl, hal, hc⟩ := h
  have hdv := digitsValue_append a b
  rw [hV] at hdv
  rw [List.length_append] at hn
  have hblt := digitsValue_lt hds.right
  have halt := digitsValue_lt hds.left
  have hVpos : 0 < V := lt_of_lt_of_le (pow_pos (by norm_num) _) hlow
  have e10 : ∀ (c : Int) (i : Nat), (10 : ℚ) ^ (c + i) = 10 ^ i * 10 ^ c := fun c i => by
    rw [zpow_add₀ (by norm_num), zpow_natCast, mul_comm]
  rcases hc with ⟨h1, h2, h3⟩ | ⟨h1, h2, h3, h4⟩
  · rw [h1, Nat.add_zero] at hdv
    have hpa : 0 < digitsValue a := by
      rcases Nat.eq_zero_or_pos (digitsValue a) with h | h
      · rw [h, Nat.zero_mul] at hdv; omega
      · exact h
    have h769 : 10 ^ a.length ≤ 10 ^ 769 := Nat.pow_le_pow_right Nat.succ_pos' hal
    have h770 : 10 ^ 769 < 10 ^ 770 := by decide +kernel
    refine ⟨by rw [h2]; exact hpa, by rw [h2]; exact (halt.trans_le h769).trans h770, by omega, Or.inl ?_⟩
    have : e0 + n - digits = e0 + (b.length : Nat) := by rw [h3, ← hn]; push_cast; ring
    rw [this, e10, h2, hdv]
    push_cast
    ring
  · have hA : 10 ^ 768 ≤ digitsValue a := by
      have e1 : n - 1 = 768 + b.length := by omega
      rw [e1, hdv, pow_add] at hlow
      have : 10 ^ 768 * 10 ^ b.length < (digitsValue a + 1) * 10 ^ b.length := by
        rw [Nat.add_mul, Nat.one_mul]; omega
      exact Nat.lt_succ_iff.1 (Nat.lt_of_mul_lt_mul_right this)
    have h769 : digitsValue a < 10 ^ 769 := by rw [← h1]; exact halt
    have h770 : 10 ^ 770 = 10 ^ 769 * 10 := pow_succ _ _
    refine ⟨by rw [h3]; omega, by rw [h3, h770]; omega, by omega, Or.inr ⟨digitsValue a, e0 + (b.length : Nat), hA, ?_, ?_, ?_, ?_⟩⟩
    · rw [h4, ← hn, h1]; push_cast; ring
    · rw [e10, hdv]
      have hp : (0 : ℚ) < 10 ^ e0 := zpow_pos (by norm_num) _
      have hb : (0 : ℚ) < digitsValue b := by exact_mod_cast Nat.pos_of_ne_zero h2
      rw [← mul_assoc]
      apply mul_lt_mul_of_pos_right _ hp
      push_cast
      linarith
    · rw [e10, hdv]
      have hp : (0 : ℚ) < 10 ^ e0 := zpow_pos (by norm_num) _
      have hb : (digitsValue b : ℚ) < 10 ^ b.length := by exact_mod_cast hblt
      rw [← mul_assoc]
      apply mul_lt_mul_of_pos_right _ hp
      push_cast
      linarith
    · have : e0 + n - digits = e0 + (b.length : Nat) + -1 := by rw [h4, ← hn, h1]; push_cast; ring
      rw [this, zpow_add₀ (by norm_num), h3]
      push_cast
      rw [zpow_neg, zpow_one]
      ring

theorem gap_succ (n : Nat) : gap n ≤ gap (n + 1) := by
  unfold gap
  apply zpow_le_zpow_right₀ (by norm_num)
  have : n / 2 ^ 52 ≤ (n + 1) / 2 ^ 52 := Nat.div_le_div_right (Nat.le_succ _)
  omega

theorem small_step {w : Nat} {E : Int} {q : Int} {M x : ℚ} (hw : 10 ^ 18 ≤ w) (hM : M + 1 ≤ 2 ^ 53) (hhi : (w : ℚ) * 10 ^ q < (M + 1) * 2 ^ E)
    (hx : x < (w + 1) * 10 ^ q) : x < (M + 1) * 2 ^ E + 2 ^ E / 2 := by
  have hu : (0 : ℚ) < 2 ^ E := zpow_pos (by norm_num) _
  have hw' : (10 : ℚ) ^ 18 ≤ w := by exact_mod_cast hw
  have hq : (0 : ℚ) < 10 ^ q := zpow_pos (by norm_num) _
  generalize (2 : ℚ) ^ E = u at *
  generalize (10 : ℚ) ^ q = Q at *
  have h1 : Q * 10 ^ 18 ≤ w * Q := by rw [mul_comm]; exact mul_le_mul_of_nonneg_right hw' hq.le
  have h2 : (M + 1) * u ≤ 2 ^ 53 * u := mul_le_mul_of_nonneg_right hM hu.le
  have h3 : Q * 10 ^ 18 < 2 ^ 53 * u := lt_of_le_of_lt h1 (hhi.trans_le h2)
  have h4 : Q < u / 2 := by linarith
  linarith

attribute [local irreducible] scientificExponent positiveDigitComp negativeDigitComp in
theorem digitComp_eq {p : Parsed} {big : List Nat} {digits : Nat} (h : parseMantissa 769 p.integer p.fraction = some (big, digits)) (am : Adjusted) :
    digitComp p am = if scientificExponent p.mantissa p.exponent + 1 - digits ≥ 0
      then positiveDigitComp big (scientificExponent p.mantissa p.exponent + 1 - digits).toNat
      else negativeDigitComp big ⟨am.mantissa, am.power2 - -0x8000⟩ (scientificExponent p.mantissa p.exponent + 1 - digits) := by
  unfold digitComp
  rw [h]
  rfl

theorem twice_lt {w Q A x : ℚ} (h1 : 1 ≤ w) (h2 : 0 < Q) (h3 : w * Q < A) (h4 : x < (w + 1) * Q) : x < A * 2 := by
  have : Q ≤ w * Q := le_mul_of_one_le_left h2.le h1
  linarith

theorem tenth_le {A C : ℚ} (h1 : 0 < C) (h2 : 0 ≤ A) : (A + 1) * C ≤ 10 * ((A + 1 / 10) * C) := by
  have : 0 ≤ A * C := mul_nonneg h2 h1.le
  linarith

theorem lt_step {X M u g : ℚ} (h1 : X < (M + 1) * u + u / 2) (h2 : u ≤ g) : X < M * u + u + g / 2 := by linarith

/-- Comparing the digits gives the nearest double. -/
theorem digitComp_ok {p : Parsed} {frac : List Byte} {dot : Bool} (hi : AllDigits p.integer) (hf : AllDigits frac) (hdot : dot = false → frac = [])
    (hfr : p.fraction = if dot then some frac else none) {k r : Nat} {e0 : Int} (hV : digitsValue (p.integer ++ frac) = p.mantissa * 10 ^ k + r)
    (hr : r < 10 ^ k) (hw1 : 10 ^ 18 ≤ p.mantissa) (hw2 : p.mantissa < 10 ^ 19) (hq : p.exponent = e0 + k) (hq1 : -342 ≤ p.exponent)
    (hq2 : p.exponent ≤ 308) (hmax : (p.mantissa : ℚ) * 10 ^ p.exponent < 2 ^ 1024) :
    ∃ am, digitComp p (computeError p.exponent p.mantissa) = some am ∧ ∃ N, Encodes am N ∧ Rounds N (digitsValue (p.integer ++ frac) * 10 ^ e0) := by
  obtain ⟨big, digits, m1, hL, hN, m4⟩ := parseMantissa_ok hi hf hdot
  rw [← hfr] at m1
  obtain ⟨_, M, E, hd⟩ := error_ok hq1 hq2 (w := p.mantissa) (by omega) (hw2.trans (by norm_num))
  have hall : AllDigits (p.integer ++ frac) := hi.append hf
  obtain ⟨ds, hds⟩ : ∃ ds, ds = (p.integer ++ frac).dropWhile (· == 48) := ⟨_, rfl⟩
  have hdd : AllDigits ds := hds ▸ dropZeros_digits hall
  have hdv : digitsValue ds = digitsValue (p.integer ++ frac) := by rw [hds]; exact dropZeros_value _
  have hlow := dropZeros_low hall
  rw [← hds] at hlow m4
  have hup := digitsValue_lt hdd
  rw [hdv] at hup
  generalize digitsValue (p.integer ++ frac) = V at *
  have hVlo : 10 ^ (18 + k) ≤ V := by
    rw [hV, pow_add]
    exact (Nat.mul_le_mul_right _ hw1).trans (Nat.le_add_right _ _)
  have hVhi : V < 10 ^ (19 + k) := by
    rw [hV, pow_add]
    calc p.mantissa * 10 ^ k + r < p.mantissa * 10 ^ k + 10 ^ k := by omega
      _ = (p.mantissa + 1) * 10 ^ k := by ring
      _ ≤ 10 ^ 19 * 10 ^ k := Nat.mul_le_mul_right _ hw2
  have hn1 : 18 + k < ds.length := (Nat.pow_lt_pow_iff_right (by norm_num)).1 (lt_of_le_of_lt hVlo hup)
  have hne : ds ≠ [] := fun h => by rw [h] at hn1; cases hn1
  have hlow := hlow hne
  have hn2 : ds.length - 1 < 19 + k := (Nat.pow_lt_pow_iff_right (by norm_num)).1 (lt_of_le_of_lt hlow hVhi)
  have hn : ds.length = 19 + k := by omega
  obtain ⟨hb0, hb770, hdig, hval⟩ := digits_value (e0 := e0) hdd hdv rfl hlow (by omega) m4
  obtain ⟨e, he⟩ : ∃ e : Int, e = e0 + ds.length - digits := ⟨_, rfl⟩
  rw [← he] at hval
  have hsci : scientificExponent p.mantissa p.exponent + 1 - digits = e := by
    rw [scientificExponent_ok hw1 hw2, he, hq, hn]; push_cast; ring
  have hmain : ∀ am, digitComp p am = if e ≥ 0 then positiveDigitComp big e.toNat else negativeDigitComp big ⟨am.mantissa, am.power2 - -0x8000⟩ e := by
    intro am
    rw [digitComp_eq m1, hsci]
  rw [hmain]
  -- the number itself
  have hwq : (V : ℚ) = p.mantissa * 10 ^ k + r := by rw [hV]; push_cast; ring
  have eq10 : (10 : ℚ) ^ p.exponent = 10 ^ k * 10 ^ e0 := by rw [hq, zpow_add₀ (by norm_num), zpow_natCast, mul_comm]
  have hp0 : (0 : ℚ) < 10 ^ e0 := zpow_pos (by norm_num) _
  have hxlo : (p.mantissa : ℚ) * 10 ^ p.exponent ≤ V * 10 ^ e0 := by
    rw [eq10, ← mul_assoc]
    apply mul_le_mul_of_nonneg_right _ hp0.le
    rw [hwq]
    have : (0 : ℚ) ≤ r := Nat.cast_nonneg _
    linarith
  have hxhi : (V : ℚ) * 10 ^ e0 < (p.mantissa + 1) * 10 ^ p.exponent := by
    rw [eq10, ← mul_assoc]
    apply mul_lt_mul_of_pos_right _ hp0
    rw [hwq]
    have : (r : ℚ) < 10 ^ k := by exact_mod_cast hr
    linarith
  have hx1025 : (V : ℚ) * 10 ^ e0 < 2 ^ 1025 := by
    have h1 : (1 : ℚ) ≤ p.mantissa := by exact_mod_cast (by omega : 1 ≤ p.mantissa)
    have h2 : (0 : ℚ) < 10 ^ p.exponent := zpow_pos (by norm_num) _
    have h3 : (2 : ℚ) ^ 1025 = 2 ^ 1024 * 2 := pow_succ _ _
    rw [h3]
    exact twice_lt h1 h2 hmax hxhi
  have hbq : (0 : ℚ) < val big := by exact_mod_cast hb0
  by_cases hpos : e ≥ 0
  · rw [if_pos hpos]
    obtain ⟨g, rfl⟩ := Int.eq_ofNat_of_zero_le hpos
    rcases hval with hval | ⟨A, c, hA, hc, hlo, _, _⟩
    · rw [zpow_natCast] at hval
      have hcast : ((val big * 10 ^ g : Nat) : ℚ) = V * 10 ^ e0 := by push_cast; exact hval
      have hlt : val big * 10 ^ g < (2 ^ 64) ^ 62 := by
        have h1 : ((val big * 10 ^ g : Nat) : ℚ) < ((2 ^ 1025 : Nat) : ℚ) := by rw [hcast, Nat.cast_pow]; exact hx1025
        have h1 : val big * 10 ^ g < 2 ^ 1025 := by exact_mod_cast h1
        exact h1.trans (by decide +kernel)
      have := positive_ok hL hN hb0 hlt
      rw [hcast] at this
      exact this
    · exfalso
      have h1 : (1 : ℚ) ≤ 10 ^ c := one_le_zpow₀ (by norm_num) (by omega)
      have h2 : (2 : ℚ) ^ 1025 ≤ A := by
        have : 2 ^ 1025 ≤ 10 ^ 768 := by decide +kernel
        exact_mod_cast this.trans hA
      have h3 : (A : ℚ) ≤ A * 10 ^ c := le_mul_of_one_le_right (Nat.cast_nonneg _) h1
      exact absurd (lt_of_le_of_lt h2 (lt_of_le_of_lt h3 (hlo.trans hx1025))) (lt_irrefl _)
  · rw [if_neg hpos]
    obtain ⟨f, rfl⟩ : ∃ f : Nat, e = -(f : Int) := ⟨(-e).toNat, by omega⟩
    have hxy : (p.mantissa : ℚ) * 10 ^ p.exponent ≤ 10 * (val big * 10 ^ (-(f : Int))) := by
      refine hxlo.trans ?_
      rcases hval with hval | ⟨A, c, _, _, _, h2, h3⟩
      · rw [hval]
        have : (0 : ℚ) ≤ V * 10 ^ e0 := mul_nonneg (Nat.cast_nonneg _) hp0.le
        generalize (V : ℚ) * 10 ^ e0 = X at *
        linarith
      · rw [h3]
        refine h2.le.trans ?_
        have hc0 : (0 : ℚ) < 10 ^ c := zpow_pos (by norm_num) _
        exact tenth_le hc0 (Nat.cast_nonneg _)
    obtain ⟨e1, e2⟩ := magN_sig hd.hE hd.hM hd.hn
    have hinf : M + (E - 1) * 2 ^ 52 < bitsInf := by
      by_contra hc
      have h1 : magN bitsInf ≤ magN (M + (E - 1) * 2 ^ 52) := magN_strictMono.monotone (not_lt.1 hc)
      rw [magN_inf, e1] at h1
      exact absurd (lt_of_le_of_lt (h1.trans hd.lo) hmax) (lt_irrefl _)
    obtain ⟨am', g1, up, g2, g3⟩ := negative_ok hd hinf hL hN hb0 (f := f) (by omega) (by omega) hb770 rfl hxy
    refine ⟨am', g1, _, g2, ?_⟩
    have hmidE : ((2 * M + 1 : Nat) : ℚ) * 2 ^ ((E : Int) - 1076) = magN (M + (E - 1) * 2 ^ 52) + gap (M + (E - 1) * 2 ^ 52) / 2 := by
      rw [e1, e2, show (E : Int) - 1075 = 1 + (E - 1076) by ring, zpow_add₀ (by norm_num), zpow_one]
      push_cast
      ring
    have hodd : (M + (E - 1) * 2 ^ 52) % 2 = M % 2 := by omega
    apply rounds_of
    · have h2 := hd.lo.trans hxlo
      rw [← e1] at h2
      exact lt_of_lt_of_le (sub_lt_self _ (half_pos (gap_pos _))) h2
    · have h1 := small_step (M := M) hw1 (by have := hd.hM; exact_mod_cast this) hd.hi hxhi
      have h2 := gap_succ (M + (E - 1) * 2 ^ 52)
      rw [magN_succ, e1]
      rw [e2] at h2 ⊢
      exact lt_step h1 h2
    · rw [g3, hmidE.symm, hodd]
      have hcE : -1075 ≤ (E : Int) - 1076 := by have := hd.hE; omega
      have hc54 : 2 * M + 1 < 2 ^ 54 := by have := hd.hM; omega
      rcases hval with hval | ⟨A, c, hA, _, h1, h2, h3⟩
      · rw [hval]
      · have hno : ∀ z : ℚ, (A : ℚ) * 10 ^ c < z → z < (A + 1) * 10 ^ c →
            (((2 * M + 1 : Nat) : ℚ) * 2 ^ ((E : Int) - 1076) < z ↔ ((2 * M + 1 : Nat) : ℚ) * 2 ^ ((E : Int) - 1076) ≤ A * 10 ^ c) ∧
            z ≠ ((2 * M + 1 : Nat) : ℚ) * 2 ^ ((E : Int) - 1076) := by
          intro z hz1 hz2
          have key := fun h1' h2' => no_middle (c := 2 * M + 1) (f := (E : Int) - 1076) hA hc54 hcE h1' h2' (h1.trans hx1025)
          refine ⟨⟨fun h => ?_, fun h => lt_of_le_of_lt h hz1⟩, fun h => ?_⟩
          · by_contra hc
            exact key (not_le.1 hc) (h.trans hz2)
          · exact key (h ▸ hz1) (h ▸ hz2)
        have hc0 : (0 : ℚ) < 10 ^ c := zpow_pos (by norm_num) _
        have y1 : (A : ℚ) * 10 ^ c < val big * 10 ^ (-(f : Int)) := by rw [h3]; exact mul_lt_mul_of_pos_right (by linarith) hc0
        have y2 : (val big : ℚ) * 10 ^ (-(f : Int)) < (A + 1) * 10 ^ c := by rw [h3]; exact mul_lt_mul_of_pos_right (by linarith) hc0
        obtain ⟨k1, k2⟩ := hno _ y1 y2
        obtain ⟨k3, k4⟩ := hno _ h1 h2
        rw [k1, k3]
        constructor
        · rintro (h | ⟨h, _⟩)
          · exact Or.inl h
          · exact absurd h k2
        · rintro (h | ⟨h, _⟩)
          · exact Or.inl h
          · exact absurd h k4

end Verif.FF
