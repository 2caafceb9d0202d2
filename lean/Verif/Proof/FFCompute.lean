import Verif.Proof.FFFloat
/-!
# The short way rounds correctly
-/
namespace Verif.FF
open Verif

attribute [local irreducible] powerOfFive128

theorem two52 : (2 : Nat) ^ 52 = 4503599627370496 := by norm_num

/-- The last steps of the short way, once the significand is rounded. -/
theorem encodes_end {M E : Nat} (h1 : 4503599627370496 ≤ M) (h2 : M ≤ 9007199254740992) (hE : 1 ≤ E) {N : Nat}
    (hN : N = min (M + (E - 1) * 4503599627370496) 9218868437227405312) :
    Encodes (finish M E) N := by
  unfold finish
  simp only [Nat.reducePow, Nat.reduceMul, Nat.reduceMod]
  have hinf : bitsInf = 9218868437227405312 := rfl
  have hle : N ≤ bitsInf := by rw [hN, hinf]; exact Nat.min_le_right _ _
  by_cases hov : M ≥ 9007199254740992
  · rw [if_pos hov]
    by_cases hE : (E : Int) + 1 ≥ 2047
    · rw [if_pos hE]; exact .infinity (by rw [hinf]; omega)
    · rw [if_neg hE]; exact .of (E := E + 1) (by push_cast; rfl) (by norm_num) (by rw [two52]; omega) hle
  · rw [if_neg hov]
    by_cases hE : (E : Int) ≥ 2047
    · rw [if_pos hE]; exact .infinity (by rw [hinf]; omega)
    · rw [if_neg hE]; exact .of rfl (by rw [two52]; omega) (by rw [two52]; omega) hle

/-- The last steps for a subnormal number. -/
theorem encodes_sub {M : Nat} (h : M ≤ 4503599627370496) : Encodes ⟨M, if M < 4503599627370496 then 0 else 1⟩ (min M bitsInf) := by
  have hinf : bitsInf = 9218868437227405312 := rfl
  have e : min M bitsInf = M := Nat.min_eq_left (by rw [hinf]; omega)
  rw [e]
  by_cases hov : M < 4503599627370496
  · rw [if_pos hov]
    exact .of (E := 0) rfl (by rw [two52]; omega) (by rw [two52]; omega) (by rw [hinf]; omega)
  · rw [if_neg hov]
    have : M = 4503599627370496 := by omega
    subst this
    exact ⟨.inr ⟨by rw [two52], by rw [two52]⟩, by rw [hinf]; omega⟩

theorem roundNormal_key {m E : Nat} {x : ℚ} (h53 : 2 ^ 53 ≤ m) (h54 : m < 2 ^ 54) (hp : 1 ≤ E)
    (h1 : m * 2 ^ ((E : Int) - 1076) ≤ x) (h2 : x < (m + 1) * 2 ^ ((E : Int) - 1076)) (up : Bool)
    (hup : up = true ↔ (m % 2 = 1 ∧ ¬ (x = m * 2 ^ ((E : Int) - 1076) ∧ m % 4 = 1))) :
    Rounds (min (m / 2 + (E - 1) * 4503599627370496 + if up then 1 else 0) 9218868437227405312) x := by
  rw [← two52]
  show Rounds (min _ bitsInf) x
  have hu : (2 : ℚ) ^ ((E : Int) - 1075) = 2 * 2 ^ ((E : Int) - 1076) := by
    rw [show (E : Int) - 1075 = 1 + (E - 1076) by ring, zpow_add₀ (by norm_num), zpow_one]
  have hu0 : (0 : ℚ) < 2 ^ ((E : Int) - 1076) := zpow_pos (by norm_num) _
  have hm : (m : ℚ) = 2 * ((m / 2 : Nat) : ℚ) + ((m % 2 : Nat) : ℚ) := by
    have : m = 2 * (m / 2) + m % 2 := by omega
    exact_mod_cast this
  apply rounds_floor (by omega) (by omega) (.inl (by omega))
  · rw [hu]
    refine le_trans ?_ h1
    rw [hm]
    have : (0 : ℚ) ≤ ((m % 2 : Nat) : ℚ) := by positivity
    nlinarith
  · rw [hu]
    refine lt_of_lt_of_le h2 ?_
    rw [hm]
    have : ((m % 2 : Nat) : ℚ) ≤ 1 := by
      have : m % 2 ≤ 1 := by omega
      exact_mod_cast this
    nlinarith
  · rw [hup, hu]
    have e1 : (((m / 2 : Nat) : ℚ) + 1 / 2) * (2 * 2 ^ ((E : Int) - 1076)) = (2 * ((m / 2 : Nat) : ℚ) + 1) * 2 ^ ((E : Int) - 1076) := by ring
    rw [e1]
    rcases Nat.mod_two_eq_zero_or_one m with h | h
    · have hx : x < (2 * ((m / 2 : Nat) : ℚ) + 1) * 2 ^ ((E : Int) - 1076) := by
        rw [hm, h] at h2
        simpa using h2
      constructor
      · rintro ⟨h', _⟩; omega
      · rintro (h' | ⟨h', _⟩)
        · exact absurd h' (not_lt.2 hx.le)
        · exact absurd h' hx.ne
    · have hm' : (2 * ((m / 2 : Nat) : ℚ) + 1) = m := by rw [hm, h]; simp
      rw [hm']
      constructor
      · rintro ⟨_, h'⟩
        by_cases hc : x = m * 2 ^ ((E : Int) - 1076)
        · exact .inr ⟨hc, by have : ¬ m % 4 = 1 := fun h'' => h' ⟨hc, h''⟩; omega⟩
        · exact .inl (lt_of_le_of_ne h1 (Ne.symm hc))
      · rintro (h' | ⟨h', h''⟩)
        · exact ⟨h, fun h3 => absurd h3.1 h'.ne'⟩
        · exact ⟨h, fun h3 => by omega⟩

theorem roundNormal_down {q : Int} {hi lo shift m : Nat} {power2 : Int} (h : lo ≤ 1 ∧ q ≥ -4 ∧ q ≤ 23 ∧ u64 (m * 2 ^ shift) = hi) (h4 : m % 4 = 1) :
    roundNormal q hi lo shift m power2 = finish (m / 2) power2 := by
  have em : (m - m % 2 + (m - m % 2) % 2) / 2 = m / 2 := by clear h; omega
  unfold roundNormal
  rw [if_pos ⟨h.1, h.2.1, h.2.2.1, h4, h.2.2.2⟩]
  simp only [em]

theorem roundNormal_up {q : Int} {hi lo shift m : Nat} {power2 : Int} (h : ¬ (m % 4 = 1 ∧ (lo ≤ 1 ∧ q ≥ -4 ∧ q ≤ 23 ∧ u64 (m * 2 ^ shift) = hi))) :
    roundNormal q hi lo shift m power2 = finish (m / 2 + m % 2) power2 := by
  have em : (m + m % 2) / 2 = m / 2 + m % 2 := by clear h; omega
  unfold roundNormal
  rw [if_neg fun h' => h ⟨h'.2.2.2.1, h'.1, h'.2.1, h'.2.2.1, h'.2.2.2.2⟩]
  simp only [em]

/-- The end of the short way rounds to the nearest double. -/
theorem roundNormal_ok {q : Int} {hi lo shift m : Nat} {power2 : Int} {x : ℚ} (h53 : 2 ^ 53 ≤ m) (h54 : m < 2 ^ 54) (hp : 1 ≤ power2)
    (h1 : m * 2 ^ (power2 - 1076) ≤ x) (h2 : x < (m + 1) * 2 ^ (power2 - 1076))
    (htie : m % 2 = 1 → ((lo ≤ 1 ∧ q ≥ -4 ∧ q ≤ 23 ∧ u64 (m * 2 ^ shift) = hi) ↔ x = m * 2 ^ (power2 - 1076))) :
    ∃ N, Encodes (roundNormal q hi lo shift m power2) N ∧ Rounds N x := by
  obtain ⟨E, hE⟩ : ∃ E : Nat, power2 = E := Int.eq_ofNat_of_zero_le (by omega)
  subst hE
  have kt := roundNormal_key h53 h54 (by omega) h1 h2 true
  have kf := roundNormal_key h53 h54 (by omega) h1 h2 false
  rw [if_neg (by decide), Nat.add_zero] at kf
  rw [if_pos rfl] at kt
  have hE1 : 1 ≤ E := by omega
  have hodd : m % 4 = 1 → m % 2 = 1 := by omega
  have b1 : 4503599627370496 ≤ m / 2 := by omega
  have b2 : m / 2 + 1 ≤ 9007199254740992 := by omega
  have hdown := roundNormal_down (q := q) (hi := hi) (lo := lo) (shift := shift) (m := m) (power2 := E)
  have hup := roundNormal_up (q := q) (hi := hi) (lo := lo) (shift := shift) (m := m) (power2 := E)
  generalize (lo ≤ 1 ∧ q ≥ -4 ∧ q ≤ 23 ∧ u64 (m * 2 ^ shift) = hi) = C at *
  generalize roundNormal q hi lo shift m E = R at *
  by_cases hc : m % 4 = 1 ∧ C
  · rw [hdown hc.2 hc.1]
    have hx := (htie (hodd hc.1)).1 hc.2
    refine ⟨_, encodes_end b1 (by omega) hE1 rfl, kf ⟨fun h => (by cases h), fun h => absurd ⟨hx, hc.1⟩ h.2⟩⟩
  · rw [hup hc]
    have hnt : ¬ (m % 2 = 1 ∧ (x = m * 2 ^ ((E : Int) - 1076) ∧ m % 4 = 1)) := by
      rintro ⟨h, h', h''⟩
      exact hc ⟨h'', (htie h).2 h'⟩
    rcases Nat.mod_two_eq_zero_or_one m with h | h
    · rw [h, Nat.add_zero]
      refine ⟨_, encodes_end b1 (by omega) hE1 rfl, kf ⟨fun h => (by cases h), fun h' => by rw [h] at h'; cases h'.1⟩⟩
    · rw [h]
      refine ⟨_, encodes_end (by omega) b2 hE1 ?_, kt ⟨fun _ => ⟨h, fun h' => hnt ⟨h, h'⟩⟩, fun _ => rfl⟩⟩
      rw [Nat.add_right_comm]

/-- The short way gives the nearest double, for every 64-bit number and every power of ten. -/
theorem computeFloat_ok (q : Int) {w : Nat} (hw : w < 2 ^ 64) : ∃ N, Encodes (computeFloat q w) N ∧ Rounds N (w * 10 ^ q) := by
  unfold computeFloat
  by_cases hsmall : w = 0 ∨ q < -342
  · rw [if_pos hsmall]
    refine ⟨0, ⟨.inl ⟨by decide, by decide, by decide⟩, by decide⟩, rounds_zero (mul_nonneg (Nat.cast_nonneg _) (zpow_pos (by norm_num) _).le) ?_⟩
    rcases hsmall with h | h
    · rw [h, Nat.cast_zero, zero_mul]; exact (zpow_pos (by norm_num) _).le
    · have hw' : (w : ℚ) ≤ 2 ^ 64 := by exact_mod_cast hw.le
      have hq : (10 : ℚ) ^ q ≤ 10 ^ (-343 : Int) := zpow_le_zpow_right₀ (by norm_num) (by omega)
      refine (mul_le_mul hw' hq (zpow_pos (by norm_num) _).le (pow_pos (by norm_num) _).le).trans ?_
      have hb : 2 ^ 64 * 2 ^ 1075 ≤ 10 ^ 343 := by decide +kernel
      have hb' : (2 : ℚ) ^ 64 * 2 ^ 1075 ≤ 10 ^ 343 := by exact_mod_cast hb
      rw [zpow_neg, zpow_neg, show (343 : Int) = ((343 : Nat) : Int) by rfl, show (1075 : Int) = ((1075 : Nat) : Int) by rfl, zpow_natCast, zpow_natCast,
        ← div_eq_mul_inv, ← one_div, div_le_div_iff₀ (pow_pos (by norm_num) _) (pow_pos (by norm_num) _), one_mul]
      exact hb'
  rw [if_neg hsmall]
  rw [not_or] at hsmall
  by_cases hbig : q > 308
  · rw [if_pos hbig]
    refine ⟨bitsInf, ⟨.inl ⟨by decide, by decide, by decide⟩, by decide⟩, rounds_inf ?_⟩
    have hw' : (1 : ℚ) ≤ w := by exact_mod_cast Nat.one_le_iff_ne_zero.2 hsmall.1
    have hq : (10 : ℚ) ^ ((309 : Nat) : Int) ≤ 10 ^ q := zpow_le_zpow_right₀ (by norm_num) (by omega)
    rw [zpow_natCast] at hq
    have h3 : (10 : ℚ) ^ 309 ≤ w * 10 ^ q := by
      have := mul_le_mul hw' hq (pow_pos (by norm_num) _).le (Nat.cast_nonneg _)
      rwa [one_mul] at this
    refine le_trans ?_ h3
    have hb : 2 ^ 1024 ≤ 10 ^ 309 := by decide +kernel
    have hb' : (2 : ℚ) ^ 1024 ≤ 10 ^ 309 := by exact_mod_cast hb
    have hb2 : (0 : ℚ) < 2 ^ 970 := pow_pos (by norm_num) _
    exact (sub_le_self _ hb2.le).trans hb'
  rw [if_neg hbig]
  have hq1 : -342 ≤ q := by omega
  have hq2 : q ≤ 308 := by omega
  obtain ⟨hlz, hW1, hW⟩ := leadingZeroes_ok hsmall.1 hw
  have eu : u64 (w * 2 ^ leadingZeroes w) = w * 2 ^ leadingZeroes w := Nat.mod_eq_of_lt hW
  have hval := value_scale q w (leadingZeroes w)
  simp only [eu]
  generalize leadingZeroes w = lz at *
  generalize hWe : w * 2 ^ lz = W at *
  generalize ehi : (productApprox q W).1 = hi
  generalize elo : (productApprox q W).2 = lo
  generalize eub : hi / 2 ^ 63 = ub
  have esh : ub + 64 - 52 - 3 = 9 + ub := by omega
  rw [esh]
  generalize em : hi / 2 ^ (9 + ub) = m
  obtain ⟨hub, h53, h54, -, hlo', hhi'⟩ := product_floor hq1 hq2 hW hW1 ehi.symm eub.symm em.symm
  have htie := tie_iff hq1 hq2 hW hW1 ehi.symm elo.symm eub.symm em.symm
  generalize epw : power q + (ub : Int) - (lz : Int) + 1023 = power2
  have hc0 : (0 : ℚ) < 2 ^ (power q - lz - 190) := zpow_pos (by norm_num) _
  have hu : (2 : ℚ) ^ (137 + ub) * 2 ^ (power q - lz - 190) = 2 ^ (power2 - 1076) := by
    rw [← zpow_natCast, ← zpow_add₀ (by norm_num)]; congr 1; rw [← epw]; push_cast; ring
  have h1 : (m : ℚ) * 2 ^ (power2 - 1076) ≤ w * 10 ^ q := by
    rw [hval, ← hu, ← mul_assoc]; exact mul_le_mul_of_nonneg_right hlo' hc0.le
  have h2 : (w : ℚ) * 10 ^ q < (m + 1) * 2 ^ (power2 - 1076) := by
    rw [hval, ← hu, ← mul_assoc]; exact mul_lt_mul_of_pos_right hhi' hc0
  have ht : (W : ℚ) * scale q = m * 2 ^ (137 + ub) ↔ (w : ℚ) * 10 ^ q = m * 2 ^ (power2 - 1076) := by
    rw [hval, ← hu, ← mul_assoc]; exact (mul_left_inj' hc0.ne').symm
  clear hlo' hhi' hval hu
  by_cases hsub : power2 ≤ 0
  · rw [if_pos hsub]
    -- below one
    have hm' : ((m : ℚ) + 1) ≤ 2 ^ 54 := by exact_mod_cast h54
    by_cases hfar : -power2 + 1 ≥ 64
    · rw [if_pos hfar]
      refine ⟨0, ⟨.inl ⟨by decide, by decide, by decide⟩, by decide⟩, rounds_zero (mul_nonneg (Nat.cast_nonneg _) (zpow_pos (by norm_num) _).le) ?_⟩
      refine h2.le.trans ?_
      have h3 : (2 : ℚ) ^ (power2 - 1076) ≤ 2 ^ (-1129 : Int) := two_zpow_le (by omega)
      refine (mul_le_mul hm' h3 (zpow_pos (by norm_num) _).le (pow_pos (by norm_num) _).le).trans ?_
      rw [← zpow_natCast, ← zpow_add₀ (by norm_num)]
      exact two_zpow_le (by norm_num)
    · rw [if_neg hfar]
      obtain ⟨s, hs⟩ : ∃ s : Nat, -power2 + 1 = s := Int.eq_ofNat_of_zero_le (by omega)
      rw [hs, Int.toNat_natCast]
      have hs1 : 1 ≤ s := by omega
      have hu : (2 : ℚ) ^ (-1075 : Int) = 2 ^ s * 2 ^ (power2 - 1076) := by
        rw [← zpow_natCast, ← zpow_add₀ (by norm_num)]; congr 1; omega
      have hu0 : (0 : ℚ) < 2 ^ (power2 - 1076) := zpow_pos (by norm_num) _
      generalize em' : m / 2 ^ s = m'
      have a1 : m' * 2 ^ s ≤ m := by rw [← em']; exact Nat.div_mul_le_self _ _
      have a2 : m + 1 ≤ (m' + 1) * 2 ^ s := by
        rw [← em', Nat.mul_comm]; exact Nat.lt_mul_div_succ _ (by positivity)
      have a3 : m' < 2 ^ 53 := by
        rw [← em', Nat.div_lt_iff_lt_mul (by positivity)]
        have : 2 ^ 1 ≤ 2 ^ s := Nat.pow_le_pow_right (by norm_num) hs1
        omega
      have a1' : (m' : ℚ) * 2 ^ s ≤ m := by exact_mod_cast a1
      have a2' : (m : ℚ) + 1 ≤ ((m' : ℚ) + 1) * 2 ^ s := by exact_mod_cast a2
      have b1 : (m' : ℚ) * 2 ^ (-1075 : Int) ≤ w * 10 ^ q := by
        rw [hu, ← mul_assoc]; exact (mul_le_mul_of_nonneg_right a1' hu0.le).trans h1
      have b2 : (w : ℚ) * 10 ^ q < (m' + 1) * 2 ^ (-1075 : Int) := by
        rw [hu, ← mul_assoc]; exact h2.trans_le (mul_le_mul_of_nonneg_right a2' hu0.le)
      -- no number is in the middle
      have hnt : m' % 2 = 1 → (w : ℚ) * 10 ^ q ≠ m' * 2 ^ (-1075 : Int) := by
        intro hodd heq
        have hneg : q < 0 := by
          by_contra hc
          have c1 : (1 : ℚ) ≤ 10 ^ q := one_le_zpow₀ (by norm_num) (by omega)
          have c2 : (1 : ℚ) ≤ w := by exact_mod_cast Nat.one_le_iff_ne_zero.2 hsmall.1
          have c3 : (1 : ℚ) ≤ w * 10 ^ q := by nlinarith
          have c4 : ((m' : ℚ) + 1) ≤ 2 ^ 54 := by
            have : m' + 1 ≤ 2 ^ 54 := by omega
            exact_mod_cast this
          have c5 : ((m' : ℚ) + 1) * 2 ^ (-1075 : Int) ≤ 2 ^ 54 * 2 ^ (-1075 : Int) := mul_le_mul_of_nonneg_right c4 (zpow_pos (by norm_num) _).le
          have c6 : (2 : ℚ) ^ 54 * 2 ^ (-1075 : Int) ≤ 1 := by
            rw [← zpow_natCast, ← zpow_add₀ (by norm_num), ← zpow_zero (2 : ℚ)]; exact two_zpow_le (by norm_num)
          linarith
        obtain ⟨p, hp⟩ : ∃ p : Nat, q = -(p : Int) := ⟨(-q).toNat, by omega⟩
        have hp2 : p ≤ 342 := by omega
        have e1 : w * 2 ^ (1075 - p) = m' * 5 ^ p := by
          have e10 : (10 : ℚ) ^ p = 5 ^ p * 2 ^ p := by rw [← mul_pow]; norm_num
          have e75 : (2 : ℚ) ^ 1075 = 2 ^ p * 2 ^ (1075 - p) := by rw [← pow_add]; congr 1; omega
          have e3 : (2 : ℚ) ^ (-1075 : Int) = (2 ^ 1075)⁻¹ := by rw [zpow_neg, ← zpow_natCast]; norm_num
          rw [hp, zpow_neg, zpow_natCast, e10, e3, e75] at heq
          have h2p : (0 : ℚ) < 2 ^ p := by positivity
          have h2r : (0 : ℚ) < 2 ^ (1075 - p) := by positivity
          have h5p : (0 : ℚ) < 5 ^ p := by positivity
          have : (w : ℚ) * 2 ^ (1075 - p) = m' * 5 ^ p := by
            field_simp at heq
            linarith
          exact_mod_cast this
        have e2 : (w * 2 ^ (1075 - p)) % 2 = 0 := by
          rw [show 1075 - p = (1074 - p) + 1 by omega, pow_succ, ← Nat.mul_assoc]; exact Nat.mul_mod_left _ _
        have e3 : (m' * 5 ^ p) % 2 = 1 := by
          rw [Nat.mul_mod, Nat.pow_mod, hodd]; simp
        omega
      have key : ∀ up : Bool, (up = true ↔ m' % 2 = 1) → Rounds (min (m' / 2 + (1 - 1) * 2 ^ 52 + if up then 1 else 0) bitsInf) (w * 10 ^ q) := by
        intro up hup
        have hm : (m' : ℚ) = 2 * ((m' / 2 : Nat) : ℚ) + ((m' % 2 : Nat) : ℚ) := by
          have : m' = 2 * (m' / 2) + m' % 2 := by omega
          exact_mod_cast this
        have hv : (2 : ℚ) ^ (((1 : Nat) : Int) - 1075) = 2 * 2 ^ (-1075 : Int) := by
          rw [show (((1 : Nat) : Int) - 1075) = 1 + (-1075) by norm_num, zpow_add₀ (by norm_num), zpow_one]
        have hv0 : (0 : ℚ) < 2 ^ (-1075 : Int) := zpow_pos (by norm_num) _
        apply rounds_floor (E := 1) (by omega) (by omega) (.inr rfl)
        · rw [hv]
          refine le_trans ?_ b1
          rw [hm]
          have : (0 : ℚ) ≤ ((m' % 2 : Nat) : ℚ) := by positivity
          nlinarith
        · rw [hv]
          refine lt_of_lt_of_le b2 ?_
          rw [hm]
          have : ((m' % 2 : Nat) : ℚ) ≤ 1 := by
            have : m' % 2 ≤ 1 := by omega
            exact_mod_cast this
          nlinarith
        · rw [hup, hv]
          have e1 : (((m' / 2 : Nat) : ℚ) + 1 / 2) * (2 * 2 ^ (-1075 : Int)) = (2 * ((m' / 2 : Nat) : ℚ) + 1) * 2 ^ (-1075 : Int) := by ring
          rw [e1]
          rcases Nat.mod_two_eq_zero_or_one m' with h | h
          · have hx : (w : ℚ) * 10 ^ q < (2 * ((m' / 2 : Nat) : ℚ) + 1) * 2 ^ (-1075 : Int) := by
              rw [hm, h] at b2
              simpa using b2
            constructor
            · intro h'; omega
            · rintro (h' | ⟨h', _⟩)
              · exact absurd h' (not_lt.2 hx.le)
              · exact absurd h' hx.ne
          · have hm'' : (2 * ((m' / 2 : Nat) : ℚ) + 1) = m' := by rw [hm, h]; simp
            rw [hm'']
            exact ⟨fun _ => .inl (lt_of_le_of_ne b1 (Ne.symm (hnt h))), fun _ => h⟩
      have kt := key true
      have kf := key false
      clear key
      simp only [Bool.false_eq_true, ↓reduceIte, Nat.add_zero, Nat.sub_self, Nat.zero_mul] at kt kf
      norm_num at a3
      rcases Nat.mod_two_eq_zero_or_one m' with h | h
      · refine ⟨_, ?_, kf ⟨fun h => (by cases h), fun h' => by omega⟩⟩
        have e : (m' + m' % 2) / 2 = m' / 2 := by omega
        rw [e]
        exact encodes_sub (by omega)
      · refine ⟨_, ?_, kt ⟨fun _ => h, fun _ => trivial⟩⟩
        have e : (m' + m' % 2) / 2 = m' / 2 + 1 := by omega
        rw [e]
        exact encodes_sub (by omega)
  · rw [if_neg hsub]
    exact roundNormal_ok h53 h54 (by omega) h1 h2 fun hodd => (htie hodd).trans ht

end Verif.FF
