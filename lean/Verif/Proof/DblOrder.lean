import Verif.Spec.Decimal
/-!
# The order of the doubles

The doubles without sign are numbered by their bits; the number after `n` is greater by `gap n`.
-/
namespace Verif

def magN (n : Nat) : ℚ := (if n / 2 ^ 52 = 0 then n % 2 ^ 52 else 2 ^ 52 + n % 2 ^ 52 : Nat) * 2 ^ ((max (n / 2 ^ 52) 1 : Nat) - 1075 : Int)
def gap (n : Nat) : ℚ := 2 ^ ((max (n / 2 ^ 52) 1 : Nat) - 1075 : Int)

theorem gap_pos (n : Nat) : 0 < gap n := zpow_pos (by norm_num) _

theorem magN_succ (n : Nat) : magN (n + 1) = magN n + gap n := by
  unfold magN gap
  by_cases h : n % 2 ^ 52 + 1 < 2 ^ 52
  · have e1 : (n + 1) / 2 ^ 52 = n / 2 ^ 52 := by omega
    have e2 : (n + 1) % 2 ^ 52 = n % 2 ^ 52 + 1 := by omega
    rw [e1, e2]
    split <;> (push_cast; ring)
  · have e1 : (n + 1) / 2 ^ 52 = n / 2 ^ 52 + 1 := by omega
    have e2 : (n + 1) % 2 ^ 52 = 0 := by omega
    have e3 : n % 2 ^ 52 = 2 ^ 52 - 1 := by omega
    rw [e1, e2, e3]
    by_cases h0 : n / 2 ^ 52 = 0
    · rw [h0]; norm_num; ring
    · rw [if_neg (by omega), if_neg h0]
      have e4 : ((max (n / 2 ^ 52 + 1) 1 : Nat) - 1075 : Int) = ((max (n / 2 ^ 52) 1 : Nat) - 1075 : Int) + 1 := by
        rw [Nat.max_eq_left (by omega), Nat.max_eq_left (by omega)]; push_cast; ring
      rw [e4, zpow_add_one₀ (by norm_num)]
      push_cast
      norm_num
      ring

theorem magN_strictMono : StrictMono magN := strictMono_nat_of_lt_succ fun n => by
  rw [magN_succ]; have := gap_pos n; linarith

theorem magN_zero : magN 0 = 0 := by simp [magN]

theorem magN_nonneg (n : Nat) : 0 ≤ magN n := by rw [← magN_zero]; exact magN_strictMono.monotone (Nat.zero_le n)

theorem magN_above {n m : Nat} (h : n < m) : magN n + gap n ≤ magN m := by
  rw [← magN_succ]; exact magN_strictMono.monotone h

theorem magN_below {n m : Nat} (h : m < n) : magN m ≤ magN n - gap (n - 1) := by
  have := magN_above (n := n - 1) (m := n) (by omega)
  have h2 : magN m ≤ magN (n - 1) := magN_strictMono.monotone (by omega)
  linarith

/-- A number that rounds to the double with the bits `n`. -/
structure RoundsTo (n : Nat) (x : ℚ) : Prop where
  lo : magN n - gap (n - 1) / 2 ≤ x
  hi : x ≤ magN n + gap n / 2
  loS : n % 2 = 1 → magN n - gap (n - 1) / 2 < x
  hiS : n % 2 = 1 → x < magN n + gap n / 2

/-- No other double is as near; if it is, the significand is even. -/
theorem RoundsTo.nearest {n : Nat} {x : ℚ} (h : RoundsTo n x) {m : Nat} (hm : m ≠ n) :
    |x - magN n| ≤ |x - magN m| ∧ (|x - magN n| = |x - magN m| → n % 2 = 0) := by
  have g1 := gap_pos n
  have g2 := gap_pos (n - 1)
  rcases Nat.lt_or_gt_of_ne hm with hlt | hgt
  · have hb := magN_below hlt
    have e1 : |x - magN m| = x - magN m := abs_of_nonneg (by linarith [h.lo])
    rw [e1]
    refine ⟨abs_le.mpr ⟨by linarith [h.lo], by linarith [h.lo]⟩, fun he => ?_⟩
    by_contra ho
    have hs := h.loS (by omega)
    rcases abs_cases (x - magN n) with ⟨e, _⟩ | ⟨e, _⟩ <;> rw [e] at he <;> linarith
  · have hb := magN_above hgt
    have e1 : |x - magN m| = magN m - x := by rw [abs_sub_comm]; exact abs_of_nonneg (by linarith [h.hi])
    rw [e1]
    refine ⟨abs_le.mpr ⟨by linarith [h.hi], by linarith [h.hi]⟩, fun he => ?_⟩
    by_contra ho
    have hs := h.hiS (by omega)
    rcases abs_cases (x - magN n) with ⟨e, _⟩ | ⟨e, _⟩ <;> rw [e] at he <;> linarith

/-- The bits without the sign. -/
def Dbl.bits (f : Dbl) : Nat := f.toNat % 2 ^ 63

theorem Dbl.bits_div (f : Dbl) : f.bits / 2 ^ 52 = f.biased := by unfold Dbl.bits Dbl.biased; have := f.isLt; omega
theorem Dbl.bits_mod (f : Dbl) : f.bits % 2 ^ 52 = f.fraction := by unfold Dbl.bits Dbl.fraction; omega

theorem Dbl.magnitude_eq (f : Dbl) : f.magnitude = magN f.bits := by
  unfold Dbl.magnitude magN Dbl.significand Dbl.ulp
  rw [f.bits_div, f.bits_mod]

theorem Dbl.ulp_eq (f : Dbl) : f.ulp = gap f.bits := by unfold Dbl.ulp gap; rw [f.bits_div]

theorem Dbl.significand_even (f : Dbl) : f.significand % 2 = f.bits % 2 := by
  have := f.bits_mod
  unfold Dbl.significand
  split <;> omega

theorem Dbl.ext_bits {f g : Dbl} (h1 : f.negative = g.negative) (h2 : f.bits = g.bits) : f = g := by
  apply BitVec.eq_of_toNat_eq
  unfold Dbl.negative at h1
  unfold Dbl.bits at h2
  have := f.isLt
  have := g.isLt
  have h3 : (2 ^ 63 ≤ f.toNat) ↔ (2 ^ 63 ≤ g.toNat) := by simpa using h1
  by_cases h4 : 2 ^ 63 ≤ f.toNat
  · have := h3.mp h4; omega
  · have : ¬ 2 ^ 63 ≤ g.toNat := fun h => h4 (h3.mpr h)
    omega

/-- What is nearest to a number that rounds to `f` is `f`. -/
theorem nearest_unique {f g : Dbl} {x : ℚ} (hf : f.Finite) (hr : RoundsTo f.bits x) (hg : Nearest x g) : g.bits = f.bits := by
  by_contra hne
  obtain ⟨h1, h2⟩ := hr.nearest hne
  obtain ⟨h3, h4⟩ := hg.2 f hf
  rw [f.magnitude_eq, g.magnitude_eq] at h3 h4
  have he : |x - magN f.bits| = |x - magN g.bits| := le_antisymm h1 h3
  have e1 := h2 he
  have e2 := h4 he.symm (fun h => hne (magN_strictMono.injective h).symm)
  -- both even: the distance of neighbours forces equality
  rw [g.significand_even] at e2
  have g1 := gap_pos f.bits
  have g2 := gap_pos (f.bits - 1)
  rcases Nat.lt_or_gt_of_ne hne with hlt | hgt
  · have h5 : g.bits < f.bits - 1 := by omega
    have h6 := magN_strictMono h5
    have h7 := magN_below (n := f.bits) (m := f.bits - 1) (by omega)
    rcases abs_cases (x - magN f.bits) with ⟨e, _⟩ | ⟨e, _⟩ <;> rcases abs_cases (x - magN g.bits) with ⟨e', _⟩ | ⟨e', _⟩ <;>
      rw [e, e'] at he <;> linarith [hr.lo, hr.hi]
  · have h5 : f.bits + 1 < g.bits := by omega
    have h6 := magN_strictMono h5
    have h7 := magN_above (n := f.bits) (m := f.bits + 1) (by omega)
    rcases abs_cases (x - magN f.bits) with ⟨e, _⟩ | ⟨e, _⟩ <;> rcases abs_cases (x - magN g.bits) with ⟨e', _⟩ | ⟨e', _⟩ <;>
      rw [e, e'] at he <;> linarith [hr.lo, hr.hi]

end Verif
