import Verif.Proof.DblParser
import Verif.Model.FastFloat
/-!
# Rounding to nearest, with overflow, from the integer part
-/
namespace Verif.FF
open Verif

/-- The bits of infinity. -/
def bitsInf : Nat := 0x7FF0000000000000

/-- `x` rounds to the double with the bits `n`, which may be infinity. -/
def Rounds (n : Nat) (x : ℚ) : Prop := (n ≤ bitsMax ∧ RoundsTo n x) ∨ (n = bitsInf ∧ 2 ^ 1024 - 2 ^ 970 ≤ x)

theorem Rounds.between {n : Nat} {x y z : ℚ} (hx : Rounds n x) (hy : Rounds n y) (h1 : x ≤ z) (h2 : z ≤ y) : Rounds n z := by
  rcases hx with ⟨hn, hx⟩ | ⟨hn, hx⟩
  · rcases hy with ⟨_, hy⟩ | ⟨hn', _⟩
    · exact .inl ⟨hn, ⟨hx.lo.trans h1, h2.trans hy.hi, fun h => (hx.loS h).trans_le h1, fun h => h2.trans_lt (hy.hiS h)⟩⟩
    · rw [hn'] at hn; exact absurd hn (by decide)
  · exact .inr ⟨hn, hx.trans h1⟩

theorem magN_inf : magN bitsInf = 2 ^ 1024 := by
  rw [← magN_max, ← magN_succ]; rfl

theorem inf_lo : magN bitsInf - gap (bitsInf - 1) / 2 = 2 ^ 1024 - 2 ^ 970 := by
  have e : bitsInf - 1 = bitsMax := by decide
  have e3 : (2 : ℚ) ^ 971 = 2 ^ 970 * 2 := pow_succ 2 970
  rw [magN_inf, e, gap_max, e3]
  generalize (2 : ℚ) ^ 1024 = A
  generalize (2 : ℚ) ^ 970 = B
  ring

/-- A number near the double `N` and the next one rounds to one of the two. -/
theorem rounds_of {N : Nat} {x : ℚ} (hlo : magN N - gap (N - 1) / 2 < x) (hhi : x < magN (N + 1) + gap (N + 1) / 2) {up : Bool}
    (hup : up = true ↔ (magN N + gap N / 2 < x ∨ (x = magN N + gap N / 2 ∧ N % 2 = 1))) : Rounds (min (N + if up then 1 else 0) bitsInf) x := by
  have hs := magN_succ N
  have g0 := gap_pos N
  have g1 := gap_pos (N - 1)
  have g2 := gap_pos (N + 1)
  have hmax : bitsInf = bitsMax + 1 := by decide
  by_cases hN : bitsInf ≤ N
  · rw [Nat.min_eq_right (by omega)]
    refine .inr ⟨rfl, ?_⟩
    rw [← inf_lo]
    rcases Nat.lt_or_eq_of_le hN with h | h
    · have h3 := magN_above (n := N - 1) (m := N) (by omega)
      have h4 : magN bitsInf ≤ magN (N - 1) := magN_strictMono.monotone (by omega)
      have := gap_pos (bitsInf - 1)
      linarith
    · rw [h]; exact hlo.le
  · cases up
    · rw [if_neg (by simp), Nat.add_zero, Nat.min_eq_left (by omega)]
      have h1 : ¬ (magN N + gap N / 2 < x ∨ (x = magN N + gap N / 2 ∧ N % 2 = 1)) := fun h => by simpa using hup.mpr h
      push Not at h1
      refine .inl ⟨by omega, ⟨hlo.le, h1.1, fun _ => hlo, fun ho => lt_of_le_of_ne h1.1 (fun he => h1.2 he ho)⟩⟩
    · rw [if_pos rfl]
      have h1 := hup.mp rfl
      have h2 : magN (N + 1) - gap (N + 1 - 1) / 2 ≤ x := by
        rw [Nat.add_sub_cancel, hs]
        rcases h1 with h | ⟨h, _⟩ <;> linarith
      by_cases hN' : N + 1 = bitsInf
      · rw [hN', Nat.min_self]
        refine .inr ⟨rfl, ?_⟩
        rw [← inf_lo, ← hN']
        exact h2
      · rw [Nat.min_eq_left (by omega)]
        refine .inl ⟨by omega, ⟨h2, hhi.le, fun ho => ?_, fun _ => hhi⟩⟩
        rw [Nat.add_sub_cancel, hs]
        rcases h1 with h | ⟨_, h⟩
        · linarith
        · omega

/-- The double with the significand `M` and the exponent `E`. -/
theorem magN_sig {E M : Nat} (hE : 1 ≤ E) (hM : M < 2 ^ 53) (hn : 2 ^ 52 ≤ M ∨ E = 1) :
    magN (M + (E - 1) * 2 ^ 52) = M * 2 ^ ((E : Int) - 1075) ∧ gap (M + (E - 1) * 2 ^ 52) = 2 ^ ((E : Int) - 1075) := by
  unfold magN gap
  by_cases h : M < 2 ^ 52
  · have hE1 : E = 1 := by omega
    subst hE1
    have e1 : (M + (1 - 1) * 2 ^ 52) / 2 ^ 52 = 0 := by omega
    have e2 : (M + (1 - 1) * 2 ^ 52) % 2 ^ 52 = M := by omega
    rw [e1, e2]
    exact ⟨rfl, rfl⟩
  · have e1 : (M + (E - 1) * 2 ^ 52) / 2 ^ 52 = E := by omega
    have e2 : (M + (E - 1) * 2 ^ 52) % 2 ^ 52 = M - 2 ^ 52 := by omega
    rw [e1, e2, if_neg (by omega), Nat.max_eq_left hE]
    have : 2 ^ 52 + (M - 2 ^ 52) = M := by omega
    rw [this]
    exact ⟨rfl, rfl⟩

/-- A number between two consecutive doubles rounds to the one that `up` tells. -/
theorem rounds_floor {E M : Nat} {x : ℚ} (hE : 1 ≤ E) (hM : M < 2 ^ 53) (hn : 2 ^ 52 ≤ M ∨ E = 1) (h1 : M * 2 ^ ((E : Int) - 1075) ≤ x)
    (h2 : x < (M + 1) * 2 ^ ((E : Int) - 1075)) {up : Bool}
    (hup : up = true ↔ ((M + 1 / 2) * 2 ^ ((E : Int) - 1075) < x ∨ (x = (M + 1 / 2) * 2 ^ ((E : Int) - 1075) ∧ M % 2 = 1))) :
    Rounds (min (M + (E - 1) * 2 ^ 52 + if up then 1 else 0) bitsInf) x := by
  obtain ⟨e1, e2⟩ := magN_sig hE hM hn
  have hs := magN_succ (M + (E - 1) * 2 ^ 52)
  have g1 := gap_pos (M + (E - 1) * 2 ^ 52 - 1)
  have g2 := gap_pos (M + (E - 1) * 2 ^ 52 + 1)
  have e3 : (M + (E - 1) * 2 ^ 52) % 2 = M % 2 := by omega
  clear hM hn hE
  generalize M + (E - 1) * 2 ^ 52 = N at *
  generalize (2 : ℚ) ^ ((E : Int) - 1075) = u at *
  refine rounds_of (by rw [e1]; linarith) (by rw [hs, e1, e2]; linarith) ?_
  have e4 : ((M : ℚ) + 1 / 2) * u = M * u + u / 2 := by ring
  rw [hup, e1, e2, e3, e4]

end Verif.FF
