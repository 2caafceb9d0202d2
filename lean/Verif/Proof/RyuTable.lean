import Verif.Model.Ryu
import Mathlib.Tactic.Linarith
import Mathlib.Tactic.Ring
import Mathlib.Tactic.LinearCombination
import Mathlib.Tactic.Positivity
/-!
# Step 3 of `d2d`: multiplying with the tables gives the exact integer parts

A multiple of a fraction cannot be too close to an integer: for each exponent two neighbouring convergents of the fraction are
computed and checked, and the best-approximation property gives the distance.
-/
namespace Verif

/-- The best-approximation property of a unimodular pair of approximations from different sides: multiples by less than the sum of the
denominators are no closer to an integer, from each side. -/
theorem best_approx {a b q1 p1 q2 p2 x1 x2 : Int} (hd : q1 * p2 - q2 * p1 = 1 ∨ q1 * p2 - q2 * p1 = -1) (h1 : q1 * a - p1 * b = x1)
    (h2 : q2 * a - p2 * b = -x2) (hx1 : 0 ≤ x1) (hx2 : 0 ≤ x2) (hq1 : 0 ≤ q1) (hq2 : 0 ≤ q2) {m n : Int} (hm : 0 < m) (hlt : m < q1 + q2) :
    (0 < m * a - n * b → x1 ≤ m * a - n * b) ∧ (0 < n * b - m * a → x2 ≤ n * b - m * a) := by
  obtain ⟨u, v, hu, hv⟩ : ∃ u v : Int, m = u * q1 + v * q2 ∧ n = u * p1 + v * p2 := by
    rcases hd with hd | hd
    · refine ⟨m * p2 - n * q2, n * q1 - m * p1, ?_, ?_⟩
      · linear_combination (-m) * hd
      · linear_combination (-n) * hd
    · refine ⟨-(m * p2 - n * q2), -(n * q1 - m * p1), ?_, ?_⟩
      · linear_combination m * hd
      · linear_combination n * hd
  have e : m * a - n * b = u * x1 - v * x2 := by
    rw [hu, hv]
    linear_combination u * h1 + v * h2
  have e' : n * b - m * a = v * x2 - u * x1 := by linarith
  rw [e', e]
  have hboth : ¬ (1 ≤ u ∧ 1 ≤ v) := by
    rintro ⟨h3, h4⟩
    have : q1 ≤ u * q1 := by nlinarith
    have : q2 ≤ v * q2 := by nlinarith
    omega
  refine ⟨fun hpos => ?_, fun hpos => ?_⟩
  · have hu1 : 1 ≤ u := by
      by_contra hc
      have h3 : u * q1 ≤ 0 := mul_nonpos_of_nonpos_of_nonneg (by omega) hq1
      have h4 : 1 ≤ v := by
        by_contra hc'
        have : v * q2 ≤ 0 := mul_nonpos_of_nonpos_of_nonneg (by omega) hq2
        omega
      have : u * x1 ≤ 0 := mul_nonpos_of_nonpos_of_nonneg (by omega) hx1
      have : 0 ≤ v * x2 := by positivity
      omega
    have hv1 : v ≤ 0 := by omega
    have : x1 ≤ u * x1 := by nlinarith
    have : v * x2 ≤ 0 := mul_nonpos_of_nonpos_of_nonneg hv1 hx2
    omega
  · have hv1 : 1 ≤ v := by
      by_contra hc
      have h3 : v * q2 ≤ 0 := mul_nonpos_of_nonpos_of_nonneg (by omega) hq2
      have h4 : 1 ≤ u := by
        by_contra hc'
        have : u * q1 ≤ 0 := mul_nonpos_of_nonpos_of_nonneg (by omega) hq1
        omega
      have : v * x2 ≤ 0 := mul_nonpos_of_nonpos_of_nonneg (by omega) hx2
      have : 0 ≤ u * x1 := by positivity
      omega
    have hu1 : u ≤ 0 := by omega
    have : x2 ≤ v * x2 := by nlinarith
    have : u * x1 ≤ 0 := mul_nonpos_of_nonpos_of_nonneg hu1 hx1
    omega

/-- Two approximations of a fraction, with the distances, the first from below. -/
structure Approx where
  q1 : Nat
  p1 : Nat
  x1 : Nat
  q2 : Nat
  p2 : Nat
  x2 : Nat

/-- The Euclidean algorithm until the denominators add up to `2^55`; the last step is shortened. The first approximation is the last
complete one, `below` tells on which side of the fraction it is. -/
def convergents : Nat → Approx → Bool → Option (Approx × Bool)
  | 0, _, _ => none
  | n + 1, c, below =>
    if c.x2 = 0 then none
    else
      let t := c.x1 / c.x2
      if 2 ^ 55 ≤ c.q1 + t * c.q2 then
        let t := (2 ^ 55 - c.q1) / c.q2
        some (⟨c.q2, c.p2, c.x2, c.q1 + t * c.q2, c.p1 + t * c.p2, c.x1 - t * c.x2⟩, !below)
      else convergents n ⟨c.q2, c.p2, c.x2, c.q1 + t * c.q2, c.p1 + t * c.p2, c.x1 - t * c.x2⟩ (!below)

/-- Two approximations, the first below the fraction `a / b`, the second above. -/
def approx (a b : Nat) : Option Approx :=
  match convergents 200 ⟨0, 1, b, 1, a / b, a % b⟩ false with
  | none => none
  | some (c, true) => some c
  | some (c, false) => some ⟨c.q2, c.p2, c.x2, c.q1, c.p1, c.x1⟩

/-- Lower bounds for the distances of multiples (by less than `2^55`) of `a / b` from the integer below and above, times `b`, if they
are not integers. -/
def gaps (a b : Nat) : Nat × Nat :=
  match approx a b with
  | none => (1, 1)
  | some c =>
    if c.q1 * a = c.p1 * b + c.x1 ∧ c.q2 * a + c.x2 = c.p2 * b ∧
      (c.q1 * c.p2 = c.q2 * c.p1 + 1 ∨ c.q2 * c.p1 = c.q1 * c.p2 + 1) ∧ 2 ^ 55 ≤ c.q1 + c.q2 then (c.x1, c.x2) else (1, 1)

theorem gaps_le {a b m n : Nat} (hm : 0 < m) (hlt : m < 2 ^ 55) :
    (n * b < m * a → n * b + (gaps a b).1 ≤ m * a) ∧ (m * a < n * b → m * a + (gaps a b).2 ≤ n * b) := by
  unfold gaps
  split
  · exact ⟨fun h => h, fun h => h⟩
  · rename_i c _
    by_cases hc : c.q1 * a = c.p1 * b + c.x1 ∧ c.q2 * a + c.x2 = c.p2 * b ∧
      (c.q1 * c.p2 = c.q2 * c.p1 + 1 ∨ c.q2 * c.p1 = c.q1 * c.p2 + 1) ∧ 2 ^ 55 ≤ c.q1 + c.q2
    · rw [if_pos hc]
      obtain ⟨h1, h2, h3, h4⟩ := hc
      have h1' : (c.q1 : Int) * a = c.p1 * b + c.x1 := by exact_mod_cast h1
      have h2' : (c.q2 : Int) * a + c.x2 = c.p2 * b := by exact_mod_cast h2
      have key := best_approx (a := a) (b := b) (q1 := c.q1) (p1 := c.p1) (q2 := c.q2) (p2 := c.p2) (x1 := c.x1) (x2 := c.x2) (m := m) (n := n)
        (by
          rcases h3 with h3 | h3
          · left
            have h3' : (c.q1 : Int) * c.p2 = c.q2 * c.p1 + 1 := by exact_mod_cast h3
            omega
          · right
            have h3' : (c.q2 : Int) * c.p1 = c.q1 * c.p2 + 1 := by exact_mod_cast h3
            omega)
        (by omega) (by omega) (by omega) (by omega) (by omega) (by omega) (by omega) (by omega)
      have c1 : ((m * a : Nat) : Int) = (m : Int) * a := by push_cast; rfl
      have c2 : ((n * b : Nat) : Int) = (n : Int) * b := by push_cast; rfl
      rw [← c1, ← c2] at key
      dsimp only
      omega
    · rw [if_neg hc]
      exact ⟨fun h => h, fun h => h⟩

/-- The entry of the table for an exponent is good enough. -/
def upOk (e2 : Nat) : Bool :=
  let q := upQ e2
  let s := e2 - q
  let K := 125 + pow5bits q - 1
  match pow5InvSplit[q]? with
  | none => false
  | some mul =>
    let T := mul.2 * 2 ^ 64 + mul.1
    decide (q ≤ e2) && decide (s + 64 ≤ K) && decide (K < s + 192) && decide (T < 2 ^ 128) && decide (2 ^ K ≤ T * 5 ^ q) &&
      decide (2 ^ 55 * 2 ^ s ≤ 2 ^ 64 * 5 ^ q) && decide (5 ^ q ≤ 2 ^ s) && decide ((T * 5 ^ q - 2 ^ K) * 2 ^ 55 * 2 ^ s < 2 ^ K * (gaps (2 ^ s) (5 ^ q)).2)

/-- The same for a negative exponent. -/
def downOk (n : Nat) : Bool :=
  let q := downQ n
  let i := n - q
  match pow5Split[i]? with
  | none => false
  | some mul =>
    let T := mul.2 * 2 ^ 64 + mul.1
    decide (q ≤ n) && decide (pow5bits i + 64 ≤ q + 125) && decide (q + 125 < pow5bits i + 192) && decide (T < 2 ^ 128) &&
      decide (2 ^ 55 * 5 ^ i ≤ 2 ^ 64 * 2 ^ q) && decide (2 ^ q ≤ 5 ^ i) &&
      (if 125 ≤ pow5bits i then
        decide (T * 2 ^ (pow5bits i - 125) ≤ 5 ^ i) &&
          (decide (T * 2 ^ (pow5bits i - 125) = 5 ^ i) ||
            (decide (55 ≤ q) && decide (2 ^ 55 * (5 ^ i - T * 2 ^ (pow5bits i - 125)) ≤ (gaps (5 ^ i) (2 ^ q)).1)))
      else decide (T = 5 ^ i * 2 ^ (125 - pow5bits i)))

theorem upOk_all : (List.range 970).all upOk = true := by decide +kernel

theorem downOk_all : (List.range 1077).all downOk = true := by decide +kernel

/-- Unless the division is exact anyway, the unit is small enough for at least one digit to be dropped. -/
theorem upFar_all : (List.range 970).all (fun e2 => decide (upQ e2 = 0 ∨ 10 * 5 ^ upQ e2 ≤ 2 ^ (e2 - upQ e2))) = true := by decide +kernel

theorem downFar_all : (List.range 1077).all (fun n => decide (downQ n ≤ 1 ∨ 10 * 2 ^ downQ n ≤ 5 ^ (n - downQ n))) = true := by decide +kernel

end Verif
