import Verif.Proof.RyuTable
import Verif.Model.FastFloat
/-!
# The table of powers of five

Every entry is the power of five with 128 bits, and multiples of it by 64-bit numbers stay away from the integers where that matters.
-/
namespace Verif.FF
open Verif

/-- As `convergents`, for a given sum of the denominators. -/
def convergentsTo (N : Nat) : Nat → Approx → Bool → Option (Approx × Bool)
  | 0, _, _ => none
  | n + 1, c, below =>
    if c.x2 = 0 then none
    else
      let t := c.x1 / c.x2
      if N ≤ c.q1 + t * c.q2 then
        let t := (N - c.q1) / c.q2
        some (⟨c.q2, c.p2, c.x2, c.q1 + t * c.q2, c.p1 + t * c.p2, c.x1 - t * c.x2⟩, !below)
      else convergentsTo N n ⟨c.q2, c.p2, c.x2, c.q1 + t * c.q2, c.p1 + t * c.p2, c.x1 - t * c.x2⟩ (!below)

/-- Two approximations, the first below the fraction `a / b`, the second above. -/
def approxTo (N a b : Nat) : Option Approx :=
  match convergentsTo N 200 ⟨0, 1, b, 1, a / b, a % b⟩ false with
  | none => none
  | some (c, true) => some c
  | some (c, false) => some ⟨c.q2, c.p2, c.x2, c.q1, c.p1, c.x1⟩

/-- A lower bound for the distances of multiples (by less than `N`) of `a / b` from the integer above, times `b`, if they are not integers. -/
def gapAbove (N a b : Nat) : Nat :=
  match approxTo N a b with
  | none => 0
  | some c =>
    if c.q1 * a = c.p1 * b + c.x1 ∧ c.q2 * a + c.x2 = c.p2 * b ∧
      (c.q1 * c.p2 = c.q2 * c.p1 + 1 ∨ c.q2 * c.p1 = c.q1 * c.p2 + 1) ∧ N ≤ c.q1 + c.q2 then c.x2 else 0

theorem gapAbove_le {N a b m n : Nat} (hm : 0 < m) (hlt : m < N) (h : m * a < n * b) : m * a + gapAbove N a b ≤ n * b := by
  unfold gapAbove
  split
  · exact h.le
  · rename_i c _
    by_cases hc : c.q1 * a = c.p1 * b + c.x1 ∧ c.q2 * a + c.x2 = c.p2 * b ∧
      (c.q1 * c.p2 = c.q2 * c.p1 + 1 ∨ c.q2 * c.p1 = c.q1 * c.p2 + 1) ∧ N ≤ c.q1 + c.q2
    · rw [if_pos hc]
      obtain ⟨h1, h2, h3, h4⟩ := hc
      have h1' : (c.q1 : Int) * a = c.p1 * b + c.x1 := by exact_mod_cast h1
      have h2' : (c.q2 : Int) * a + c.x2 = c.p2 * b := by exact_mod_cast h2
      have key := best_approx (a := a) (b := b) (q1 := c.q1) (p1 := c.p1) (q2 := c.q2) (p2 := c.p2) (x1 := c.x1) (x2 := c.x2) (m := m) (n := n)
        (by
          rcases h3 with h3 | h3
          · left
            have h3' : (c.q1 : Int) * c.p2 = c.q2 * c.p1 + 1 := by exact_mod_cast h3
            omega
          · right
            have h3' : (c.q2 : Int) * c.p1 = c.q1 * c.p2 + 1 := by exact_mod_cast h3
            omega)
        (by omega) (by omega) (by omega) (by omega) (by omega) (by omega) (by omega) (by omega)
      have c1 : ((m * a : Nat) : Int) = (m : Int) * a := by push_cast; rfl
      have c2 : ((n * b : Nat) : Int) = (n : Int) * b := by push_cast; rfl
      rw [← c1, ← c2] at key
      omega
    · rw [if_neg hc]
      exact h.le

/-- The two halves of the entry for the power `q`. -/
def tabHi (q : Int) : Nat := powerOfFive128.getD (2 * (q + 342)).toNat 0
def tabLo (q : Int) : Nat := powerOfFive128.getD ((2 * (q + 342)).toNat + 1) 0
/-- The entry. -/
def tab (q : Int) : Nat := tabHi q * 2 ^ 64 + tabLo q

/-- The exponent of the highest bit of `5^q` for `q` not negative. -/
def topUp (n : Nat) : Nat := (power n - 63 - n).toNat
/-- The exponent of the power of two whose quotient by `5^p` has 128 bits. -/
def topDown (p : Nat) : Nat := (127 - (power (-p) - 63 + p)).toNat

def tabUpOk (n : Nat) : Bool :=
  let T := tab n
  let e := topUp n
  decide (power n = 63 + n + e) && decide (tabHi n < 2 ^ 64) && decide (tabLo n < 2 ^ 64) && decide (2 ^ 127 ≤ T) &&
    (if n ≤ 55 then decide (e ≤ 127) && decide (T = 5 ^ n * 2 ^ (127 - e)) && (decide (27 < n) || decide (tabLo n = 0)) && (decide (23 < n) || decide (tabHi n % 2 = 0))
    else decide (127 ≤ e) && decide (T * 2 ^ (e - 127) ≤ 5 ^ n) && decide (5 ^ n < (T + 1) * 2 ^ (e - 127)) && decide (2 ^ 64 ≤ gapAbove (2 ^ 64) T (2 ^ 137)))

def tabDownOk (i : Nat) : Bool :=
  let p := i + 1
  let T := tab (-p)
  let k := topDown p
  decide (power (-p) = 190 - p - k) && decide (tabHi (-p) < 2 ^ 64) && decide (tabLo (-p) < 2 ^ 64) && decide (2 ^ 127 ≤ T) && decide (130 ≤ k) &&
    (if p ≤ 27 then decide (2 ^ k < T * 5 ^ p) && decide (T * 5 ^ p < 2 ^ k + 5 ^ p)
    else decide (T * 5 ^ p ≤ 2 ^ k) && decide (2 ^ k < (T + 1) * 5 ^ p) && decide (2 ^ 64 ≤ gapAbove (2 ^ 64) T (2 ^ 137)))

theorem tabUpOk_all : (List.range 309).all tabUpOk = true := by decide +kernel

theorem tabDownOk_all : (List.range 342).all tabDownOk = true := by decide +kernel

end Verif.FF
