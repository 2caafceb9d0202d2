import Mathlib.Tactic.Ring
import Mathlib.Tactic.Linarith
import Mathlib.Tactic.Positivity
import Verif.Model.FastFloat
/-!
# The big integers of `fast_float` compute with natural numbers
-/
namespace Verif.FF
open Verif

attribute [local irreducible] powerOfFive128

/-- The number a list of limbs stands for. -/
def val : List Nat → Nat
  | [] => 0
  | x :: xs => x + 2 ^ 64 * val xs

/-- All limbs are 64-bit numbers. -/
def Limbs (v : List Nat) : Prop := ∀ x ∈ v, x < 2 ^ 64

/-- The highest limb is not zero. -/
def Norm (v : List Nat) : Prop := v = [] ∨ (2 ^ 64) ^ (v.length - 1) ≤ val v

theorem Limbs.head {x : Nat} {xs : List Nat} (h : Limbs (x :: xs)) : x < 2 ^ 64 := h x List.mem_cons_self
theorem Limbs.tail {x : Nat} {xs : List Nat} (h : Limbs (x :: xs)) : Limbs xs := fun y hy => h y (List.mem_cons_of_mem _ hy)
theorem Limbs.cons {x : Nat} {xs : List Nat} (hx : x < 2 ^ 64) (h : Limbs xs) : Limbs (x :: xs) := fun y hy => by
  rcases List.mem_cons.1 hy with rfl | hy
  · exact hx
  · exact h y hy
theorem Limbs.append {a b : List Nat} (ha : Limbs a) (hb : Limbs b) : Limbs (a ++ b) := fun y hy =>
  (List.mem_append.1 hy).elim (ha y) (hb y)
theorem Limbs.nil : Limbs [] := fun _ h => (by cases h)

theorem val_append (a b : List Nat) : val (a ++ b) = val a + (2 ^ 64) ^ a.length * val b := by
  induction a with
  | nil => rw [List.nil_append]; unfold val; rw [List.length_nil, pow_zero]; ring
  | cons x xs ih =>
    show x + 2 ^ 64 * val (xs ++ b) = x + 2 ^ 64 * val xs + _
    rw [ih, List.length_cons, pow_succ ((2 : Nat) ^ 64)]
    ring

theorem val_lt {v : List Nat} (h : Limbs v) : val v < (2 ^ 64) ^ v.length := by
  induction v with
  | nil => unfold val; rw [List.length_nil, pow_zero]; exact Nat.one_pos
  | cons x xs ih =>
    unfold val
    have h1 := h.head
    have h2 := ih h.tail
    rw [List.length_cons, pow_succ ((2 : Nat) ^ 64)]
    generalize ((2 : Nat) ^ 64) ^ xs.length = P at *
    have : 2 ^ 64 * (val xs + 1) ≤ 2 ^ 64 * P := Nat.mul_le_mul_left _ h2
    rw [Nat.mul_add, Nat.mul_comm _ P] at this
    omega

theorem val_zeros (n : Nat) : val (List.replicate n 0) = 0 := by
  induction n with
  | zero => rfl
  | succ n ih => rw [List.replicate_succ]; unfold val; rw [ih, Nat.mul_zero]

theorem limbs_zeros (n : Nat) : Limbs (List.replicate n 0) := fun x hx => by
  rw [(List.mem_replicate.1 hx).2]; norm_num

theorem Norm.length_le {v : List Nat} (h : Norm v) (hp : 0 < val v) {n : Nat} {k : Nat} (hv : val v * (2 ^ 64) ^ k < (2 ^ 64) ^ n) : v.length + k ≤ n := by
  rcases h with h | h
  · subst h; cases hp
  · have h1 : (2 ^ 64) ^ (v.length - 1 + k) < (2 ^ 64) ^ n := by
      rw [pow_add]; exact lt_of_le_of_lt (Nat.mul_le_mul_right _ h) hv
    have := (Nat.pow_lt_pow_iff_right (by norm_num)).1 h1
    omega

/-- A carry that fits. -/
theorem pushCarry_ok {xs : List Nat} {c V : Nat} (hl : Limbs xs) (hc : c < 2 ^ 64) (hV : val xs + c * (2 ^ 64) ^ xs.length = V)
    (hb : V < (2 ^ 64) ^ 62) : ∃ v, pushCarry (xs, c) = some v ∧ val v = V ∧ Limbs v ∧ ((xs = [] ∨ (2 ^ 64) ^ (xs.length - 1) ≤ V) → Norm v) := by
  unfold pushCarry
  by_cases h0 : c = 0
  · subst h0
    rw [Nat.zero_mul, Nat.add_zero] at hV
    refine ⟨xs, by simp, hV, hl, fun h => ?_⟩
    rw [← hV] at h
    exact h
  · have hlen : xs.length < bigintLimbs := by
      have h1 : (2 ^ 64) ^ xs.length ≤ V := by
        rw [← hV]
        have : 1 * (2 ^ 64) ^ xs.length ≤ c * (2 ^ 64) ^ xs.length := Nat.mul_le_mul_right _ (by omega)
        omega
      exact (Nat.pow_lt_pow_iff_right (by norm_num)).1 (lt_of_le_of_lt h1 hb)
    have hv : val (xs ++ [c]) = V := by
      rw [val_append, ← hV]; unfold val; unfold val; ring
    refine ⟨xs ++ [c], by simp only; rw [if_pos h0, if_pos hlen], hv, hl.append (Limbs.cons hc Limbs.nil), fun _ => .inr ?_⟩
    rw [hv, List.length_append, List.length_singleton, Nat.add_sub_cancel, ← hV]
    have : 1 * (2 ^ 64) ^ xs.length ≤ c * (2 ^ 64) ^ xs.length := Nat.mul_le_mul_right _ (by omega)
    omega

theorem mulCarry_ok (y : Nat) (hy : y < 2 ^ 64) : ∀ (v : List Nat) (c : Nat), Limbs v → c < 2 ^ 64 →
    Limbs (mulCarry y v c).1 ∧ (mulCarry y v c).2 < 2 ^ 64 ∧ (mulCarry y v c).1.length = v.length ∧
      val (mulCarry y v c).1 + (mulCarry y v c).2 * (2 ^ 64) ^ v.length = val v * y + c
  | [], c, _, hc => ⟨Limbs.nil, hc, rfl, by unfold mulCarry val; rw [List.length_nil, pow_zero]; ring⟩
  | x :: xs, c, hv, hc => by
    have hx := hv.head
    have hxy : x * y ≤ (2 ^ 64 - 1) * (2 ^ 64 - 1) := Nat.mul_le_mul (by omega) (by omega)
    obtain ⟨h1, h2, h3, h4⟩ := mulCarry_ok y hy xs ((x * y + c) / 2 ^ 64) hv.tail (by omega)
    unfold mulCarry
    simp only
    refine ⟨Limbs.cons (Nat.mod_lt _ (by norm_num)) h1, h2, by rw [List.length_cons, List.length_cons, h3], ?_⟩
    generalize (mulCarry y xs ((x * y + c) / 2 ^ 64)).1 = r at *
    generalize (mulCarry y xs ((x * y + c) / 2 ^ 64)).2 = d at *
    rw [List.length_cons, pow_succ]
    show u64 (x * y + c) + 2 ^ 64 * val r + _ = (x + 2 ^ 64 * val xs) * y + c
    unfold u64
    have e : x * y + c = (x * y + c) % 2 ^ 64 + 2 ^ 64 * ((x * y + c) / 2 ^ 64) := (Nat.mod_add_div _ _).symm
    generalize (x * y + c) % 2 ^ 64 = a at *
    generalize (x * y + c) / 2 ^ 64 = b at *
    generalize ((2 : Nat) ^ 64) ^ xs.length = P at *
    generalize (2 : Nat) ^ 64 = K at *
    calc a + K * val r + d * (P * K) = a + K * (val r + d * P) := by ring
      _ = a + K * (val xs * y + b) := by rw [h4]
      _ = (x * y + c) + K * val xs * y := by rw [e]; ring
      _ = _ := by ring

theorem smallMul_ok {v : List Nat} {y : Nat} (hv : Limbs v) (hn : Norm v) (hy : y < 2 ^ 64) (h0 : 0 < y) (hb : val v * y < (2 ^ 64) ^ 62) :
    ∃ v', smallMul v y = some v' ∧ val v' = val v * y ∧ Limbs v' ∧ Norm v' := by
  obtain ⟨h1, h2, h3, h4⟩ := mulCarry_ok y hy v 0 hv (by norm_num)
  obtain ⟨v', e, e2, e3, e4⟩ := pushCarry_ok (V := val v * y) h1 h2 (by rw [h3, h4, Nat.add_zero]) hb
  refine ⟨v', e, e2, e3, e4 ?_⟩
  rw [h3]
  rcases hn with h | h
  · left; subst h; rfl
  · right
    exact h.trans (Nat.le_mul_of_pos_right _ h0)

theorem addCarry_ok : ∀ (v : List Nat) (c : Nat), Limbs v → c < 2 ^ 64 →
    Limbs (addCarry v c).1 ∧ (addCarry v c).2 < 2 ^ 64 ∧ (addCarry v c).1.length = v.length ∧
      val (addCarry v c).1 + (addCarry v c).2 * (2 ^ 64) ^ v.length = val v + c
  | [], c, _, hc => ⟨Limbs.nil, hc, rfl, by unfold addCarry val; rw [List.length_nil, pow_zero]; ring⟩
  | x :: xs, c, hv, hc => by
    unfold addCarry
    by_cases h0 : c = 0
    · rw [if_pos h0]
      subst h0
      exact ⟨hv, by norm_num, rfl, by simp only; ring⟩
    · rw [if_neg h0]
      have hx := hv.head
      obtain ⟨h1, h2, h3, h4⟩ := addCarry_ok xs (if 2 ^ 64 ≤ x + c then 1 else 0) hv.tail (by split <;> norm_num)
      simp only
      refine ⟨Limbs.cons (Nat.mod_lt _ (by norm_num)) h1, h2, by rw [List.length_cons, List.length_cons, h3], ?_⟩
      have e : x + c = u64 (x + c) + 2 ^ 64 * (if 2 ^ 64 ≤ x + c then 1 else 0) := by
        unfold u64
        split <;> omega
      generalize (if 2 ^ 64 ≤ x + c then 1 else 0) = b at *
      generalize (addCarry xs b).1 = r at *
      generalize (addCarry xs b).2 = d at *
      rw [List.length_cons, pow_succ]
      show u64 (x + c) + 2 ^ 64 * val r + _ = x + 2 ^ 64 * val xs + c
      generalize u64 (x + c) = a at *
      generalize ((2 : Nat) ^ 64) ^ xs.length = P at *
      generalize (2 : Nat) ^ 64 = K at *
      calc a + K * val r + d * (P * K) = a + K * (val r + d * P) := by ring
        _ = a + K * (val xs + b) := by rw [h4]
        _ = (x + c) + K * val xs := by rw [e]; ring
        _ = _ := by ring

theorem smallAdd_ok {v : List Nat} {y : Nat} (hv : Limbs v) (hn : Norm v) (hy : y < 2 ^ 64) (hb : val v + y < (2 ^ 64) ^ 62) :
    ∃ v', smallAdd v y = some v' ∧ val v' = val v + y ∧ Limbs v' ∧ Norm v' := by
  obtain ⟨h1, h2, h3, h4⟩ := addCarry_ok v y hv hy
  obtain ⟨v', e, e2, e3, e4⟩ := pushCarry_ok (V := val v + y) h1 h2 (by rw [h3, h4]) hb
  refine ⟨v', e, e2, e3, e4 ?_⟩
  rw [h3]
  rcases hn with h | h
  · left; subst h; rfl
  · right; omega

theorem addLimbs_ok : ∀ (xs ys : List Nat) (carry : Bool), Limbs xs → Limbs ys → ys.length ≤ xs.length →
    Limbs (addLimbs xs ys carry).1 ∧ (addLimbs xs ys carry).2 < 2 ^ 64 ∧ (addLimbs xs ys carry).1.length = xs.length ∧
      val (addLimbs xs ys carry).1 + (addLimbs xs ys carry).2 * (2 ^ 64) ^ xs.length = val xs + val ys + if carry then 1 else 0
  | xs, [], carry, hx, _, _ => by
    unfold addLimbs
    have := addCarry_ok xs (if carry then 1 else 0) hx (by split <;> norm_num)
    simpa only [val, Nat.add_zero] using this
  | [], y :: ys, _, _, _, hl => by rw [List.length_cons, List.length_nil] at hl; omega
  | x :: xs, y :: ys, carry, hx, hy, hl => by
    unfold addLimbs
    simp only
    have hx' := hx.head
    have hy' := hy.head
    have hl' : ys.length ≤ xs.length := by rw [List.length_cons, List.length_cons] at hl; omega
    have ih := addLimbs_ok xs ys (decide (2 ^ 64 ≤ x + y) || (carry && decide (2 ^ 64 ≤ u64 (x + y) + 1))) hx.tail hy.tail hl'
    have e : (if carry then u64 (u64 (x + y) + 1) else u64 (x + y)) < 2 ^ 64 ∧ x + y + (if carry then 1 else 0) =
        (if carry then u64 (u64 (x + y) + 1) else u64 (x + y)) +
          2 ^ 64 * (if (decide (2 ^ 64 ≤ x + y) || (carry && decide (2 ^ 64 ≤ u64 (x + y) + 1))) = true then 1 else 0) := by
      unfold u64
      cases carry <;> simp only [Bool.false_and, Bool.or_false, Bool.true_and, Bool.or_eq_true, decide_eq_true_eq, Bool.false_eq_true, ↓reduceIte]
      · split <;> omega
      · split <;> omega
    generalize (decide (2 ^ 64 ≤ x + y) || (carry && decide (2 ^ 64 ≤ u64 (x + y) + 1))) = cb at *
    obtain ⟨h1, h2, h3, h4⟩ := ih
    refine ⟨Limbs.cons e.1 h1, h2, by rw [List.length_cons, List.length_cons, h3], ?_⟩
    have e := e.2
    rw [List.length_cons, pow_succ]
    generalize (addLimbs xs ys cb).1 = r at *
    generalize (addLimbs xs ys cb).2 = d at *
    generalize (if cb = true then 1 else 0) = b at *
    generalize (if carry then u64 (u64 (x + y) + 1) else u64 (x + y)) = a at *
    generalize (if carry = true then 1 else 0) = cc at *
    show a + 2 ^ 64 * val r + _ = x + 2 ^ 64 * val xs + (y + 2 ^ 64 * val ys) + cc
    generalize ((2 : Nat) ^ 64) ^ xs.length = P at *
    generalize (2 : Nat) ^ 64 = K at *
    calc a + K * val r + d * (P * K) = a + K * (val r + d * P) := by ring
      _ = a + K * (val xs + val ys + b) := by rw [h4]
      _ = (x + y + cc) + K * (val xs + val ys) := by rw [e]; ring
      _ = _ := by ring

theorem largeAddFrom_ok {x y : List Nat} {start : Nat} (hx : Limbs x) (hy : Limbs y) (hn : Norm y) (hp : 0 < val y)
    (hb : val x + val y * (2 ^ 64) ^ start < (2 ^ 64) ^ 62) :
    ∃ r, largeAddFrom x y start = some r ∧ val r = val x + val y * (2 ^ 64) ^ start ∧ Limbs r := by
  unfold largeAddFrom
  simp only
  have hlen : y.length + start ≤ 62 := hn.length_le hp (by omega)
  generalize hrz : (decide (x.length < start) || decide (y.length > x.length - start)) = resize
  have hnot : ¬ (resize && decide (bigintLimbs < y.length + start)) = true := by
    have : bigintLimbs = 62 := rfl
    rw [Bool.and_eq_true, decide_eq_true_eq]; omega
  rw [if_neg hnot]
  generalize hx' : (if resize = true then x ++ List.replicate (y.length + start - x.length) 0 else x) = x'
  have hfacts : Limbs x' ∧ val x' = val x ∧ y.length + start ≤ x'.length := by
    cases resize
    · simp only [Bool.or_eq_false_iff, decide_eq_false_iff_not] at hrz
      rw [if_neg (by decide)] at hx'
      subst hx'
      exact ⟨hx, rfl, by omega⟩
    · simp only [Bool.or_eq_true, decide_eq_true_eq] at hrz
      rw [if_pos rfl] at hx'
      subst hx'
      refine ⟨hx.append (limbs_zeros _), by rw [val_append, val_zeros, Nat.mul_zero, Nat.add_zero], ?_⟩
      rw [List.length_append, List.length_replicate]; omega
  obtain ⟨f1, f2, f3⟩ := hfacts
  have hd : Limbs (x'.drop start) := fun z hz => f1 z (List.mem_of_mem_drop hz)
  have ht : Limbs (x'.take start) := fun z hz => f1 z (List.mem_of_mem_take hz)
  obtain ⟨h1, h2, h3, h4⟩ := addLimbs_ok (x'.drop start) y false hd hy (by rw [List.length_drop]; omega)
  have hlt : (x'.take start).length = start := by rw [List.length_take]; omega
  have hval : val (x'.take start) + (2 ^ 64) ^ start * val (x'.drop start) = val x := by
    have := val_append (x'.take start) (x'.drop start)
    rw [List.take_append_drop, hlt, f2] at this
    exact this.symm
  rw [if_neg (by decide), Nat.add_zero] at h4
  rw [← h3] at h4
  obtain ⟨v, e1, e2, e3, _⟩ := pushCarry_ok (xs := x'.take start ++ (addLimbs (x'.drop start) y false).1) (c := (addLimbs (x'.drop start) y false).2)
    (V := val x + val y * (2 ^ 64) ^ start) (ht.append h1) h2 (by
      rw [val_append, List.length_append, hlt, pow_add, ← hval]
      generalize (addLimbs (x'.drop start) y false).1 = r at *
      generalize (addLimbs (x'.drop start) y false).2 = d at *
      generalize ((2 : Nat) ^ 64) ^ r.length = P at *
      generalize ((2 : Nat) ^ 64) ^ start = K at *
      calc val (x'.take start) + K * val r + d * (K * P) = val (x'.take start) + K * (val r + d * P) := by ring
        _ = _ := by rw [h4]; ring) hb
  exact ⟨v, e1, e2, e3⟩

theorem val_normalize (v : List Nat) : val (normalize v) = val v := by
  unfold normalize
  have h := List.takeWhile_append_dropWhile (p := (· == 0)) (l := v.reverse)
  have h2 : v = (v.reverse.dropWhile (· == 0)).reverse ++ (v.reverse.takeWhile (· == 0)).reverse := by
    rw [← List.reverse_append, h, List.reverse_reverse]
  have h3 : (v.reverse.takeWhile (· == 0)).reverse = List.replicate (v.reverse.takeWhile (· == 0)).length 0 := by
    rw [List.eq_replicate_iff]
    refine ⟨List.length_reverse, fun b hb => ?_⟩
    have := List.all_eq_true.1 (List.all_takeWhile (p := (· == 0)) (l := v.reverse)) b (List.mem_reverse.1 hb)
    simpa using this
  conv_rhs => rw [h2, val_append, h3, val_zeros, Nat.mul_zero, Nat.add_zero]

theorem normalize_ok {v : List Nat} (hv : Limbs v) : val (normalize v) = val v ∧ Limbs (normalize v) ∧ Norm (normalize v) := by
  refine ⟨val_normalize v, fun x hx => ?_, ?_⟩
  · unfold normalize at hx
    exact hv x (List.mem_reverse.1 ((List.dropWhile_sublist _).mem (List.mem_reverse.1 hx)))
  · unfold normalize
    cases hd : v.reverse.dropWhile (· == 0) with
    | nil => left; rfl
    | cons a l =>
      right
      have ha : a ≠ 0 := by
        have := List.head_dropWhile_not (· == 0) (l := v.reverse) (by rw [hd]; simp)
        simp only [hd, List.head_cons] at this
        simpa using this
      rw [List.reverse_cons, val_append, List.length_append, List.length_singleton, Nat.add_sub_cancel]
      show _ ≤ _ + _ * (a + 2 ^ 64 * 0)
      rw [Nat.mul_zero, Nat.add_zero]
      have : (2 ^ 64) ^ l.reverse.length * 1 ≤ (2 ^ 64) ^ l.reverse.length * a := Nat.mul_le_mul_left _ (by omega)
      omega

theorem longLoop_ok {z : List Nat} (hz : Limbs z) (hn : Norm z) (hp : 0 < val z) : ∀ (ys x : List Nat) (index : Nat), Limbs x → Limbs ys →
    val x + val z * val ys * (2 ^ 64) ^ index < (2 ^ 64) ^ 62 →
    ∃ r, longLoop z x ys index = some r ∧ val r = val x + val z * val ys * (2 ^ 64) ^ index ∧ Limbs r
  | [], x, index, hx, _, _ => ⟨x, rfl, by unfold val; ring, hx⟩
  | y :: ys, x, index, hx, hy, hb => by
    have e : val z * val (y :: ys) * (2 ^ 64) ^ index = val z * y * (2 ^ 64) ^ index + val z * val ys * (2 ^ 64) ^ (index + 1) := by
      rw [pow_succ]; show val z * (y + 2 ^ 64 * val ys) * _ = _; ring
    rw [e] at hb ⊢
    unfold longLoop
    by_cases h0 : y = 0
    · subst h0
      rw [Nat.mul_zero, Nat.zero_mul, Nat.zero_add] at hb ⊢
      rw [if_neg (by simp)]
      exact longLoop_ok hz hn hp ys x (index + 1) hx hy.tail hb
    · rw [if_pos h0]
      have hpos : 0 < (2 ^ 64) ^ index := by positivity
      obtain ⟨zi, a1, a2, a3, a4⟩ := smallMul_ok (y := y) hz hn hy.head (by omega) (by
        have := Nat.le_mul_of_pos_right (val z * y) hpos
        omega)
      have hzi : 0 < val zi := by rw [a2]; exact Nat.mul_pos hp (by omega)
      obtain ⟨r, b1, b2, b3⟩ := largeAddFrom_ok (start := index) hx a3 a4 hzi (by rw [a2]; omega)
      obtain ⟨r', c1, c2, c3⟩ := longLoop_ok hz hn hp ys r (index + 1) b3 hy.tail (by rw [b2, a2]; omega)
      refine ⟨r', ?_, by rw [c2, b2, a2, Nat.add_assoc], c3⟩
      rw [a1]
      show (largeAddFrom x zi index).bind _ = _
      rw [b1]
      exact c1

theorem longMul_ok {x y : List Nat} (hx : Limbs x) (hn : Norm x) (hp : 0 < val x) (hy : Limbs y) (hy0 : ∀ y0 ∈ y.head?, 0 < y0) (hne : y ≠ [])
    (hb : val x * val y < (2 ^ 64) ^ 62) : ∃ r, longMul x y = some r ∧ val r = val x * val y ∧ Limbs r ∧ Norm r := by
  cases y with
  | nil => exact absurd rfl hne
  | cons y0 ys =>
    have hy0 := hy0 y0 rfl
    have e : val x * val (y0 :: ys) = val x * y0 + val x * val ys * (2 ^ 64) ^ 1 := by
      rw [pow_one]; show val x * (y0 + 2 ^ 64 * val ys) = _; ring
    rw [e] at hb ⊢
    obtain ⟨x', a1, a2, a3, a4⟩ := smallMul_ok (y := y0) hx hn hy.head hy0 (by omega)
    obtain ⟨r, b1, b2, b3⟩ := longLoop_ok hx hn hp ys x' 1 a3 hy.tail (by rw [a2]; exact hb)
    obtain ⟨c1, c2, c3⟩ := normalize_ok b3
    refine ⟨normalize r, ?_, by rw [c1, b2, a2], c2, c3⟩
    unfold longMul
    simp only [a1]
    show (longLoop x x' ys 1).bind _ = _
    rw [b1]
    rfl

theorem val_largePowerOf5 : val largePowerOf5 = 5 ^ 135 := by decide +kernel

theorem limbs_largePowerOf5 : Limbs largePowerOf5 := by
  intro x hx
  have : ∀ x ∈ largePowerOf5, x < 2 ^ 64 := by decide
  exact this x hx

theorem pow5Large_ok (n : Nat) : ∀ {v : List Nat}, Limbs v → Norm v → 0 < val v → val v * (5 ^ 135) ^ n < (2 ^ 64) ^ 62 →
    ∃ r, pow5Large n v = some r ∧ val r = val v * (5 ^ 135) ^ n ∧ Limbs r ∧ Norm r := by
  have hval := val_largePowerOf5
  have hF : 0 < 5 ^ 135 := pow_pos (by norm_num) _
  generalize 5 ^ 135 = F at *
  induction n with
  | zero => intro v hv hn _ _; exact ⟨v, rfl, by rw [pow_zero, Nat.mul_one], hv, hn⟩
  | succ n ih =>
    intro v hv hn hp hb
    have e : val v * F ^ (n + 1) = val v * F * F ^ n := by rw [pow_succ]; ring
    rw [e] at hb ⊢
    have hle := Nat.le_mul_of_pos_right (val v * F) (pow_pos hF n)
    obtain ⟨r, a1, a2, a3, a4⟩ := longMul_ok hv hn hp limbs_largePowerOf5 (by decide) (by decide) (by rw [hval]; omega)
    rw [hval] at a2
    have hr : 0 < val r := by rw [a2]; exact Nat.mul_pos hp hF
    obtain ⟨r', b1, b2, b3, b4⟩ := ih a3 a4 hr (by rw [a2]; exact hb)
    refine ⟨r', ?_, by rw [b2, a2], b3, b4⟩
    unfold pow5Large
    have : largeMul v largePowerOf5 = some r := by
      rw [← a1]; rfl
    rw [this]
    exact b1

theorem pow5Small_ok (n : Nat) : ∀ {v : List Nat}, Limbs v → Norm v → val v * 7450580596923828125 ^ n < (2 ^ 64) ^ 62 →
    ∃ r, pow5Small n v = some r ∧ val r = val v * 7450580596923828125 ^ n ∧ Limbs r ∧ Norm r := by
  induction n with
  | zero => intro v hv hn _; exact ⟨v, rfl, by rw [pow_zero, Nat.mul_one], hv, hn⟩
  | succ n ih =>
    intro v hv hn hb
    have e : val v * 7450580596923828125 ^ (n + 1) = val v * 7450580596923828125 * 7450580596923828125 ^ n := by rw [pow_succ]; ring
    rw [e] at hb ⊢
    have hpos : 0 < 7450580596923828125 ^ n := pow_pos (by norm_num) n
    have hle := Nat.le_mul_of_pos_right (val v * 7450580596923828125) hpos
    obtain ⟨r, a1, a2, a3, a4⟩ := smallMul_ok (y := 7450580596923828125) hv hn (by norm_num) (by norm_num) (by omega)
    obtain ⟨r', b1, b2, b3, b4⟩ := ih a3 a4 (by rw [a2]; exact hb)
    refine ⟨r', ?_, by rw [b2, a2], b3, b4⟩
    unfold pow5Small
    rw [a1]
    exact b1

theorem smallPowerOf5_eq {i : Nat} (h : i < 28) : smallPowerOf5.getD i 0 = 5 ^ i := by
  have : ∀ i < 28, smallPowerOf5.getD i 0 = 5 ^ i := by decide
  exact this i h

theorem pow5_ok (n : Nat) {v : List Nat} (hv : Limbs v) (hn : Norm v) (hp : 0 < val v) (hb : val v * 5 ^ n < (2 ^ 64) ^ 62) :
    ∃ r, pow5 n v = some r ∧ val r = val v * 5 ^ n ∧ Limbs r ∧ Norm r := by
  have e : val v * 5 ^ n = val v * (5 ^ 135) ^ (n / 135) * 7450580596923828125 ^ (n % 135 / 27) * 5 ^ (n % 135 % 27) := by
    rw [show (7450580596923828125 : Nat) = 5 ^ 27 by norm_num, ← pow_mul, ← pow_mul, Nat.mul_assoc, Nat.mul_assoc, ← pow_add, ← pow_add]
    congr 2
    omega
  rw [e] at hb ⊢
  have hp1 : 0 < 7450580596923828125 ^ (n % 135 / 27) := pow_pos (by norm_num) _
  have hp2 : 0 < 5 ^ (n % 135 % 27) := by positivity
  have l1 := Nat.le_mul_of_pos_right (val v * (5 ^ 135) ^ (n / 135)) hp1
  have l2 := Nat.le_mul_of_pos_right (val v * (5 ^ 135) ^ (n / 135) * 7450580596923828125 ^ (n % 135 / 27)) hp2
  obtain ⟨r, a1, a2, a3, a4⟩ := pow5Large_ok (n / 135) hv hn hp (by omega)
  obtain ⟨r', b1, b2, b3, b4⟩ := pow5Small_ok (n % 135 / 27) a3 a4 (by rw [a2]; omega)
  unfold pow5
  rw [a1]
  show ∃ x, (pow5Small (n % 135 / 27) r).bind _ = some x ∧ _
  rw [b1]
  show ∃ x, (if n % 135 % 27 ≠ 0 then smallMul r' (smallPowerOf5.getD (n % 135 % 27) 0) else some r') = some x ∧ _
  by_cases h0 : n % 135 % 27 = 0
  · rw [if_neg (by simpa using h0)]
    refine ⟨r', rfl, ?_, b3, b4⟩
    rw [b2, a2, h0, pow_zero, Nat.mul_one]
  · rw [if_pos h0, smallPowerOf5_eq (by omega)]
    obtain ⟨s, c1, c2, c3, c4⟩ := smallMul_ok (y := 5 ^ (n % 135 % 27)) b3 b4 (by
      have : 5 ^ (n % 135 % 27) ≤ 5 ^ 27 := Nat.pow_le_pow_right (by norm_num) (by omega)
      have h27 : (5 : Nat) ^ 27 < 2 ^ 64 := by norm_num
      omega) hp2 (by rw [b2, a2]; exact hb)
    exact ⟨s, c1, by rw [c2, b2, a2], c3, c4⟩

theorem u64_shift {x n : Nat} (hn : n ≤ 64) : u64 (x * 2 ^ n) = (x % 2 ^ (64 - n)) * 2 ^ n := by
  unfold u64
  have : (2 : Nat) ^ 64 = 2 ^ (64 - n) * 2 ^ n := by rw [← pow_add]; congr 1; omega
  rw [this, Nat.mul_mod_mul_right]

theorem or_low {a b n : Nat} (h : b < 2 ^ n) : (a * 2 ^ n) ||| b = a * 2 ^ n + b := by
  rw [← Nat.shiftLeft_eq, Nat.shiftLeft_add_eq_or_of_lt h]

theorem div_low {x n : Nat} (hx : x < 2 ^ 64) (hn : n ≤ 64) : x / 2 ^ (64 - n) < 2 ^ n := by
  rw [Nat.div_lt_iff_lt_mul (by positivity), ← pow_add, show n + (64 - n) = 64 by omega]
  exact hx

theorem shlLimbs_ok {n : Nat} (hn : n ≤ 64) : ∀ (v : List Nat) (prev : Nat), Limbs v → prev < 2 ^ 64 →
    Limbs (shlLimbs n v prev).1 ∧ (shlLimbs n v prev).2 < 2 ^ 64 ∧ (shlLimbs n v prev).1.length = v.length ∧
      val (shlLimbs n v prev).1 + (shlLimbs n v prev).2 * (2 ^ 64) ^ v.length = val v * 2 ^ n + prev / 2 ^ (64 - n)
  | [], prev, _, hc => by
    refine ⟨Limbs.nil, lt_of_le_of_lt (Nat.div_le_self _ _) hc, rfl, ?_⟩
    unfold shlLimbs val; rw [List.length_nil, pow_zero]; ring
  | x :: xs, prev, hv, hc => by
    obtain ⟨h1, h2, h3, h4⟩ := shlLimbs_ok hn xs x hv.tail hv.head
    unfold shlLimbs
    simp only
    rw [u64_shift hn, or_low (div_low hc hn)]
    have hlt : x % 2 ^ (64 - n) * 2 ^ n + prev / 2 ^ (64 - n) < 2 ^ 64 := by
      have a1 : x % 2 ^ (64 - n) + 1 ≤ 2 ^ (64 - n) := Nat.mod_lt _ (by positivity)
      have a2 := Nat.mul_le_mul_right (2 ^ n) a1
      rw [← pow_add, show 64 - n + n = 64 by omega, Nat.add_mul] at a2
      have a3 := div_low hc hn
      omega
    refine ⟨Limbs.cons hlt h1, h2, by rw [List.length_cons, List.length_cons, h3], ?_⟩
    have e : 2 ^ 64 = 2 ^ (64 - n) * 2 ^ n := by rw [← pow_add]; congr 1; omega
    have e2 : x = x % 2 ^ (64 - n) + 2 ^ (64 - n) * (x / 2 ^ (64 - n)) := (Nat.mod_add_div _ _).symm
    show x % 2 ^ (64 - n) * 2 ^ n + prev / 2 ^ (64 - n) + 2 ^ 64 * val (shlLimbs n xs x).1 + _ = (x + 2 ^ 64 * val xs) * 2 ^ n + _
    rw [List.length_cons, pow_succ ((2 : Nat) ^ 64)]
    generalize (shlLimbs n xs x).1 = r at *
    generalize (shlLimbs n xs x).2 = d at *
    generalize prev / 2 ^ (64 - n) = pp at *
    generalize x % 2 ^ (64 - n) = a at *
    generalize x / 2 ^ (64 - n) = b at *
    generalize ((2 : Nat) ^ 64) ^ xs.length = P at *
    generalize (2 : Nat) ^ (64 - n) = S at *
    generalize (2 : Nat) ^ n = T at *
    generalize (2 : Nat) ^ 64 = K at *
    calc a * T + pp + K * val r + d * (P * K) = a * T + pp + K * (val r + d * P) := by ring
      _ = a * T + pp + K * (val xs * T) + (S * T) * b := by rw [h4, ← e]; ring
      _ = (a + S * b) * T + K * val xs * T + pp := by ring
      _ = x * T + K * val xs * T + pp := by rw [← e2]
      _ = _ := by ring

theorem shl_ok (n : Nat) {v : List Nat} (hv : Limbs v) (hn : Norm v) (hp : 0 < val v) (hb : val v * 2 ^ n < (2 ^ 64) ^ 62) :
    ∃ r, shl n v = some r ∧ val r = val v * 2 ^ n ∧ Limbs r ∧ Norm r := by
  have e : val v * 2 ^ n = val v * 2 ^ (n % 64) * (2 ^ 64) ^ (n / 64) := by
    rw [← pow_mul, Nat.mul_assoc, ← pow_add]; congr 2; omega
  rw [e] at hb ⊢
  have hle := Nat.le_mul_of_pos_right (val v * 2 ^ (n % 64)) (by positivity : 0 < (2 ^ 64) ^ (n / 64))
  have h1 : ∃ r, shlBits (n % 64) v = some r ∧ val r = val v * 2 ^ (n % 64) ∧ Limbs r ∧ Norm r := by
    unfold shlBits
    by_cases h0 : n % 64 = 0
    · rw [if_neg (by simpa using h0)]
      exact ⟨v, rfl, by rw [h0, pow_zero, Nat.mul_one], hv, hn⟩
    · rw [if_pos h0]
      obtain ⟨a1, a2, a3, a4⟩ := shlLimbs_ok (n := n % 64) (by omega) v 0 hv (by norm_num)
      rw [Nat.zero_div, Nat.add_zero] at a4
      obtain ⟨r, b1, b2, b3, b4⟩ := pushCarry_ok (V := val v * 2 ^ (n % 64)) a1 a2 (by rw [a3, a4]) (by omega)
      refine ⟨r, b1, b2, b3, b4 ?_⟩
      rw [a3]
      rcases hn with h | h
      · left; subst h; cases hp
      · right; exact h.trans (Nat.le_mul_of_pos_right _ (by positivity))
  obtain ⟨r, a1, a2, a3, a4⟩ := h1
  unfold shl
  rw [a1, Option.bind_some]
  unfold shlWhole
  have hr : 0 < val r := by rw [a2]; exact Nat.mul_pos hp (by positivity)
  by_cases h0 : n / 64 = 0
  · rw [if_neg (by simpa using h0)]
    exact ⟨r, rfl, by rw [h0, pow_zero, Nat.mul_one, a2], a3, a4⟩
  · rw [if_pos h0]
    have hlen := a4.length_le hr (k := n / 64) (n := 62) (by rw [a2]; exact hb)
    have hlim : bigintLimbs = 62 := rfl
    have hne : r ≠ [] := by rintro rfl; cases hr
    rw [if_neg (by omega), if_pos hne]
    refine ⟨_, rfl, ?_, (limbs_zeros _).append a3, .inr ?_⟩
    · rw [val_append, val_zeros, List.length_replicate, a2, Nat.zero_add, Nat.mul_comm]
    · rw [val_append, val_zeros, List.length_replicate, List.length_append, List.length_replicate, Nat.zero_add]
      rcases a4 with h | h
      · exact absurd h hne
      · have hpos : 0 < r.length := List.length_pos_iff.2 hne
        rw [show n / 64 + r.length - 1 = n / 64 + (r.length - 1) by omega, pow_add]
        exact Nat.mul_le_mul_left _ h

theorem pow10_ok (n : Nat) {v : List Nat} (hv : Limbs v) (hn : Norm v) (hp : 0 < val v) (hb : val v * 10 ^ n < (2 ^ 64) ^ 62) :
    ∃ r, pow10 n v = some r ∧ val r = val v * 10 ^ n ∧ Limbs r ∧ Norm r := by
  have e : val v * 10 ^ n = val v * 5 ^ n * 2 ^ n := by rw [Nat.mul_assoc, ← Nat.mul_pow]
  rw [e] at hb ⊢
  have hle := Nat.le_mul_of_pos_right (val v * 5 ^ n) (by positivity : 0 < 2 ^ n)
  obtain ⟨r, a1, a2, a3, a4⟩ := pow5_ok n hv hn hp (by omega)
  obtain ⟨r', b1, b2, b3, b4⟩ := shl_ok n a3 a4 (by rw [a2]; exact Nat.mul_pos hp (by positivity)) (by rw [a2]; exact hb)
  refine ⟨r', ?_, by rw [b2, a2], b3, b4⟩
  unfold pow10
  rw [a1]
  exact b1

theorem bigOf_ok {n : Nat} (h : n < 2 ^ 64) : val (bigOf n) = n ∧ Limbs (bigOf n) ∧ Norm (bigOf n) := by
  have := normalize_ok (Limbs.cons h Limbs.nil)
  refine ⟨this.1.trans ?_, this.2⟩
  unfold val val; rw [Nat.mul_zero, Nat.add_zero]

/-- The highest limb is not zero. -/
theorem Norm.last {v : List Nat} (hv : Limbs v) (hn : Norm v) (hp : 0 < val v) : ∃ l r, v = l ++ [r] ∧ 0 < r ∧ r < 2 ^ 64 ∧ Limbs l ∧
    val v = val l + (2 ^ 64) ^ l.length * r := by
  rcases List.eq_nil_or_concat v with h | ⟨l, r, h⟩
  · subst h; cases hp
  · rw [List.concat_eq_append] at h
    subst h
    have hl : Limbs l := fun x hx => hv x (List.mem_append_left _ hx)
    have hr : r < 2 ^ 64 := hv r (List.mem_append_right _ List.mem_cons_self)
    have e : val (l ++ [r]) = val l + (2 ^ 64) ^ l.length * r := by
      rw [val_append]; show _ + _ * (r + 2 ^ 64 * 0) = _; rw [Nat.mul_zero, Nat.add_zero]
    refine ⟨l, r, rfl, ?_, hr, hl, e⟩
    rcases hn with h | h
    · exact absurd h (by simp)
    · rw [e, List.length_append, List.length_singleton, Nat.add_sub_cancel] at h
      have := val_lt hl
      rcases Nat.eq_zero_or_pos r with h0 | h0
      · rw [h0, Nat.mul_zero] at h; omega
      · exact h0

theorem val_eq_zero {v : List Nat} : val v = 0 ↔ v.any (· ≠ 0) = false := by
  induction v with
  | nil => simp [val]
  | cons x xs ih =>
    show x + 2 ^ 64 * val xs = 0 ↔ _
    rw [List.any_cons, Bool.or_eq_false_iff, ← ih]
    constructor
    · intro h; exact ⟨by simp; omega, by omega⟩
    · rintro ⟨h1, h2⟩
      simp at h1
      omega

theorem any_reverse (v : List Nat) : v.reverse.any (· ≠ 0) = v.any (· ≠ 0) := by
  rw [List.any_reverse]

theorem leadingZeroes_spec {w : Nat} (h0 : 0 < w) (hw : w < 2 ^ 64) : leadingZeroes w ≤ 63 ∧ 2 ^ 63 ≤ w * 2 ^ leadingZeroes w ∧
    w * 2 ^ leadingZeroes w < 2 ^ 64 := by
  unfold leadingZeroes
  have h1 := Nat.log2_self_le (n := w) (by omega)
  have h2 := Nat.lt_log2_self (n := w)
  have h3 : w.log2 < 64 := (Nat.log2_lt (by omega)).2 hw
  refine ⟨by omega, ?_, ?_⟩
  · have := Nat.mul_le_mul_right (2 ^ (63 - w.log2)) h1
    rw [← Nat.pow_add, show w.log2 + (63 - w.log2) = 63 by omega] at this
    exact this
  · have := Nat.mul_lt_mul_of_pos_right h2 (by positivity : 0 < 2 ^ (63 - w.log2))
    rw [← Nat.pow_add, show w.log2 + 1 + (63 - w.log2) = 64 by omega] at this
    exact this

/-- The 64 highest bits of a big integer, and whether the others are zero. -/
theorem hi64_ok {v : List Nat} (hv : Limbs v) (hn : Norm v) (hp : 0 < val v) : 2 ^ 63 ≤ (hi64 v).1 ∧ (hi64 v).1 < 2 ^ 64 ∧
    ((∃ s : Nat, bitLength v = 64 - s ∧ (hi64 v).1 = val v * 2 ^ s ∧ (hi64 v).2 = false) ∨
     (∃ j : Nat, bitLength v = 64 + j ∧ (hi64 v).1 * 2 ^ j ≤ val v ∧ val v < ((hi64 v).1 + 1) * 2 ^ j ∧
      ((hi64 v).2 = true ↔ (hi64 v).1 * 2 ^ j ≠ val v))) := by
  obtain ⟨l, r0, rfl, hr0, hr, hl, hval⟩ := hn.last hv hp
  obtain ⟨z1, z2, z3⟩ := leadingZeroes_spec hr0 hr
  have hbl : bitLength (l ++ [r0]) = 64 * ((l.length : Int) + 1) - (leadingZeroes r0 : Nat) := by
    unfold bitLength
    rw [List.reverse_append, List.reverse_singleton, List.singleton_append, List.length_append, List.length_singleton]
    push_cast
    rfl
  rw [hbl, hval]
  generalize hz : leadingZeroes r0 = s at *
  rcases List.eq_nil_or_concat l with h | ⟨l', r1, h⟩
  · subst h
    have e : hi64 ([] ++ [r0]) = (r0 * 2 ^ s, false) := by
      show (u64 (r0 * 2 ^ leadingZeroes r0), false) = _
      rw [hz]
      unfold u64
      rw [Nat.mod_eq_of_lt z3]
    rw [e]
    refine ⟨z2, z3, .inl ⟨s, by simp, ?_, rfl⟩⟩
    simp only [val, List.length_nil, pow_zero, Nat.zero_add, Nat.one_mul]
  · rw [List.concat_eq_append] at h
    subst h
    have hl' : Limbs l' := fun x hx => hl x (List.mem_append_left _ hx)
    have hr1 : r1 < 2 ^ 64 := hl r1 (List.mem_append_right _ List.mem_cons_self)
    have hval1 : val (l' ++ [r1]) = val l' + (2 ^ 64) ^ l'.length * r1 := by
      rw [val_append]; show _ + _ * (r1 + 2 ^ 64 * 0) = _; rw [Nat.mul_zero, Nat.add_zero]
    have e1 : (hi64 ((l' ++ [r1]) ++ [r0])).1 = r0 * 2 ^ s + r1 / 2 ^ (64 - s) := by
      unfold hi64
      rw [List.reverse_append, List.reverse_append, List.reverse_singleton, List.reverse_singleton, List.singleton_append, List.singleton_append]
      simp only [hz]
      by_cases h0 : s = 0
      · rw [if_pos h0]
        subst h0
        simp only [pow_zero, Nat.mul_one, Nat.sub_zero]
        rw [Nat.div_eq_of_lt hr1, Nat.add_zero]
      · rw [if_neg h0]
        simp only
        unfold u64
        rw [Nat.mod_eq_of_lt z3, or_low (div_low hr1 (by omega))]
    have e2 : (hi64 ((l' ++ [r1]) ++ [r0])).2 = (decide (r1 % 2 ^ (64 - s) ≠ 0) || l'.any (· ≠ 0)) := by
      unfold hi64
      rw [List.reverse_append, List.reverse_append, List.reverse_singleton, List.reverse_singleton, List.singleton_append, List.singleton_append]
      simp only [hz]
      rw [any_reverse]
      by_cases h0 : s = 0
      · rw [if_pos h0]
        subst h0
        simp only [Nat.sub_zero]
        rw [Nat.mod_eq_of_lt hr1]
      · rw [if_neg h0]
        simp only
        congr 1
        rw [u64_shift (by omega)]
        congr 1
        have : 0 < 2 ^ s := by positivity
        simp
    rw [e1, e2]
    have hdl := div_low hr1 (n := s) (by omega)
    have z4 : r0 * 2 ^ s + 2 ^ s ≤ 2 ^ 64 := by
      have e : (2 : Nat) ^ 64 = 2 ^ (64 - s) * 2 ^ s := by rw [← pow_add]; congr 1; omega
      have : r0 < 2 ^ (64 - s) := by
        rw [e] at z3; exact Nat.lt_of_mul_lt_mul_right z3
      have := Nat.mul_le_mul_right (2 ^ s) this
      rw [← e, Nat.succ_mul] at this
      exact this
    refine ⟨Nat.le_trans z2 (Nat.le_add_right _ _), by omega, .inr ⟨64 * (l'.length + 1) - s, ?_, ?_⟩⟩
    · rw [List.length_append, List.length_singleton]; push_cast; omega
    · have ej : (2 : Nat) ^ (64 * (l'.length + 1) - s) = (2 ^ 64) ^ l'.length * 2 ^ (64 - s) := by
        rw [← pow_mul, ← pow_add]; congr 1; omega
      rw [hval1, List.length_append, List.length_singleton, pow_succ ((2 : Nat) ^ 64), ej]
      have e64 : (2 : Nat) ^ 64 = 2 ^ s * 2 ^ (64 - s) := by rw [← pow_add]; congr 1; omega
      have hv' := val_lt hl'
      have em : r1 = r1 % 2 ^ (64 - s) + 2 ^ (64 - s) * (r1 / 2 ^ (64 - s)) := (Nat.mod_add_div _ _).symm
      have eml : r1 % 2 ^ (64 - s) + 1 ≤ 2 ^ (64 - s) := Nat.mod_lt _ (by positivity)
      have htr : ((decide (r1 % 2 ^ (64 - s) ≠ 0) || l'.any (· ≠ 0)) = true) ↔ ¬ (r1 % 2 ^ (64 - s) = 0 ∧ val l' = 0) := by
        rw [val_eq_zero, Bool.or_eq_true, decide_eq_true_eq]
        constructor
        · rintro (h | h) ⟨h1, h2⟩
          · exact h h1
          · rw [h] at h2; cases h2
        · intro h
          by_cases h1 : r1 % 2 ^ (64 - s) = 0
          · right
            by_contra h2
            exact h ⟨h1, by simpa using h2⟩
          · left; exact h1
      rw [htr]
      generalize r1 % 2 ^ (64 - s) = a at *
      generalize r1 / 2 ^ (64 - s) = b at *
      generalize ((2 : Nat) ^ 64) ^ l'.length = P at *
      have key : val l' + P * r1 + P * 2 ^ 64 * r0 = (r0 * 2 ^ s + b) * (P * 2 ^ (64 - s)) + (val l' + P * a) := by
        rw [em, e64]; ring
      rw [key]
      have hP : P * (a + 1) ≤ P * 2 ^ (64 - s) := Nat.mul_le_mul_left _ eml
      rw [Nat.mul_add, Nat.mul_one] at hP
      refine ⟨Nat.le_add_right _ _, ?_, ?_⟩
      · rw [Nat.add_mul _ 1, Nat.one_mul]; omega
      · have hP0 : 0 < P := by omega
        constructor
        · intro h h'
          have h3 : val l' + P * a = 0 := by omega
          have h4 : P * a = 0 := by omega
          rcases Nat.mul_eq_zero.1 h4 with h5 | h5
          · omega
          · exact h ⟨h5, by omega⟩
        · rintro h ⟨h1, h2⟩
          apply h
          rw [h1, h2, Nat.mul_zero, Nat.add_zero]

theorem compareLimbs_ok : ∀ (xs ys : List Nat), Limbs xs → Limbs ys → xs.length = ys.length →
    match compareLimbs xs ys with
    | .gt => val ys.reverse < val xs.reverse
    | .lt => val xs.reverse < val ys.reverse
    | .eq => val xs.reverse = val ys.reverse
  | [], [], _, _, _ => rfl
  | [], _ :: _, _, _, h => by cases h
  | _ :: _, [], _, _, h => by cases h
  | x :: xs, y :: ys, hx, hy, h => by
    have h' : xs.length = ys.length := by simpa using h
    have ih := compareLimbs_ok xs ys hx.tail hy.tail h'
    have lx : val xs.reverse < (2 ^ 64) ^ xs.length := by
      have := val_lt (v := xs.reverse) (fun z hz => hx.tail z (List.mem_reverse.1 hz))
      rwa [List.length_reverse] at this
    have ly : val ys.reverse < (2 ^ 64) ^ xs.length := by
      have := val_lt (v := ys.reverse) (fun z hz => hy.tail z (List.mem_reverse.1 hz))
      rwa [List.length_reverse, ← h'] at this
    have ex : val (x :: xs).reverse = val xs.reverse + (2 ^ 64) ^ xs.length * x := by
      rw [List.reverse_cons, val_append, List.length_reverse]; show _ + _ * (x + 2 ^ 64 * 0) = _; rw [Nat.mul_zero, Nat.add_zero]
    have ey : val (y :: ys).reverse = val ys.reverse + (2 ^ 64) ^ xs.length * y := by
      rw [List.reverse_cons, val_append, List.length_reverse, h']; show _ + _ * (y + 2 ^ 64 * 0) = _; rw [Nat.mul_zero, Nat.add_zero]
    rw [ex, ey]
    unfold compareLimbs
    generalize ((2 : Nat) ^ 64) ^ xs.length = P at *
    by_cases hgt : x > y
    · rw [if_pos hgt]
      have := Nat.mul_le_mul_left P (show y + 1 ≤ x from hgt)
      rw [Nat.mul_add, Nat.mul_one] at this
      show _ < _
      omega
    · rw [if_neg hgt]
      by_cases hlt : x < y
      · rw [if_pos hlt]
        have := Nat.mul_le_mul_left P (show x + 1 ≤ y from hlt)
        rw [Nat.mul_add, Nat.mul_one] at this
        show _ < _
        omega
      · rw [if_neg hlt]
        have : x = y := by omega
        subst this
        cases hc : compareLimbs xs ys <;> rw [hc] at ih <;> simp only at ih ⊢ <;> omega

theorem compareBig_ok {x y : List Nat} (hx : Limbs x) (hy : Limbs y) (nx : Norm x) (ny : Norm y) :
    match compareBig x y with
    | .gt => val y < val x
    | .lt => val x < val y
    | .eq => val x = val y := by
  have longer : ∀ {a b : List Nat}, Limbs a → Norm b → a.length < b.length → val a < val b := by
    intro a b ha nb h
    rcases nb with h' | h'
    · subst h'; cases h
    · exact lt_of_lt_of_le (val_lt ha) (le_trans (Nat.pow_le_pow_right (by norm_num) (by omega)) h')
  unfold compareBig
  by_cases hgt : x.length > y.length
  · rw [if_pos hgt]; exact longer hy nx hgt
  · rw [if_neg hgt]
    by_cases hlt : x.length < y.length
    · rw [if_pos hlt]; exact longer hx ny hlt
    · rw [if_neg hlt]
      have := compareLimbs_ok x.reverse y.reverse (fun z hz => hx z (List.mem_reverse.1 hz)) (fun z hz => hy z (List.mem_reverse.1 hz))
        (by rw [List.length_reverse, List.length_reverse]; omega)
      rwa [List.reverse_reverse, List.reverse_reverse] at this

end Verif.FF
