import Verif.Spec.Number
import Verif.Proof.DblParser
import Verif.Model.FastFloat
/-!
# Reading digits
-/
namespace Verif.FF
open Verif

attribute [local irreducible] powerOfFive128

theorem digitsValue_cons (b : Byte) (l : List Byte) : digitsValue (b :: l) = (b.toNat - 48) * 10 ^ l.length + digitsValue l := by
  have := digitsValue_append [b] l
  rw [List.singleton_append] at this
  rw [this]
  congr 2
  unfold digitsValue
  simp

theorem _root_.Verif.AllDigits.head {b : Byte} {l : List Byte} (h : AllDigits (b :: l)) : 48 ≤ b.toNat ∧ b.toNat ≤ 57 := h b List.mem_cons_self
theorem _root_.Verif.AllDigits.tail {b : Byte} {l : List Byte} (h : AllDigits (b :: l)) : AllDigits l := fun x hx => h x (List.mem_cons_of_mem _ hx)
theorem _root_.Verif.AllDigits.left {a b : List Byte} (h : AllDigits (a ++ b)) : AllDigits a := fun x hx => h x (List.mem_append_left _ hx)
theorem _root_.Verif.AllDigits.right {a b : List Byte} (h : AllDigits (a ++ b)) : AllDigits b := fun x hx => h x (List.mem_append_right _ hx)

theorem isInteger_iff {b : Byte} : isInteger b = true ↔ 48 ≤ b.toNat ∧ b.toNat ≤ 57 := by
  unfold isInteger; simp

theorem isInteger_false {b : Byte} : isInteger b = false ↔ ¬ (48 ≤ b.toNat ∧ b.toNat ≤ 57) := by
  rw [← isInteger_iff]; simp

theorem u64_step (i d : Nat) : u64 (u64 (10 * i) + d) = (10 * i + d) % 2 ^ 64 := by
  unfold u64; rw [Nat.add_mod, Nat.mod_mod, ← Nat.add_mod]

/-- The loop over digits computes their number modulo `2^64` and stops after them. -/
theorem digitLoop_ok : ∀ (ds r : List Byte) (i : Nat), AllDigits ds → EndsNumber r →
    digitLoop (i % 2 ^ 64) (ds ++ r) = ((i * 10 ^ ds.length + digitsValue ds) % 2 ^ 64, r)
  | [], r, i, _, hr => by
    have e : (i * 10 ^ ([] : List Byte).length + digitsValue []) = i := by unfold digitsValue; simp
    rw [e, List.nil_append]
    cases r with
    | nil => rfl
    | cons b l =>
      unfold digitLoop
      rw [isInteger_false.2 (hr b l rfl)]
      rfl
  | b :: ds, r, i, h, hr => by
    rw [List.cons_append]
    unfold digitLoop
    rw [if_pos (isInteger_iff.2 h.head), u64_step]
    have e : (10 * (i % 2 ^ 64) + digit b) % 2 ^ 64 = (10 * i + digit b) % 2 ^ 64 := by
      rw [Nat.add_mod, Nat.mul_mod, Nat.mod_mod, ← Nat.mul_mod, ← Nat.add_mod]
    rw [e, digitLoop_ok ds r (10 * i + digit b) h.tail hr, digitsValue_cons, List.length_cons, pow_succ]
    congr 2
    unfold digit
    ring

/-- One byte of the test for digits. -/
theorem digit_byte {b S C D Q : Nat} (hb : b < 256) (h1 : (b + 256 * S + (70 + 256 * C)) / 2 ^ 7 % 2 = 0)
    (h2 : (b + 256 * S + 256 * Q - (48 + 256 * D)) / 2 ^ 7 % 2 = 0) (hD : D < Q) : (48 ≤ b ∧ b ≤ 57) ∧
      (b + 256 * S + (70 + 256 * C)) / 256 = S + C ∧ (b + 256 * S + 256 * Q - (48 + 256 * D)) / 256 = S + Q - D := by omega

theorem bit_mod (x i : Nat) (h : i < 64) : x % 2 ^ 64 / 2 ^ i % 2 = x / 2 ^ i % 2 := by
  have e : (2 : Nat) ^ 64 = 2 ^ i * 2 ^ (64 - i) := by rw [← Nat.pow_add]; congr 1; omega
  rw [e, Nat.mod_mul_right_div_self, Nat.mod_mod_of_dvd]
  exact ⟨2 ^ (63 - i), by rw [← Nat.pow_succ']; congr 1; omega⟩

theorem bit_next (x i : Nat) : x / 2 ^ (8 + i) % 2 = x / 256 / 2 ^ i % 2 := by
  rw [Nat.div_div_eq_div_mul, pow_add, show (2 : Nat) ^ 8 = 256 from rfl]

theorem u64_bit {x i : Nat} (hi : i < 64) (h : decide (u64 x / 2 ^ i % 2 = 1) = false) : x / 2 ^ i % 2 = 0 := by
  rw [decide_eq_false_iff_not] at h
  unfold u64 at h
  rw [bit_mod _ _ hi] at h
  omega

theorem any_bits {x : Nat} (h : anyHighBit (u64 x) = false) : ∀ k, k < 8 → x / 2 ^ (8 * k + 7) % 2 = 0 := by
  unfold anyHighBit at h
  simp only [List.any_cons, List.any_nil, Bool.or_false, Bool.or_eq_false_iff] at h
  obtain ⟨h0, h1, h2, h3, h4, h5, h6, h7⟩ := h
  intro k hk
  rcases (show k = 0 ∨ k = 1 ∨ k = 2 ∨ k = 3 ∨ k = 4 ∨ k = 5 ∨ k = 6 ∨ k = 7 from by omega) with h | h | h | h | h | h | h | h <;> subst h
  · exact u64_bit (by norm_num) h0
  · exact u64_bit (by norm_num) h1
  · exact u64_bit (by norm_num) h2
  · exact u64_bit (by norm_num) h3
  · exact u64_bit (by norm_num) h4
  · exact u64_bit (by norm_num) h5
  · exact u64_bit (by norm_num) h6
  · exact u64_bit (by norm_num) h7

/-- The number made of bytes, the lowest first. -/
def bytesVal : List Nat → Nat
  | [] => 0
  | b :: l => b + 256 * bytesVal l

theorem bytes_digits : ∀ (l : List Nat), (∀ b ∈ l, b < 256) →
    (∀ k, k < l.length → (bytesVal l + bytesVal (List.replicate l.length 70)) / 2 ^ (8 * k + 7) % 2 = 0) →
    (∀ k, k < l.length → (bytesVal l + 256 ^ l.length - bytesVal (List.replicate l.length 48)) / 2 ^ (8 * k + 7) % 2 = 0) →
    ∀ b ∈ l, 48 ≤ b ∧ b ≤ 57
  | [], _, _, _ => by simp
  | b :: l, hl, h1, h2 => by
    have e1 : bytesVal (List.replicate (b :: l).length 70) = 70 + 256 * bytesVal (List.replicate l.length 70) := rfl
    have e2 : bytesVal (List.replicate (b :: l).length 48) = 48 + 256 * bytesVal (List.replicate l.length 48) := rfl
    have e3 : (256 : Nat) ^ (b :: l).length = 256 * 256 ^ l.length := by rw [List.length_cons, Nat.pow_succ, Nat.mul_comm]
    have hD : ∀ n, bytesVal (List.replicate n 48) < 256 ^ n := by
      intro n
      induction n with
      | zero => decide
      | succ n ih =>
        rw [List.replicate_succ, Nat.pow_succ]
        show 48 + 256 * _ < _
        omega
    have hb := hl b List.mem_cons_self
    have ev : bytesVal (b :: l) = b + 256 * bytesVal l := rfl
    rw [e1, ev] at h1
    rw [e2, e3, ev] at h2
    have D := digit_byte hb (h1 0 (by simp)) (h2 0 (by simp)) (hD l.length)
    obtain ⟨hd, ea, eb⟩ := D
    have rest := bytes_digits l (fun c hc => hl c (List.mem_cons_of_mem _ hc))
      (fun k hk => by
        have := h1 (k + 1) (by rw [List.length_cons]; omega)
        rw [show 8 * (k + 1) + 7 = 8 + (8 * k + 7) from by omega, bit_next, ea] at this
        exact this)
      (fun k hk => by
        have := h2 (k + 1) (by rw [List.length_cons]; omega)
        rw [show 8 * (k + 1) + 7 = 8 + (8 * k + 7) from by omega, bit_next, eb] at this
        exact this)
    intro c hc
    rcases List.mem_cons.1 hc with h | h
    · rw [h]; exact hd
    · exact rest c h

/-- The test for eight digits at once lets only digits pass. -/
theorem eight_digits {a b c d e f g h : Byte} (ht : isMadeOfEightDigits (read8 a b c d e f g h) = true) : AllDigits [a, b, c, d, e, f, g, h] := by
  unfold isMadeOfEightDigits at ht
  rw [Bool.not_eq_true', Bool.or_eq_false_iff] at ht
  obtain ⟨h1, h2⟩ := ht
  have h1 := any_bits h1
  have h2 := any_bits h2
  have ev : read8 a b c d e f g h = bytesVal ([a, b, c, d, e, f, g, h].map BitVec.toNat) := by
    unfold read8
    simp only [List.map_cons, List.map_nil, bytesVal]
    ring
  rw [ev] at h1 h2
  have c70 : bytesVal (List.replicate 8 70) = 5063812098665367110 := by decide
  have c48 : bytesVal (List.replicate 8 48) = 3472328296227680304 := by decide
  have c64 : (256 : Nat) ^ 8 = 2 ^ 64 := by norm_num
  have hlen : ([a, b, c, d, e, f, g, h].map BitVec.toNat).length = 8 := by simp
  have key := bytes_digits ([a, b, c, d, e, f, g, h].map BitVec.toNat) (fun x hx => by
    obtain ⟨y, _, rfl⟩ := List.mem_map.1 hx
    exact y.isLt)
    (fun k hk => by
      rw [hlen] at hk ⊢
      rw [c70]
      exact h1 k hk)
    (fun k hk => by
      rw [hlen] at hk ⊢
      rw [c48, c64]
      exact h2 k hk)
  intro x hx
  exact key _ (List.mem_map_of_mem hx)

theorem parseEight_steps {v v1 v2 : Nat} (h1 : u64 (v + 2 ^ 64 - 0x3030303030303030) = v1) (h2 : u64 (u64 (v1 * 10) + v1 / 2 ^ 8) = v2) :
    parseEight v = u64 (u64 (mask04 v2 * 0x000F424000000064) + u64 (mask04 (v2 / 2 ^ 16) * 0x0000271000000001)) / 2 ^ 32 % 2 ^ 32 := by
  subst h1 h2; rfl

theorem eight_pairs {p0 p1 p2 p3 p4 p5 p6 p7 : Nat} (h0 : p0 < 100) (h1 : p1 < 100) (h2 : p2 < 100) (h3 : p3 < 100) (h4 : p4 < 100)
    (h5 : p5 < 100) (h6 : p6 < 100) (_h7 : p7 < 100) {v : Nat}
    (hv : v = p0 + 2 ^ 8 * (p1 + 2 ^ 8 * (p2 + 2 ^ 8 * (p3 + 2 ^ 8 * (p4 + 2 ^ 8 * (p5 + 2 ^ 8 * (p6 + 2 ^ 8 * p7))))))) :
    u64 (u64 (mask04 v * 0x000F424000000064) + u64 (mask04 (v / 2 ^ 16) * 0x0000271000000001)) / 2 ^ 32 % 2 ^ 32 =
      1000000 * p0 + 10000 * p2 + 100 * p4 + p6 := by
  have m1 : mask04 v = p0 + p4 * 2 ^ 32 := by
    unfold mask04; omega
  have m2 : mask04 (v / 2 ^ 16) = p2 + p6 * 2 ^ 32 := by
    unfold mask04; omega
  rw [m1, m2]
  clear m1 m2 hv
  have n1 : u64 ((p0 + p4 * 2 ^ 32) * 0x000F424000000064) = 100 * p0 + 2 ^ 32 * (1000000 * p0 + 100 * p4) := by
    unfold u64; omega
  have n2 : u64 ((p2 + p6 * 2 ^ 32) * 0x0000271000000001) = p2 + 2 ^ 32 * (10000 * p2 + p6) := by
    unfold u64; omega
  rw [n1, n2]
  have e : 100 * p0 + 2 ^ 32 * (1000000 * p0 + 100 * p4) + (p2 + 2 ^ 32 * (10000 * p2 + p6)) =
      (100 * p0 + p2) + 2 ^ 32 * (1000000 * p0 + 10000 * p2 + 100 * p4 + p6) := by ring
  have b1 : 100 * p0 + p2 < 2 ^ 32 := by omega
  have b2 : 1000000 * p0 + 10000 * p2 + 100 * p4 + p6 < 2 ^ 32 := by omega
  rw [e]
  generalize 100 * p0 + p2 = S at *
  generalize 1000000 * p0 + 10000 * p2 + 100 * p4 + p6 = Q at *
  clear e n1 n2
  unfold u64
  rw [Nat.mod_eq_of_lt (show S + 2 ^ 32 * Q < 2 ^ 64 from by omega), show (S + 2 ^ 32 * Q) / 2 ^ 32 = Q from by omega]
  exact Nat.mod_eq_of_lt b2

theorem eight_step {a b c d e f g h v : Nat} (ha : a ≤ 9) (hb : b ≤ 9) (hc : c ≤ 9) (hd : d ≤ 9) (he : e ≤ 9) (hf : f ≤ 9) (hg : g ≤ 9) (hh : h ≤ 9)
    (hv : v = a + 2 ^ 8 * b + 2 ^ 16 * c + 2 ^ 24 * d + 2 ^ 32 * e + 2 ^ 40 * f + 2 ^ 48 * g + 2 ^ 56 * h) :
    u64 (u64 (v * 10) + v / 2 ^ 8) =
      (10 * a + b) + 2 ^ 8 * ((10 * b + c) + 2 ^ 8 * ((10 * c + d) + 2 ^ 8 * ((10 * d + e) + 2 ^ 8 * ((10 * e + f) + 2 ^ 8 * ((10 * f + g) + 2 ^ 8 *
        ((10 * g + h) + 2 ^ 8 * (10 * h))))))) := by
  have e1 : v / 2 ^ 8 = b + 2 ^ 8 * c + 2 ^ 16 * d + 2 ^ 24 * e + 2 ^ 32 * f + 2 ^ 40 * g + 2 ^ 48 * h := by omega
  rw [e1]
  clear e1
  unfold u64
  omega

theorem eight_arith {a b c d e f g h v : Nat} (ha : a ≤ 9) (hb : b ≤ 9) (hc : c ≤ 9) (hd : d ≤ 9) (he : e ≤ 9) (hf : f ≤ 9) (hg : g ≤ 9) (hh : h ≤ 9)
    (hv : v = 48 + a + 2 ^ 8 * (48 + b) + 2 ^ 16 * (48 + c) + 2 ^ 24 * (48 + d) + 2 ^ 32 * (48 + e) + 2 ^ 40 * (48 + f) + 2 ^ 48 * (48 + g) +
      2 ^ 56 * (48 + h)) : parseEight v = 10 * (10 * (10 * (10 * (10 * (10 * (10 * a + b) + c) + d) + e) + f) + g) + h := by
  have e1 : u64 (v + 2 ^ 64 - 0x3030303030303030) =
      a + 2 ^ 8 * b + 2 ^ 16 * c + 2 ^ 24 * d + 2 ^ 32 * e + 2 ^ 40 * f + 2 ^ 48 * g + 2 ^ 56 * h := by
    unfold u64; omega
  rw [parseEight_steps e1 (eight_step ha hb hc hd he hf hg hh rfl),
    eight_pairs (by omega) (by omega) (by omega) (by omega) (by omega) (by omega) (by omega) (by omega) rfl]
  clear e1 hv
  omega

/-- Eight digits are read at once. -/
theorem parseEight_ok {a b c d e f g h : Byte} (hd : AllDigits [a, b, c, d, e, f, g, h]) :
    parseEight (read8 a b c d e f g h) = digitsValue [a, b, c, d, e, f, g, h] := by
  have ha := hd a (by simp)
  have hb := hd b (by simp)
  have hc := hd c (by simp)
  have hdd := hd d (by simp)
  have he := hd e (by simp)
  have hf := hd f (by simp)
  have hg := hd g (by simp)
  have hh := hd h (by simp)
  have key := eight_arith (v := read8 a b c d e f g h) (a := a.toNat - 48) (b := b.toNat - 48) (c := c.toNat - 48) (d := d.toNat - 48) (e := e.toNat - 48) (f := f.toNat - 48)
    (g := g.toNat - 48) (h := h.toNat - 48) (by omega) (by omega) (by omega) (by omega) (by omega) (by omega) (by omega) (by omega)
    (by unfold read8; omega)
  unfold digitsValue
  simp only [List.foldl_cons, List.foldl_nil, Nat.mul_zero, Nat.zero_add]
  exact key

/-- The loop over eight digits at a time only takes digits, and takes them into account. -/
theorem eightLoop_ok (n : Nat) : ∀ (i : Nat) (l : List Byte), l.length ≤ n → ∃ pre l', l = pre ++ l' ∧ AllDigits pre ∧
    eightLoop (i % 2 ^ 64) l = ((i * 10 ^ pre.length + digitsValue pre) % 2 ^ 64, l') := by
  induction n with
  | zero =>
    intro i l hl
    have : l = [] := List.length_eq_zero_iff.1 (by omega)
    subst this
    exact ⟨[], [], rfl, allDigits_nil, by unfold eightLoop digitsValue; simp⟩
  | succ n ih =>
    intro i l hl
    have stop : ∃ pre l', l = pre ++ l' ∧ AllDigits pre ∧
        (i % 2 ^ 64, l) = ((i * 10 ^ pre.length + digitsValue pre) % 2 ^ 64, l') :=
      ⟨[], l, rfl, allDigits_nil, by unfold digitsValue; simp⟩
    rcases l with _ | ⟨a, _ | ⟨b, _ | ⟨c, _ | ⟨d, _ | ⟨e, _ | ⟨f, _ | ⟨g, _ | ⟨h, l⟩⟩⟩⟩⟩⟩⟩⟩
    any_goals exact stop
    unfold eightLoop
    by_cases ht : isMadeOfEightDigits (read8 a b c d e f g h) = true
    · rw [if_pos ht]
      have hd := eight_digits ht
      have e1 : u64 (u64 (i % 2 ^ 64 * 100000000) + parseEight (read8 a b c d e f g h)) =
          (i * 10 ^ 8 + digitsValue [a, b, c, d, e, f, g, h]) % 2 ^ 64 := by
        rw [parseEight_ok hd]
        unfold u64
        omega
      rw [e1]
      obtain ⟨pre, l', h1, h2, h3⟩ := ih (i * 10 ^ 8 + digitsValue [a, b, c, d, e, f, g, h]) l (by simp at hl; omega)
      refine ⟨[a, b, c, d, e, f, g, h] ++ pre, l', by rw [h1]; rfl, hd.append h2, ?_⟩
      rw [h3, digitsValue_append, List.length_append, pow_add]
      congr 2
      show (i * 10 ^ 8 + _) * _ + _ = i * (10 ^ 8 * _) + _
      ring
    · rw [if_neg ht]
      exact stop

/-- Both loops over the digits of a fraction. -/
theorem fraction_ok {ds r : List Byte} (hds : AllDigits ds) (hr : EndsNumber r) (i : Nat) :
    digitLoop (eightLoop (i % 2 ^ 64) (ds ++ r)).1 (eightLoop (i % 2 ^ 64) (ds ++ r)).2 = ((i * 10 ^ ds.length + digitsValue ds) % 2 ^ 64, r) := by
  obtain ⟨pre, l', h1, h2, h3⟩ := eightLoop_ok _ i (ds ++ r) le_rfl
  rw [h3]
  have : ∃ ds', ds = pre ++ ds' ∧ l' = ds' ++ r := by
    clear h3
    induction pre generalizing ds with
    | nil => exact ⟨ds, rfl, by rw [h1]; rfl⟩
    | cons b pre ih =>
      cases ds with
      | nil => exact absurd (h2.head) (hr b (pre ++ l') h1)
      | cons c ds =>
        rw [List.cons_append, List.cons_append] at h1
        injection h1 with e1 e2
        obtain ⟨ds', h3, h4⟩ := ih hds.tail e2 h2.tail
        exact ⟨ds', by rw [h3, e1]; rfl, h4⟩
  obtain ⟨ds', e1, e2⟩ := this
  subst e1
  rw [e2]
  show digitLoop _ (ds' ++ r) = _
  rw [digitLoop_ok ds' r _ hds.right hr, digitsValue_append, List.length_append, pow_add]
  congr 2
  ring

/-! ## Leading zeros -/

theorem leadingZeros_le : ∀ (l : List Byte) (n : Int), leadingZeros n l ≤ n
  | [], n => le_refl n
  | b :: l, n => by
    unfold leadingZeros
    by_cases h : b = 48 ∨ b = 46
    · rw [if_pos h]
      refine (leadingZeros_le l (if b = 48 then n - 1 else n)).trans ?_
      split <;> omega
    · rw [if_neg h]

theorem byte_ext {b : Byte} {n : Nat} (h : b.toNat = n) (hn : n < 256) : b = BitVec.ofNat 8 n := by
  apply BitVec.eq_of_toNat_eq
  rw [BitVec.toNat_ofNat, h]
  exact (Nat.mod_eq_of_lt hn).symm

theorem leadingZeros_digits : ∀ (ds tl : List Byte) (n : Int), AllDigits ds →
    (digitsValue ds = 0 → leadingZeros n (ds ++ tl) = leadingZeros (n - ds.length) tl) ∧
    (digitsValue ds ≠ 0 → ∃ m : Nat, leadingZeros n (ds ++ tl) = n - ds.length + (m + 1 : Nat) ∧ 10 ^ m ≤ digitsValue ds ∧ digitsValue ds < 10 ^ (m + 1))
  | [], tl, n, _ => ⟨fun _ => by simp, fun h => absurd rfl h⟩
  | b :: ds, tl, n, h => by
    obtain ⟨i1, i2⟩ := leadingZeros_digits ds tl (n - 1) h.tail
    have hb := h.head
    by_cases h0 : b = 48
    · have e : digitsValue (b :: ds) = digitsValue ds := by rw [digitsValue_cons, h0]; simp
      have el : leadingZeros n (b :: ds ++ tl) = leadingZeros (n - 1) (ds ++ tl) := by
        rw [List.cons_append]
        conv => lhs; unfold leadingZeros
        rw [if_pos (Or.inl h0), if_pos h0]
      rw [e, el, List.length_cons]
      refine ⟨fun hz => ?_, fun hz => ?_⟩
      · rw [i1 hz]; congr 1; push_cast; ring
      · obtain ⟨m, h1, h2⟩ := i2 hz
        exact ⟨m, by rw [h1]; push_cast; ring, h2⟩
    · have hne : b.toNat ≠ 48 := fun hh => h0 (byte_ext hh (by norm_num))
      have h46 : b ≠ 46 := fun hh => by rw [hh] at hb; revert hb; decide
      have hlt := digitsValue_lt h
      have hge : 10 ^ ds.length ≤ digitsValue (b :: ds) := by
        rw [digitsValue_cons]
        calc 10 ^ ds.length = 1 * 10 ^ ds.length := by ring
          _ ≤ (b.toNat - 48) * 10 ^ ds.length := Nat.mul_le_mul_right _ (by omega)
          _ ≤ _ := Nat.le_add_right _ _
      have hpos : 0 < 10 ^ ds.length := Nat.pow_pos (by norm_num)
      refine ⟨fun hz => by omega, fun _ => ⟨ds.length, ?_, hge, hlt⟩⟩
      rw [List.cons_append]
      unfold leadingZeros
      rw [if_neg (fun hh => hh.elim h0 h46), List.length_cons]
      push_cast
      ring

/-- What counting leading zeros tells about the number. -/
theorem leadingZeros_ok {int point frac tl : List Byte} (hi : AllDigits int) (hf : AllDigits frac) (hp : (point = [] ∧ frac = []) ∨ point = [46]) :
    (leadingZeros (int.length + frac.length : Nat) (int ++ (point ++ (frac ++ tl))) > 19 → 10 ^ 19 ≤ digitsValue (int ++ frac)) ∧
    (leadingZeros (int.length + frac.length : Nat) (int ++ (point ++ (frac ++ tl))) ≤ 19 → digitsValue (int ++ frac) < 10 ^ 19) := by
  obtain ⟨i1, i2⟩ := leadingZeros_digits int (point ++ (frac ++ tl)) (int.length + frac.length : Nat) hi
  obtain ⟨f1, f2⟩ := leadingZeros_digits frac tl frac.length hf
  have hfl := digitsValue_lt hf
  have up : ∀ {m : Nat}, (m + 1 : Nat) > 19 → 10 ^ 19 ≤ 10 ^ m := fun {m} h => Nat.pow_le_pow_right (by norm_num) (by omega)
  have down : ∀ {m : Nat}, m ≤ 19 → 10 ^ m ≤ 10 ^ 19 := fun {m} h => Nat.pow_le_pow_right (by norm_num) h
  rw [digitsValue_append]
  by_cases hz : digitsValue int = 0
  · have ep : leadingZeros (int.length + frac.length : Nat) (int ++ (point ++ (frac ++ tl))) = leadingZeros frac.length (frac ++ tl) := by
      rw [i1 hz, show ((int.length + frac.length : Nat) : Int) - int.length = frac.length from by push_cast; ring]
      rcases hp with ⟨h, _⟩ | h
      · rw [h]; rfl
      · rw [h, List.singleton_append]
        conv => lhs; unfold leadingZeros
        rw [if_pos (Or.inr rfl), if_neg (by decide)]
    rw [ep, hz, Nat.zero_mul, Nat.zero_add]
    by_cases hz2 : digitsValue frac = 0
    · rw [f1 hz2, hz2]
      have := leadingZeros_le tl ((frac.length : Int) - frac.length)
      exact ⟨fun h => by omega, fun _ => by norm_num⟩
    · obtain ⟨m, h1, h2, h3⟩ := f2 hz2
      rw [h1]
      exact ⟨fun h => (up (by omega)).trans h2, fun h => h3.trans_le (down (by omega))⟩
  · obtain ⟨m, h1, h2, h3⟩ := i2 hz
    rw [h1]
    have e : ((int.length + frac.length : Nat) : Int) - int.length + (m + 1 : Nat) = ((m + frac.length + 1 : Nat) : Int) := by push_cast; ring
    rw [e]
    refine ⟨fun h => (up (m := m + frac.length) (by exact_mod_cast h)).trans ?_, fun h => lt_of_lt_of_le ?_ (down (m := m + frac.length + 1) (by exact_mod_cast h))⟩
    · rw [pow_add]
      exact (Nat.mul_le_mul_right _ h2).trans (Nat.le_add_right _ _)
    · rw [show m + frac.length + 1 = m + 1 + frac.length from by omega, pow_add]
      generalize digitsValue int = X at *
      generalize 10 ^ (m + 1) = Y at *
      generalize 10 ^ frac.length = P at *
      calc X * P + digitsValue frac < X * P + P := by omega
        _ = (X + 1) * P := by ring
        _ ≤ Y * P := Nat.mul_le_mul_right _ h3

/-! ## The first nineteen digits -/

theorem nineteen_ok : ∀ (ds : List Byte) (i : Nat), AllDigits ds → i < 10 ^ 19 → ∃ pre p, ds = pre ++ p ∧
    nineteen i ds = (i * 10 ^ pre.length + digitsValue pre, p) ∧ i * 10 ^ pre.length + digitsValue pre < 10 ^ 19 ∧
      (10 ^ 18 ≤ i * 10 ^ pre.length + digitsValue pre ∨ p = [])
  | [], i, _, hi => ⟨[], [], rfl, by unfold nineteen digitsValue; simp, by unfold digitsValue; simpa using hi, Or.inr rfl⟩
  | b :: ds, i, h, hi => by
    unfold nineteen
    by_cases hs : i < 1000000000000000000
    · rw [if_pos hs]
      have hb := h.head
      have e : u64 (u64 (i * 10) + digit b) = i * 10 + digit b := by unfold u64 digit; omega
      rw [e]
      obtain ⟨pre, p, h1, h2, h3⟩ := nineteen_ok ds (i * 10 + digit b) h.tail (by unfold digit; omega)
      have e2 : i * 10 ^ (b :: pre).length + digitsValue (b :: pre) = (i * 10 + digit b) * 10 ^ pre.length + digitsValue pre := by
        rw [digitsValue_cons, List.length_cons, pow_succ]; unfold digit; ring
      exact ⟨b :: pre, p, by rw [h1]; rfl, by rw [h2, e2], by rw [e2]; exact h3⟩
    · rw [if_neg hs]
      refine ⟨[], b :: ds, rfl, by unfold digitsValue; simp, by unfold digitsValue; simpa using hi, Or.inl ?_⟩
      unfold digitsValue
      simp
      omega

/-- The first nineteen digits and the exponent that goes with them. -/
theorem truncated_ok {int frac : List Byte} (hi : AllDigits int) (hf : AllDigits frac) (hV : 10 ^ 19 ≤ digitsValue (int ++ frac)) (e : Int) :
    ∃ w k r, truncated int frac e = (w, e - frac.length + (k : Nat)) ∧ digitsValue (int ++ frac) = w * 10 ^ k + r ∧ r < 10 ^ k ∧
      10 ^ 18 ≤ w ∧ w < 10 ^ 19 := by
  obtain ⟨pre, p, h1, h2, h3, h4⟩ := nineteen_ok int 0 hi (by norm_num)
  rw [Nat.zero_mul, Nat.zero_add] at h2 h3 h4
  unfold truncated
  rw [h2]
  by_cases hs : 10 ^ 18 ≤ digitsValue pre
  · refine ⟨digitsValue pre, p.length + frac.length, digitsValue (p ++ frac), ?_, ?_, ?_, hs, h3⟩
    · show (if digitsValue pre ≥ 1000000000000000000 then _ else _) = _
      rw [if_pos (by norm_num at hs; exact hs)]
      congr 1
      push_cast
      ring
    · rw [h1, List.append_assoc, digitsValue_append, List.length_append]
    · have : AllDigits (p ++ frac) := (h1 ▸ hi : AllDigits (pre ++ p)).right.append hf
      have := digitsValue_lt this
      rwa [List.length_append] at this
  · have hp : p = [] := h4.resolve_left hs
    subst hp
    rw [List.append_nil] at h1
    subst h1
    obtain ⟨pre2, p2, g1, g2, g3, g4⟩ := nineteen_ok frac (digitsValue int) hf h3
    have ev : digitsValue (int ++ frac) = (digitsValue int * 10 ^ pre2.length + digitsValue pre2) * 10 ^ p2.length + digitsValue p2 := by
      rw [g1, ← List.append_assoc, digitsValue_append, digitsValue_append]
    have hp2 : AllDigits p2 := (g1 ▸ hf : AllDigits (pre2 ++ p2)).right
    refine ⟨_, p2.length, digitsValue p2, ?_, ev, digitsValue_lt hp2, ?_, g3⟩
    · show (if digitsValue int ≥ 1000000000000000000 then _ else _) = _
      rw [if_neg (by norm_num at hs; omega), g2]
      show (_, _) = (_, _)
      congr 1
      ring
    · rcases g4 with g4 | g4
      · exact g4
      · subst g4
        have : digitsValue ([] : List Byte) = 0 := rfl
        rw [this, List.length_nil, pow_zero] at ev
        have : (10 : Nat) ^ 18 ≤ 10 ^ 19 := by norm_num
        omega

/-! ## The exponent -/

/-- The exponent read for an exponent `e`: `e` itself, unless it is so large that its exact value does not matter. -/
def Saturates (e ê : Int) : Prop := ê = e ∨ (2 ^ 28 ≤ ê ∧ ê ≤ e) ∨ (e ≤ ê ∧ ê ≤ -2 ^ 28)

theorem exponentLoop_ok : ∀ (ds r : List Byte) (n : Nat), AllDigits ds → EndsNumber r → ∃ n', exponentLoop n (ds ++ r) = (n', r) ∧
    (n' = n * 10 ^ ds.length + digitsValue ds ∨ (2 ^ 28 ≤ n' ∧ n' ≤ n * 10 ^ ds.length + digitsValue ds))
  | [], r, n, _, hr => by
    refine ⟨n, ?_, Or.inl (by unfold digitsValue; simp)⟩
    rw [List.nil_append]
    cases r with
    | nil => rfl
    | cons b l => unfold exponentLoop; rw [isInteger_false.2 (hr b l rfl)]; rfl
  | b :: ds, r, n, h, hr => by
    rw [List.cons_append]
    unfold exponentLoop
    rw [if_pos (isInteger_iff.2 h.head)]
    have e2 : n * 10 ^ (b :: ds).length + digitsValue (b :: ds) = (10 * n + digit b) * 10 ^ ds.length + digitsValue ds := by
      rw [digitsValue_cons, List.length_cons, pow_succ]; unfold digit; ring
    rw [e2]
    by_cases hs : n < 0x10000000
    · rw [if_pos hs]
      exact exponentLoop_ok ds r _ h.tail hr
    · rw [if_neg hs]
      obtain ⟨n', h1, h2⟩ := exponentLoop_ok ds r n h.tail hr
      refine ⟨n', h1, Or.inr ?_⟩
      have hpos : 1 ≤ 10 ^ ds.length := Nat.pow_pos (by norm_num)
      have hle : n * 10 ^ ds.length ≤ (10 * n + digit b) * 10 ^ ds.length := Nat.mul_le_mul_right _ (by omega)
      have hn : n * 1 ≤ n * 10 ^ ds.length := Nat.mul_le_mul_left _ hpos
      generalize 10 ^ ds.length = P at *
      rcases h2 with h2 | ⟨h2, h3⟩
      · omega
      · omega

/-- `l` begins with an exponent. -/
def BeginsExponent (l : List Byte) : Prop := ∃ (c : Byte) (sign : List Byte) (d : Byte) (r : List Byte), (c = 101 ∨ c = 69) ∧
  (sign = [] ∨ sign = [43] ∨ sign = [45]) ∧ (48 ≤ d.toNat ∧ d.toNat ≤ 57) ∧ l = c :: (sign ++ d :: r)

theorem exponentPart_eq {c : Byte} {q r : List Byte} {neg : Bool} (hc : c = 101 ∨ c = 69)
    (h : (q = 45 :: r ∧ neg = true) ∨ (q = 43 :: r ∧ neg = false) ∨ (q = r ∧ neg = false ∧ r.head? ≠ some 45 ∧ r.head? ≠ some 43)) :
    exponentPart (c :: q) = if (r.head?.map isInteger).getD false = true then
      (if neg then -((exponentLoop 0 r).1 : Int) else (exponentLoop 0 r).1, (exponentLoop 0 r).2) else (0, c :: q) := by
  unfold exponentPart
  rcases h with ⟨rfl, rfl⟩ | ⟨rfl, rfl⟩ | ⟨rfl, rfl, h1, h2⟩
  · have hc : c = 101#8 ∨ c = 69#8 := hc
    simp [hc]
  · have hc : c = 101#8 ∨ c = 69#8 := hc
    simp [hc]
  · have hc : c = 101#8 ∨ c = 69#8 := hc
    have h1 : q.head? ≠ some 45#8 := h1
    have h2 : q.head? ≠ some 43#8 := h2
    simp [hc, h1, h2]

theorem sign_cases (q : List Byte) : ∃ (sign r : List Byte) (neg : Bool), q = sign ++ r ∧ (sign = [] ∨ sign = [43] ∨ sign = [45]) ∧
    ((q = 45 :: r ∧ neg = true) ∨ (q = 43 :: r ∧ neg = false) ∨ (q = r ∧ neg = false ∧ r.head? ≠ some 45 ∧ r.head? ≠ some 43)) := by
  by_cases h : q.head? = some 45
  · cases q with
    | nil => cases h
    | cons b q =>
      injection h with h
      exact ⟨[45], q, true, by rw [h]; rfl, Or.inr (Or.inr rfl), Or.inl ⟨by rw [h], rfl⟩⟩
  · by_cases h' : q.head? = some 43
    · cases q with
      | nil => cases h'
      | cons b q =>
        injection h' with h'
        exact ⟨[43], q, false, by rw [h']; rfl, Or.inr (Or.inl rfl), Or.inr (Or.inl ⟨by rw [h'], rfl⟩)⟩
    · exact ⟨[], q, false, rfl, Or.inl rfl, Or.inr (Or.inr ⟨rfl, rfl, h, h'⟩)⟩

theorem exponentPart_none {l : List Byte} (h : ¬ BeginsExponent l) : exponentPart l = (0, l) := by
  cases l with
  | nil => rfl
  | cons c q =>
    by_cases hc : c = 101 ∨ c = 69
    · obtain ⟨sign, r, neg, hq, hs, hn⟩ := sign_cases q
      rw [exponentPart_eq hc hn, if_neg]
      intro hd
      cases r with
      | nil => cases hd
      | cons d r => exact h ⟨c, sign, d, r, hc, hs, isInteger_iff.1 hd, by rw [hq]⟩
    · unfold exponentPart
      show (if c = 101 ∨ c = 69 then _ else _) = _
      rw [if_neg hc]

theorem exponentPart_some {exp rest : List Byte} {e : Int} (h : ExponentText exp e) (hne : exp ≠ []) (hr : EndsNumber rest) :
    ∃ ê, exponentPart (exp ++ rest) = (ê, rest) ∧ Saturates e ê := by
  rcases h with ⟨h, _⟩ | ⟨c, sign, ds, hc, hds, hdn, rfl, hs⟩
  · exact absurd h hne
  obtain ⟨n', h1, h2⟩ := exponentLoop_ok ds rest 0 hds hr
  rw [Nat.zero_mul, Nat.zero_add] at h2
  obtain ⟨d, l, hdl⟩ : ∃ d l, ds = d :: l := by
    cases ds with
    | nil => exact absurd rfl hdn
    | cons d l => exact ⟨d, l, rfl⟩
  have hdb := hds d (by rw [hdl]; exact List.mem_cons_self)
  have hh : (ds ++ rest).head? = some d := by rw [hdl]; rfl
  have hpos : (((ds ++ rest).head?).map isInteger).getD false = true := by rw [hh]; exact isInteger_iff.2 hdb
  have h45 : (ds ++ rest).head? ≠ some 45 := by
    rw [hh]; intro x; injection x with x; rw [x] at hdb; revert hdb; decide
  have h43 : (ds ++ rest).head? ≠ some 43 := by
    rw [hh]; intro x; injection x with x; rw [x] at hdb; revert hdb; decide
  have e : ∀ neg : Bool, ((sign = str "-" ∧ neg = true) ∨ (sign = str "+" ∧ neg = false) ∨ (sign = [] ∧ neg = false)) →
      exponentPart (c :: (sign ++ ds) ++ rest) = (if neg then -(n' : Int) else n', rest) := by
    intro neg hn
    rw [List.cons_append, List.append_assoc, exponentPart_eq hc (r := ds ++ rest) (neg := neg), if_pos hpos, h1]
    rcases hn with ⟨rfl, rfl⟩ | ⟨rfl, rfl⟩ | ⟨rfl, rfl⟩
    · exact Or.inl ⟨rfl, rfl⟩
    · exact Or.inr (Or.inl ⟨rfl, rfl⟩)
    · exact Or.inr (Or.inr ⟨rfl, rfl, h45, h43⟩)
  rcases hs with ⟨hs, rfl⟩ | ⟨hs, rfl⟩
  · refine ⟨n', e false (hs.elim (fun h => Or.inr (Or.inr ⟨h, rfl⟩)) fun h => Or.inr (Or.inl ⟨h, rfl⟩)), ?_⟩
    rcases h2 with h2 | ⟨h2, h3⟩
    · left; rw [h2]
    · right; left
      exact ⟨by exact_mod_cast h2, by exact_mod_cast h3⟩
  · refine ⟨-(n' : Int), e true (Or.inl ⟨hs, rfl⟩), ?_⟩
    rcases h2 with h2 | ⟨h2, h3⟩
    · left; rw [h2]
    · right; right
      have h2 : ((2 ^ 28 : Nat) : Int) ≤ n' := by exact_mod_cast h2
      have h3 : (n' : Int) ≤ digitsValue ds := by exact_mod_cast h3
      push_cast at h2
      constructor <;> omega

/-! ## The whole number -/

theorem spanTo_append (a b : List Byte) : spanTo (a ++ b) b = a := by
  unfold spanTo
  rw [List.length_append, Nat.add_sub_cancel, List.take_left]

/-- What is read from a text that begins with a number. -/
theorem parse_ok {int frac tl rest : List Byte} {neg dot : Bool} {ê : Int} (hi : AllDigits int) (hf : AllDigits frac) (hne : int ++ frac ≠ [])
    (hdot : dot = false → frac = [] ∧ tl.head? ≠ some 46) (htl : EndsNumber tl) (he : exponentPart tl = (ê, rest)) {t : List Byte}
    (ht : t = (if neg then [45] else []) ++ (int ++ ((if dot then [46] else []) ++ (frac ++ tl)))) :
    ∃ p, parseNumberString t = some p ∧ p.rest = rest ∧ p.negative = neg ∧ p.integer = int ∧ p.fraction = (if dot then some frac else none) ∧
      (p.tooMany = false → digitsValue (int ++ frac) < 10 ^ 19 ∧ p.mantissa = digitsValue (int ++ frac) ∧ p.exponent = ê - frac.length) ∧
      (p.tooMany = true → ∃ k r, digitsValue (int ++ frac) = p.mantissa * 10 ^ k + r ∧ r < 10 ^ k ∧ 10 ^ 18 ≤ p.mantissa ∧ p.mantissa < 10 ^ 19 ∧
        p.exponent = ê - frac.length + (k : Nat)) := by
  obtain ⟨body, hbody⟩ : ∃ body, body = int ++ ((if dot then [46] else []) ++ (frac ++ tl)) := ⟨_, rfl⟩
  rw [← hbody] at ht
  have hhead : ∃ b l, body = b :: l ∧ ((48 ≤ b.toNat ∧ b.toNat ≤ 57) ∨ b = 46) := by
    cases int with
    | cons b l => exact ⟨b, _, by rw [hbody]; rfl, Or.inl hi.head⟩
    | nil =>
      cases dot with
      | true => exact ⟨46, frac ++ tl, by rw [hbody]; rfl, Or.inr rfl⟩
      | false => exact absurd (hdot rfl).1 hne
  obtain ⟨b0, l0, hb0, hb1⟩ := hhead
  have hsign : afterSign t = some body ∧ decide (t.head? = some 45) = neg := by
    cases neg with
    | true =>
      have : t = 45 :: body := by rw [ht]; rfl
      rw [this]
      refine ⟨?_, rfl⟩
      unfold afterSign
      rw [if_pos (show (45 :: body).head? = some 45 from rfl)]
      rw [hb0]
      show (if (!isInteger b0 && decide (b0 ≠ 46)) = true then none else some (b0 :: l0)) = _
      rw [if_neg]
      rcases hb1 with h | h
      · rw [isInteger_iff.2 h]; simp
      · rw [h]; decide
    | false =>
      have : t = body := by rw [ht]; rfl
      have h45 : body.head? ≠ some 45 := by
        rw [hb0]
        intro x
        injection x with x
        rw [x] at hb1
        revert hb1
        decide
      rw [this]
      refine ⟨?_, decide_eq_false h45⟩
      unfold afterSign
      rw [if_neg h45]
  have hends : EndsNumber ((if dot then [46] else []) ++ (frac ++ tl)) := by
    cases dot with
    | true => exact endsNumber_cons (b := 46) (by decide)
    | false => rw [(hdot rfl).1]; exact htl
  have ha : digitLoop 0 body = (digitsValue int % 2 ^ 64, (if dot then [46] else []) ++ (frac ++ tl)) := by
    have := digitLoop_ok int _ 0 hi hends
    rw [Nat.zero_mod, Nat.zero_mul, Nat.zero_add, ← hbody] at this
    exact this
  have hpoint : (decide (((if dot then [46] else []) ++ (frac ++ tl) : List Byte).head? = some 46)) = dot := by
    cases dot with
    | true => rfl
    | false => rw [(hdot rfl).1]; exact decide_eq_false (hdot rfl).2
  have hb : (if dot then digitLoop (eightLoop (digitsValue int % 2 ^ 64) (((if dot then [46] else []) ++ (frac ++ tl) : List Byte).drop 1)).1
      (eightLoop (digitsValue int % 2 ^ 64) (((if dot then [46] else []) ++ (frac ++ tl) : List Byte).drop 1)).2
      else (digitsValue int % 2 ^ 64, (if dot then [46] else []) ++ (frac ++ tl))) = (digitsValue (int ++ frac) % 2 ^ 64, tl) := by
    cases dot with
    | true =>
      show digitLoop (eightLoop _ (frac ++ tl)).1 (eightLoop _ (frac ++ tl)).2 = _
      rw [fraction_ok hf htl, digitsValue_append]
    | false =>
      rw [(hdot rfl).1, List.append_nil]
      rfl
  have hex : (if dot then (tl.length : Int) - (((if dot then [46] else []) ++ (frac ++ tl) : List Byte).drop 1).length else 0) = -(frac.length : Int) := by
    cases dot with
    | true =>
      show (tl.length : Int) - (frac ++ tl).length = _
      rw [List.length_append]
      push_cast
      ring
    | false => rw [(hdot rfl).1]; rfl
  have hfr : (if dot then some (spanTo (((if dot then [46] else []) ++ (frac ++ tl) : List Byte).drop 1) tl) else none) = (if dot then some frac else none) := by
    cases dot with
    | true =>
      show some (spanTo (frac ++ tl) tl) = some frac
      rw [spanTo_append]
    | false => rfl
  have hint : spanTo body ((if dot then [46] else []) ++ (frac ++ tl)) = int := by rw [hbody, spanTo_append]
  have hcount : (int.length : Int) - -(frac.length : Int) = ((int.length + frac.length : Nat) : Int) := by push_cast; ring
  have hcne : ((int.length + frac.length : Nat) : Int) ≠ 0 := by
    intro h
    have h : int.length + frac.length = 0 := by exact_mod_cast h
    exact hne (List.append_eq_nil_iff.2 ⟨List.length_eq_zero_iff.1 (by omega), List.length_eq_zero_iff.1 (by omega)⟩)
  have hlz := leadingZeros_ok (tl := tl) (point := if dot then [46] else []) hi hf (by
    cases dot with
    | true => exact Or.inr rfl
    | false => exact Or.inl ⟨rfl, (hdot rfl).1⟩)
  rw [← hbody] at hlz
  have hgetD : (if dot then some frac else none).getD [] = frac := by
    cases dot with
    | true => rfl
    | false => exact (hdot rfl).1.symm
  have main : parseNumberString t =
      if ((int.length + frac.length : Nat) : Int) > 19 ∧ leadingZeros ((int.length + frac.length : Nat) : Int) body > 19 then
        some ⟨(truncated int frac ê).2, (truncated int frac ê).1, rest, neg, true, int, if dot then some frac else none⟩
      else some ⟨-(frac.length : Int) + ê, digitsValue (int ++ frac) % 2 ^ 64, rest, neg, false, int, if dot then some frac else none⟩ := by
    unfold parseNumberString
    rw [hsign.1]
    simp only [ha, hpoint, hb, hex, hfr, hint, hcount, he, hgetD, hsign.2]
    rw [if_neg hcne]
  rw [main]
  by_cases hbig : ((int.length + frac.length : Nat) : Int) > 19 ∧ leadingZeros ((int.length + frac.length : Nat) : Int) body > 19
  · rw [if_pos hbig]
    obtain ⟨w, k, r, h1, h2, h3, h4, h5⟩ := truncated_ok hi hf (hlz.1 hbig.2) ê
    refine ⟨_, rfl, rfl, rfl, rfl, rfl, fun h => (by cases h), fun _ => ⟨k, r, ?_, h3, ?_, ?_, ?_⟩⟩ <;> rw [h1]
    · exact h2
    · exact h4
    · exact h5
  · rw [if_neg hbig]
    have hV : digitsValue (int ++ frac) < 10 ^ 19 := by
      by_cases hc : ((int.length + frac.length : Nat) : Int) > 19
      · exact hlz.2 (by have := fun h => hbig ⟨hc, h⟩; omega)
      · have := digitsValue_lt (hi.append hf)
        rw [List.length_append] at this
        exact this.trans_le (Nat.pow_le_pow_right (by norm_num) (by omega))
    refine ⟨_, rfl, rfl, rfl, rfl, rfl, fun _ => ⟨hV, Nat.mod_eq_of_lt (hV.trans (by norm_num)), ?_⟩, fun h => (by cases h)⟩
    show -(frac.length : Int) + ê = _
    ring

end Verif.FF
