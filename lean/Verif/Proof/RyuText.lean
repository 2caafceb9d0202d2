import Verif.Model.Ryu
import Verif.Spec.Decimal
/-!
# `to_chars_uint64` writes the decimal digits of a number
-/
namespace Verif

theorem foldl_digits (l : List Byte) : ∀ a, l.foldl (fun n b => 10 * n + (b.toNat - 48)) a = a * 10 ^ l.length + digitsValue l := by
  unfold digitsValue
  induction l with
  | nil => intro a; simp
  | cons b l ih =>
    intro a
    rw [List.foldl_cons, ih, List.foldl_cons, ih (10 * 0 + _), List.length_cons, Nat.pow_succ]
    ring

theorem digitsValue_append (a b : List Byte) : digitsValue (a ++ b) = digitsValue a * 10 ^ b.length + digitsValue b := by
  rw [digitsValue, List.foldl_append]
  exact foldl_digits b _

theorem digitsValue_lt {l : List Byte} (h : AllDigits l) : digitsValue l < 10 ^ l.length := by
  induction l with
  | nil => exact Nat.zero_lt_one
  | cons b l ih =>
    have h1 := ih fun c hc => h c (List.mem_cons_of_mem _ hc)
    have h2 := h b List.mem_cons_self
    have e : digitsValue (b :: l) = (b.toNat - 48) * 10 ^ l.length + digitsValue l := by
      rw [show b :: l = [b] ++ l from rfl, digitsValue_append]; simp [digitsValue]
    rw [e, List.length_cons, Nat.pow_succ]
    have : (b.toNat - 48) * 10 ^ l.length ≤ 9 * 10 ^ l.length := Nat.mul_le_mul_right _ (by omega)
    omega

theorem AllDigits.append {a b : List Byte} (ha : AllDigits a) (hb : AllDigits b) : AllDigits (a ++ b) := fun c hc =>
  (List.mem_append.mp hc).elim (ha c) (hb c)

theorem allDigits_nil : AllDigits [] := fun _ h => by cases h

theorem digit_toNat {n : Nat} (h : n < 10) : (digit n).toNat = 48 + n := by
  unfold digit; rw [BitVec.toNat_ofNat]; omega

theorem digit_one {n : Nat} (h : n < 10) : AllDigits [digit n] ∧ digitsValue [digit n] = n := by
  refine ⟨fun c hc => ?_, ?_⟩
  · rw [List.mem_singleton.mp hc, digit_toNat h]; omega
  · simp [digitsValue, digit_toNat h]

theorem digitPair_ok {c : Nat} (h : c < 100) : ∃ p, digitPair c = some p ∧ AllDigits p ∧ digitsValue p = c ∧ p.length = 2 := by
  obtain ⟨a1, a2⟩ := digit_one (n := c / 10) (by omega)
  obtain ⟨b1, b2⟩ := digit_one (n := c % 10) (by omega)
  refine ⟨[digit (c / 10), digit (c % 10)], by rw [digitPair, if_pos h], a1.append b1, ?_, rfl⟩
  rw [show [digit (c / 10), digit (c % 10)] = [digit (c / 10)] ++ [digit (c % 10)] from rfl, digitsValue_append, a2, b2]
  simp
  omega

theorem zeros_ok (n : Nat) : AllDigits (List.replicate n (digit 0)) ∧ digitsValue (List.replicate n (digit 0)) = 0 := by
  induction n with
  | zero => exact ⟨allDigits_nil, rfl⟩
  | succ n ih =>
    obtain ⟨a1, a2⟩ := digit_one (n := 0) (by omega)
    rw [List.replicate_succ]
    refine ⟨a1.append ih.1, ?_⟩
    rw [show digit 0 :: List.replicate n (digit 0) = [digit 0] ++ List.replicate n (digit 0) from rfl, digitsValue_append, a2, ih.2]
    simp

/-- `w` holds the low digits of `o`, `o'` the rest. -/
structure LowDigits (o o' : Nat) (w : List Byte) : Prop where
  all : AllDigits w
  eq : o = o' * 10 ^ w.length + digitsValue w
  pos : 0 < o → 0 < o'

theorem LowDigits.push {o o' c k : Nat} {w p : List Byte} (h : LowDigits o o' w) (hp : AllDigits p) (hv : digitsValue p = c) (hl : p.length = k)
    (hk : o' % 10 ^ k = c) (hpos : 10 ^ k ≤ o') : LowDigits o (o' / 10 ^ k) (p ++ w) := by
  refine ⟨hp.append h.all, ?_, fun _ => Nat.div_pos hpos (Nat.pow_pos (by decide))⟩
  have h1 := Nat.div_add_mod o' (10 ^ k)
  rw [digitsValue_append, hv, List.length_append, hl, Nat.pow_add, h.eq]
  conv_lhs => rw [← h1, hk]
  ring

theorem charBlocks_ok {o : Nat} : ∀ (k o' : Nat) (w : List Byte), LowDigits o o' w → o' < 10 ^ (4 * (k + 1)) →
    ∃ o2 w2, charBlocks (k + 1) o' w = some (o2, w2) ∧ LowDigits o o2 w2 ∧ o2 < 10000
  | k, o', w, h, hlt => by
    rw [charBlocks]
    by_cases hc : o' ≥ 10000
    · rw [if_pos hc]
      obtain ⟨p0, e0, a0, v0, l0⟩ := digitPair_ok (c := o' % 10000 % 100) (by omega)
      obtain ⟨p1, e1, a1, v1, l1⟩ := digitPair_ok (c := o' % 10000 / 100) (by omega)
      match k, hlt with
      | 0, hlt => norm_num at hlt; omega
      | k + 1, hlt =>
        have hl : LowDigits o (o' / 10000) (p1 ++ p0 ++ w) := by
          refine h.push (k := 4) (c := o' % 10000) (a1.append a0) ?_ (by rw [List.length_append, l0, l1]) rfl hc
          rw [digitsValue_append, v0, v1, l0]; norm_num; omega
        obtain ⟨o2, w2, h1, h2⟩ := charBlocks_ok k (o' / 10000) _ hl (by
          rw [show 4 * (k + 1 + 1) = 4 * (k + 1) + 4 by omega, Nat.pow_add] at hlt
          rw [Nat.div_lt_iff_lt_mul (by decide)]; exact hlt)
        refine ⟨o2, w2, ?_, h2⟩
        dsimp only
        rw [e0, e1]
        exact h1
    · rw [if_neg hc]; exact ⟨o', w, rfl, h, by omega⟩

/-- The number `o` has `L` digits. -/
def HasDigits (o L : Nat) : Prop := 1 ≤ L ∧ 10 ^ (L - 1) ≤ o ∧ o < 10 ^ L

theorem HasDigits.unique {o L L' : Nat} (h : HasDigits o L) (h' : HasDigits o L') : L = L' := by
  rcases Nat.lt_trichotomy L L' with hl | hl | hl
  · have := Nat.pow_le_pow_right (show 0 < 10 by decide) (show L ≤ L' - 1 by omega)
    have := h.2.2; have := h'.2.1; omega
  · exact hl
  · have := Nat.pow_le_pow_right (show 0 < 10 by decide) (show L' ≤ L - 1 by omega)
    have := h'.2.2; have := h.2.1; omega

theorem LowDigits.has {o o' k : Nat} {w : List Byte} (h : LowDigits o o' w) (hk : HasDigits o' k) : HasDigits o (k + w.length) := by
  obtain ⟨h1, h2, h3⟩ := hk
  have hlt := digitsValue_lt h.all
  have he := h.eq
  refine ⟨by omega, ?_, ?_⟩
  · rw [show k + w.length - 1 = (k - 1) + w.length by omega, Nat.pow_add]
    have := Nat.mul_le_mul_right (10 ^ w.length) h2
    omega
  · rw [Nat.pow_add]
    have := Nat.mul_le_mul_right (10 ^ w.length) (show o' + 1 ≤ 10 ^ k from h3)
    rw [Nat.add_mul] at this
    omega

/-- The digits of a number. -/
structure IsNumber (t : List Byte) (o : Nat) : Prop where
  all : AllDigits t
  value : digitsValue t = o
  ne : t ≠ []

theorem toCharsUint64_ok {o L : Nat} (ho : o < 100000000000000000) (hL : o = 0 ∨ HasDigits o L) :
    ∃ t, toCharsUint64 o L = some t ∧ IsNumber t o ∧ (o ≠ 0 → t.length = L) := by
  -- the upper half
  have half : ∃ o1 w1, charHalf o = some (o1, w1) ∧ LowDigits o o1 w1 ∧ o1 < 2 ^ 32 := by
    unfold charHalf
    have h0 : LowDigits o o [] := ⟨allDigits_nil, by simp [digitsValue], id⟩
    by_cases hb : o / 2 ^ 32 ≠ 0
    · rw [if_pos hb]
      obtain ⟨p0, e0, a0, v0, l0⟩ := digitPair_ok (c := o % 100000000 % 10000 % 100) (by omega)
      obtain ⟨p1, e1, a1, v1, l1⟩ := digitPair_ok (c := o % 100000000 % 10000 / 100) (by omega)
      obtain ⟨p2, e2, a2, v2, l2⟩ := digitPair_ok (c := o % 100000000 / 10000 % 10000 % 100) (by omega)
      obtain ⟨p3, e3, a3, v3, l3⟩ := digitPair_ok (c := o % 100000000 / 10000 % 10000 / 100) (by omega)
      refine ⟨o / 100000000, p3 ++ p2 ++ p1 ++ p0, ?_, ?_, by omega⟩
      · dsimp only; rw [e0, e1, e2, e3]; rfl
      · have := h0.push (k := 8) (c := o % 100000000) (p := p3 ++ p2 ++ p1 ++ p0) (((a3.append a2).append a1).append a0) ?_
          (by simp [l0, l1, l2, l3]) rfl (by norm_num; omega)
        · simpa using this
        · rw [digitsValue_append, digitsValue_append, digitsValue_append, v0, v1, v2, v3, l0, l1, l2]; norm_num; omega
    · rw [if_neg hb]; exact ⟨o, [], rfl, h0, by omega⟩
  obtain ⟨o1, w1, e1, h1, b1⟩ := half
  have hu : u32 o1 = o1 := Nat.mod_eq_of_lt b1
  obtain ⟨o2, w2, e2, h2, b2⟩ := charBlocks_ok 3 o1 w1 h1 (by
    rw [show (10 : Nat) ^ (4 * (3 + 1)) = 10000000000000000 by norm_num]; omega)
  have two : ∃ o3 w3, charTwo o2 w2 = some (o3, w3) ∧ LowDigits o o3 w3 ∧ o3 < 100 := by
    unfold charTwo
    by_cases hb : o2 ≥ 100
    · rw [if_pos hb]
      obtain ⟨p0, e0, a0, v0, l0⟩ := digitPair_ok (c := o2 % 100) (by omega)
      exact ⟨o2 / 100, p0 ++ w2, by rw [e0]; rfl, h2.push (k := 2) a0 v0 l0 rfl hb, by omega⟩
    · rw [if_neg hb]; exact ⟨o2, w2, rfl, h2, by omega⟩
  obtain ⟨o3, w3, e3, h3, b3⟩ := two
  have expand : toCharsUint64 o L = charFirst o3 w3 L := by
    unfold toCharsUint64
    simp only [e1, hu, e2, e3, Option.bind_eq_bind, Option.bind_some]
  rw [expand]
  unfold charFirst
  by_cases h10' : o3 ≥ 10
  · rw [if_pos h10']
    obtain ⟨p0, e0, a0, v0, l0⟩ := digitPair_ok (c := o3) b3
    have hd : HasDigits o (2 + w3.length) := h3.has ⟨by omega, by simpa using h10', by simpa using b3⟩
    have hone : 1 ≤ o := Nat.le_trans (Nat.pow_pos (by decide)) hd.2.1
    have hL' : L = 2 + w3.length := (hL.resolve_left (by omega)).unique hd
    refine ⟨p0 ++ w3, by rw [e0, Option.bind_eq_bind, Option.bind_some, if_pos hL'], ⟨a0.append h3.all, ?_, ?_⟩, fun _ => ?_⟩
    · rw [digitsValue_append, v0]; exact h3.eq.symm
    · intro h; have := congrArg List.length h; rw [List.length_append, l0] at this; simp at this
    · rw [List.length_append, l0, hL']
  · rw [if_neg h10']
    obtain ⟨a0, v0⟩ := digit_one (n := o3) (by omega)
    have hw : (w3 = [] ∨ L = 1 + w3.length) ∧ (o ≠ 0 → L = 1 + w3.length) := by
      rcases Nat.eq_zero_or_pos o with hz | hz
      · refine ⟨.inl ?_, fun h => absurd hz h⟩
        -- zero: nothing was split off
        have : o1 = 0 ∧ w1 = [] := by
          rw [charHalf, if_neg (by rw [hz]; decide)] at e1; cases e1; exact ⟨hz, rfl⟩
        obtain ⟨rfl, rfl⟩ := this
        cases e2
        cases e3
        rfl
      · have hp := h3.pos hz
        have hd : HasDigits o (1 + w3.length) := h3.has ⟨by omega, by simp; omega, by simp; omega⟩
        have hL' : L = 1 + w3.length := (hL.resolve_left (by omega)).unique hd
        exact ⟨.inr hL', fun _ => hL'⟩
    refine ⟨digit o3 :: w3, by rw [if_pos hw.1], ⟨a0.append h3.all, ?_, by simp⟩, fun h => ?_⟩
    · rw [show digit o3 :: w3 = [digit o3] ++ w3 from rfl, digitsValue_append, v0]; exact h3.eq.symm
    · rw [hw.2 h, List.length_cons]; omega

theorem decimalLength17_ok {o : Nat} (h0 : 0 < o) (h : o < 100000000000000000) : HasDigits o (decimalLength17 o) ∧ decimalLength17 o ≤ 17 := by
  have fin : ∀ L, 1 ≤ L → L ≤ 17 → 10 ^ (L - 1) ≤ o → o < 10 ^ L → HasDigits o L ∧ L ≤ 17 := fun L a b c d => ⟨⟨a, c, d⟩, b⟩
  unfold decimalLength17
  by_cases c17 : o ≥ 10000000000000000
  · rw [if_pos c17]; exact fin 17 (by decide) (by decide) (by norm_num; omega) (by norm_num; omega)
  rw [if_neg c17]
  by_cases c16 : o ≥ 1000000000000000
  · rw [if_pos c16]; exact fin 16 (by decide) (by decide) (by norm_num; omega) (by norm_num; omega)
  rw [if_neg c16]
  by_cases c15 : o ≥ 100000000000000
  · rw [if_pos c15]; exact fin 15 (by decide) (by decide) (by norm_num; omega) (by norm_num; omega)
  rw [if_neg c15]
  by_cases c14 : o ≥ 10000000000000
  · rw [if_pos c14]; exact fin 14 (by decide) (by decide) (by norm_num; omega) (by norm_num; omega)
  rw [if_neg c14]
  by_cases c13 : o ≥ 1000000000000
  · rw [if_pos c13]; exact fin 13 (by decide) (by decide) (by norm_num; omega) (by norm_num; omega)
  rw [if_neg c13]
  by_cases c12 : o ≥ 100000000000
  · rw [if_pos c12]; exact fin 12 (by decide) (by decide) (by norm_num; omega) (by norm_num; omega)
  rw [if_neg c12]
  by_cases c11 : o ≥ 10000000000
  · rw [if_pos c11]; exact fin 11 (by decide) (by decide) (by norm_num; omega) (by norm_num; omega)
  rw [if_neg c11]
  by_cases c10 : o ≥ 1000000000
  · rw [if_pos c10]; exact fin 10 (by decide) (by decide) (by norm_num; omega) (by norm_num; omega)
  rw [if_neg c10]
  by_cases c9 : o ≥ 100000000
  · rw [if_pos c9]; exact fin 9 (by decide) (by decide) (by norm_num; omega) (by norm_num; omega)
  rw [if_neg c9]
  by_cases c8 : o ≥ 10000000
  · rw [if_pos c8]; exact fin 8 (by decide) (by decide) (by norm_num; omega) (by norm_num; omega)
  rw [if_neg c8]
  by_cases c7 : o ≥ 1000000
  · rw [if_pos c7]; exact fin 7 (by decide) (by decide) (by norm_num; omega) (by norm_num; omega)
  rw [if_neg c7]
  by_cases c6 : o ≥ 100000
  · rw [if_pos c6]; exact fin 6 (by decide) (by decide) (by norm_num; omega) (by norm_num; omega)
  rw [if_neg c6]
  by_cases c5 : o ≥ 10000
  · rw [if_pos c5]; exact fin 5 (by decide) (by decide) (by norm_num; omega) (by norm_num; omega)
  rw [if_neg c5]
  by_cases c4 : o ≥ 1000
  · rw [if_pos c4]; exact fin 4 (by decide) (by decide) (by norm_num; omega) (by norm_num; omega)
  rw [if_neg c4]
  by_cases c3 : o ≥ 100
  · rw [if_pos c3]; exact fin 3 (by decide) (by decide) (by norm_num; omega) (by norm_num; omega)
  rw [if_neg c3]
  by_cases c2 : o ≥ 10
  · rw [if_pos c2]; exact fin 2 (by decide) (by decide) (by norm_num; omega) (by norm_num; omega)
  rw [if_neg c2]
  exact fin 1 (by decide) (by decide) (by norm_num; omega) (by norm_num; omega)

end Verif
