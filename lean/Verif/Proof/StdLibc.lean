import Verif.Proof.StdNumbers
import Mathlib.Data.Rat.Floor
import Mathlib.Algebra.Order.Archimedean.Basic
/-!
# There is a C library that does what the standard says
-/
namespace Verif
open Spec

/-! ## Digits -/

/-- The digits of a number. -/
def natDigits (n : Nat) : List Byte := if n < 10 then [digit n] else natDigits (n / 10) ++ [digit (n % 10)]
termination_by n
decreasing_by omega

/-- The last digits of a number. -/
def padDigits : Nat → Nat → List Byte
  | 0, _ => []
  | p + 1, n => padDigits p (n / 10) ++ [digit (n % 10)]

theorem digit_zero_iff {n : Nat} (h : n < 10) : digit n = 48 ↔ n = 0 := by
  constructor
  · intro hd
    have h1 := (digit_one h).2
    rw [hd] at h1
    exact h1.symm
  · rintro rfl; decide

theorem natDigits_ok (n : Nat) : AllDigits (natDigits n) ∧ natDigits n ≠ [] ∧ digitsValue (natDigits n) = n ∧
    ∀ r, natDigits n = 48 :: r → n = 0 ∧ r = [] := by
  induction n using Nat.strongRecOn with
  | _ n ih =>
    unfold natDigits
    by_cases h : n < 10
    · rw [if_pos h]
      refine ⟨(digit_one h).1, by simp, (digit_one h).2, fun r hr => ?_⟩
      injection hr with h1 h2
      exact ⟨(digit_zero_iff h).mp h1, h2.symm⟩
    · rw [if_neg h]
      obtain ⟨a1, a2, a3, a4⟩ := ih (n / 10) (by omega)
      have hd := digit_one (n := n % 10) (by omega)
      refine ⟨a1.append hd.1, by simp, ?_, fun r hr => ?_⟩
      · rw [digitsValue_append, a3, hd.2]
        simp only [List.length_cons, List.length_nil]
        omega
      · cases hc : natDigits (n / 10) with
        | nil => exact absurd hc a2
        | cons b w =>
          rw [hc] at hr
          injection hr with h1 _
          have := (a4 w (by rw [hc, h1])).1
          omega

theorem padDigits_ok (p n : Nat) : AllDigits (padDigits p n) ∧ (padDigits p n).length = p ∧ digitsValue (padDigits p n) = n % 10 ^ p := by
  induction p generalizing n with
  | zero => exact ⟨allDigits_nil, rfl, by simp [padDigits, digitsValue, Nat.mod_one]⟩
  | succ p ih =>
    obtain ⟨a1, a2, a3⟩ := ih (n / 10)
    have hd := digit_one (n := n % 10) (by omega)
    refine ⟨a1.append hd.1, by simp [padDigits, a2], ?_⟩
    rw [padDigits, digitsValue_append, a3, hd.2]
    simp only [List.length_cons, List.length_nil]
    have e : n % 10 ^ (p + 1) = n % 10 + 10 * (n / 10 % 10 ^ p) := by rw [Nat.pow_succ, Nat.mul_comm (10 ^ p) 10, Nat.mod_mul]
    rw [e]
    omega

/-- Every rational that is not negative can be rounded to an integer, ties to even. -/
theorem round_exists {x : ℚ} (h : 0 ≤ x) : ∃ k : Nat, |(k : ℚ) - x| ≤ 1 / 2 ∧ (|(k : ℚ) - x| = 1 / 2 → k % 2 = 0) := by
  have h1 := Nat.floor_le h
  have h2 := Nat.lt_floor_add_one x
  generalize ⌊x⌋₊ = n at *
  rcases lt_trichotomy (x - n) (1 / 2) with hc | hc | hc
  · have e : |(n : ℚ) - x| < 1 / 2 := abs_lt.mpr ⟨by linarith, by linarith⟩
    exact ⟨n, e.le, fun h => absurd h e.ne⟩
  · rcases Nat.mod_two_eq_zero_or_one n with hn | hn
    · exact ⟨n, abs_le.mpr ⟨by linarith, by linarith⟩, fun _ => hn⟩
    · exact ⟨n + 1, by push_cast; exact abs_le.mpr ⟨by linarith, by linarith⟩, fun _ => by omega⟩
  · have e : |((n + 1 : Nat) : ℚ) - x| < 1 / 2 := by push_cast; exact abs_lt.mpr ⟨by linarith, by linarith⟩
    exact ⟨n + 1, e.le, fun h => absurd h e.ne⟩

theorem fixed_exists (p : Nat) (f : Dbl) : ∃ t, ∃ k : Nat, PlainText p t f.negative k ∧ RoundedTo p f.magnitude (k / 10 ^ p) := by
  have h0 : 0 ≤ f.magnitude * 10 ^ p := by rw [f.magnitude_eq]; exact mul_nonneg (magN_nonneg _) (by positivity)
  obtain ⟨k, h1, h2⟩ := round_exists h0
  obtain ⟨a1, a2, a3, a4⟩ := natDigits_ok (k / 10 ^ p)
  obtain ⟨b1, b2, b3⟩ := padDigits_ok p k
  refine ⟨_, k, ⟨natDigits (k / 10 ^ p), padDigits p k, a1, a2, fun r hr => (a4 r hr).2, b1, b2, rfl, ?_⟩, k, rfl, h1, h2⟩
  rw [digitsValue_append, a3, b2, b3, Nat.mul_comm]
  exact Nat.div_add_mod k (10 ^ p)

theorem sci_digits {m : ℚ} (hm : 10 ^ 17 < m) : ∃ k e : Nat, 17 ≤ e ∧ 10 ^ 16 ≤ k ∧ k < 10 ^ 17 ∧ |(k : ℚ) - m * 10 ^ (16 - (e : Int))| ≤ 1 / 2 := by
  obtain ⟨e, e1, e2⟩ := exists_nat_pow_near (x := m) (y := 10) (by linarith [show (1 : ℚ) ≤ 10 ^ 17 by norm_num]) (by norm_num)
  have he : 17 ≤ e := by
    by_contra hc
    have : (10 : ℚ) ^ (e + 1) ≤ 10 ^ 17 := pow_le_pow_right₀ (by norm_num) (by omega)
    linarith
  have hu : (0 : ℚ) < 10 ^ (16 - (e : Int)) := zpow_pos (by norm_num) _
  obtain ⟨k, h1, _⟩ := round_exists (x := m * 10 ^ (16 - (e : Int))) (mul_nonneg (by linarith [show (0 : ℚ) ≤ 10 ^ 17 by norm_num]) hu.le)
  have l1 : (10 : ℚ) ^ 16 ≤ m * 10 ^ (16 - (e : Int)) := by
    have := mul_le_mul_of_nonneg_right e1 hu.le
    rw [← zpow_natCast, ← zpow_add₀ (by norm_num)] at this
    have e3 : (e : Int) + (16 - e) = (16 : Nat) := by push_cast; ring
    rw [e3, zpow_natCast] at this
    exact this
  have l2 : m * 10 ^ (16 - (e : Int)) < (10 : ℚ) ^ 17 := by
    have := mul_lt_mul_of_pos_right e2 hu
    rw [← zpow_natCast, ← zpow_add₀ (by norm_num)] at this
    have e3 : ((e + 1 : Nat) : Int) + (16 - e) = (17 : Nat) := by push_cast; ring
    rw [e3, zpow_natCast] at this
    exact this
  obtain ⟨a, b⟩ := abs_le.mp h1
  have k1 : 10 ^ 16 ≤ k := by
    by_contra hc
    have : (k : ℚ) + 1 ≤ 10 ^ 16 := by exact_mod_cast (by omega : k + 1 ≤ 10 ^ 16)
    linarith
  have k2 : k ≤ 10 ^ 17 := by
    by_contra hc
    have : (10 : ℚ) ^ 17 + 1 ≤ k := by exact_mod_cast (by omega : 10 ^ 17 + 1 ≤ k)
    linarith
  rcases Nat.lt_or_eq_of_le k2 with k2 | k2
  · exact ⟨k, e, he, k1, k2, h1⟩
  · refine ⟨10 ^ 16, e + 1, by omega, le_refl _, by norm_num, ?_⟩
    have e4 : (10 : ℚ) ^ (16 - ((e + 1 : Nat) : Int)) * 10 = 10 ^ (16 - (e : Int)) := by
      rw [← zpow_add_one₀ (by norm_num)]
      congr 1
      push_cast
      ring
    rw [k2] at a b
    push_cast at a b ⊢
    push_cast at e4
    rw [← e4] at a b
    generalize (10 : ℚ) ^ (16 - ((e : Int) + 1)) = v at *
    exact abs_le.mpr ⟨by linarith, by linarith⟩

theorem sci_text (neg : Bool) {k e : Nat} (he : 17 ≤ e) (k1 : 10 ^ 16 ≤ k) (k2 : k < 10 ^ 17) : ∃ t, SciText 16 t neg k e := by
  obtain ⟨b1, b2, b3⟩ := padDigits_ok 16 k
  obtain ⟨a1, a2, a3, a4⟩ := natDigits_ok e
  have hlt : k / 10 ^ 16 < 10 := by omega
  have hne : k / 10 ^ 16 ≠ 0 := by omega
  have hdm := Nat.div_add_mod k (10 ^ 16)
  generalize k / 10 ^ 16 = d at *
  generalize padDigits 16 k = fr at *
  generalize natDigits e = ds at *
  have hd := digit_one hlt
  have hds : 2 ≤ ds.length := by
    by_contra hc
    have := digitsValue_lt a1
    rw [a3] at this
    have : 10 ^ ds.length ≤ 10 ^ 1 := Nat.pow_le_pow_right (by decide) (by omega)
    omega
  have hv : digitsValue (digit d :: fr) = k := by
    have := digitsValue_append [digit d] fr
    rw [hd.2, b2, b3, Nat.mul_comm, hdm] at this
    exact this
  exact ⟨_, digit d, fr, ds, hd.1.append b1, fun h => hne ((digit_zero_iff hlt).mp h), b2, a1, hds, fun r hr => absurd (a4 r hr).1 (by omega), rfl, hv, a3⟩

theorem sci_exists {f : Dbl} (hm : 10 ^ 17 < f.magnitude) : ∃ t, ∃ k e : Nat, SciText 16 t f.negative k e ∧
    |(k : ℚ) - f.magnitude * 10 ^ (16 - (e : Int))| ≤ 1 / 2 := by
  obtain ⟨k, e, he, k1, k2, hk⟩ := sci_digits hm
  obtain ⟨t, ht⟩ := sci_text f.negative he k1 k2
  exact ⟨t, k, e, ht, hk⟩

/-! ## Values -/

theorem exponentText_ends {l : List Byte} {e : Int} (h : ExponentText l e) : EndsNumber l := by
  rcases h with ⟨h, _⟩ | ⟨c, sign, ds, hc, _, _, h, _⟩
  · rw [h]; exact endsNumber_nil
  · rw [h]; rcases hc with rfl | rfl <;> exact endsNumber_cons (by decide)

theorem exponentText_unique {l : List Byte} {e e' : Int} (h : ExponentText l e) (h' : ExponentText l e') : e = e' := by
  have dig : ∀ {ds : List Byte} {b : Byte} {r : List Byte}, AllDigits ds → ds = b :: r → ¬ (48 ≤ b.toNat ∧ b.toNat ≤ 57) → False :=
    fun hd h hb => hb (hd _ (by rw [h]; exact List.mem_cons_self))
  rcases h with ⟨h, he⟩ | ⟨c, sign, ds, hc, hd, hne, h, hs⟩ <;> rcases h' with ⟨h', he'⟩ | ⟨c', sign', ds', hc', hd', hne', h', hs'⟩
  · rw [he, he']
  · rw [h] at h'; cases h'
  · rw [h] at h'; cases h'
  · rw [h] at h'
    injection h' with _ h'
    rcases hs with ⟨rfl | rfl, he⟩ | ⟨rfl, he⟩ <;> rcases hs' with ⟨rfl | rfl, he'⟩ | ⟨rfl, he'⟩
    · have h' : ds = ds' := h'
      rw [he, he', h']
    · exact (dig hd (show ds = 43 :: ds' from h') (by decide)).elim
    · exact (dig hd (show ds = 45 :: ds' from h') (by decide)).elim
    · exact (dig hd' (show ds' = 43 :: ds from h'.symm) (by decide)).elim
    · injection h' with _ h'
      have h' : ds = ds' := h'
      rw [he, he', h']
    · injection h' with h' _; exact absurd h' (by decide)
    · exact (dig hd' (show ds' = 45 :: ds from h'.symm) (by decide)).elim
    · injection h' with h' _; exact absurd h' (by decide)
    · injection h' with _ h'
      have h' : ds = ds' := h'
      rw [he, he', h']

theorem FloatText.unique {t : List Byte} {x x' : ℚ} (h : FloatText t false x) (h' : FloatText t false x') : x = x' := by
  obtain ⟨int, point, frac, exp, e, hi, hf, _, hp, he, hs, hx⟩ := h
  obtain ⟨int', point', frac', exp', e', hi', hf', _, hp', he', hs', hx'⟩ := h'
  simp only [Bool.false_eq_true, if_false, List.nil_append] at hs hs'
  have tail : ∀ {point frac exp : List Byte} {e : Int}, ((point = [] ∧ frac = []) ∨ point = str ".") → ExponentText exp e → EndsNumber (point ++ (frac ++ exp)) := by
    rintro point frac exp e (⟨rfl, rfl⟩ | rfl) he
    · exact exponentText_ends he
    · exact endsNumber_cons (b := 46) (by decide)
  have nodot : ∀ {exp : List Byte} {e : Int} {r : List Byte}, ExponentText exp e → exp = 46 :: r → False := by
    rintro exp e r (⟨h, _⟩ | ⟨c, sign, ds, hc, _, _, h, _⟩) hr
    · rw [h] at hr; cases hr
    · rw [h] at hr
      injection hr with hr _
      rcases hc with rfl | rfl <;> exact absurd hr (by decide)
  obtain ⟨e1, e2⟩ := digits_split hi hi' (tail hp he) (tail hp' he') (hs.symm.trans hs')
  have : frac = frac' ∧ exp = exp' := by
    rcases hp with ⟨rfl, rfl⟩ | rfl <;> rcases hp' with ⟨rfl, rfl⟩ | rfl
    · exact ⟨rfl, e2⟩
    · exact (nodot he (show exp = 46 :: _ from e2)).elim
    · exact (nodot he' (show exp' = 46 :: _ from e2.symm)).elim
    · injection e2 with _ e2
      exact digits_split hf hf' (exponentText_ends he) (exponentText_ends he') e2
  obtain ⟨rfl, rfl⟩ := this
  subst e1
  rw [hx, hx', exponentText_unique he he']

/-- Begins with neither sign. -/
def NoSign (l : List Byte) : Prop := ∀ b r, l = b :: r → b ≠ 43 ∧ b ≠ 45

theorem floatText_noSign {t : List Byte} {x : ℚ} (h : FloatText t false x) : NoSign t := by
  rintro b r rfl
  rcases floatText_head h with ⟨h, _⟩ | ⟨_, h | rfl⟩
  · cases h
  · exact ⟨fun hc => by rw [hc] at h; exact absurd h (by decide), fun hc => by rw [hc] at h; exact absurd h (by decide)⟩
  · decide

theorem infText_head {b : Byte} {r : List Byte} (h : InfText (b :: r)) : b = 105 ∨ b = 73 := by
  have : lowerCase b = 105 := by
    rcases h with h | h <;> (injection h with h _)
  unfold lowerCase at this
  split at this
  · right
    have h2 := congrArg BitVec.toNat this
    rw [BitVec.toNat_add] at h2
    apply BitVec.eq_of_toNat_eq
    have e1 : (32 : Byte).toNat = 32 := rfl
    have e2 : (105 : Byte).toNat = 105 := rfl
    have e3 : (73 : Byte).toNat = 73 := rfl
    omega
  · exact Or.inl this

theorem infText_noSign {t : List Byte} (h : InfText t) : NoSign t := by
  rintro b r rfl
  rcases infText_head h with rfl | rfl <;> decide

theorem infText_not_float {t : List Byte} {x : ℚ} (h : InfText t) (h' : FloatText t false x) : False := by
  cases t with
  | nil => exact floatText_ne_nil h'
  | cons b r =>
    rcases floatText_head h' with ⟨h1, _⟩ | ⟨_, h1⟩
    · cases h1
    · rcases infText_head h with rfl | rfl <;> exact absurd h1 (by decide)

theorem sign_unique {sign sign' body body' : List Byte} (hs : sign = [] ∨ sign = str "+" ∨ sign = str "-") (hs' : sign' = [] ∨ sign' = str "+" ∨ sign' = str "-")
    (hb : NoSign body) (hb' : NoSign body') (h : sign ++ body = sign' ++ body') : sign = sign' ∧ body = body' := by
  rcases hs with rfl | rfl | rfl <;> rcases hs' with rfl | rfl | rfl
  · exact ⟨rfl, h⟩
  · exact absurd rfl (hb 43 body' h).1
  · exact absurd rfl (hb 45 body' h).2
  · exact absurd rfl (hb' 43 body h.symm).1
  · exact ⟨rfl, List.append_cancel_left h⟩
  · injection h with h _; exact absurd h (by decide)
  · exact absurd rfl (hb' 45 body h.symm).2
  · injection h with h _; exact absurd h (by decide)
  · exact ⟨rfl, List.append_cancel_left h⟩

theorem infinite_exists (neg : Bool) : ∃ f : Dbl, f.negative = neg ∧ IsInfinite f := by
  cases neg
  · exact ⟨0x7FF0000000000000#64, by decide, by unfold IsInfinite; decide⟩
  · exact ⟨0xFFF0000000000000#64, by decide, by unfold IsInfinite; decide⟩

theorem FloatText.nonneg {t : List Byte} {neg : Bool} {x : ℚ} (h : FloatText t neg x) : 0 ≤ x := by
  obtain ⟨int, point, frac, exp, e, _, _, _, _, _, _, hx⟩ := h
  rw [hx]
  exact mul_nonneg (by positivity) (zpow_nonneg (by norm_num) _)

theorem value_exists (s : List Byte) : ∃ f, HasValue s f := by
  by_cases h1 : ∃ sign body x, s = sign ++ body ∧ (sign = [] ∨ sign = str "+" ∨ sign = str "-") ∧ FloatText body false x
  · obtain ⟨sign, body, x, rfl, hs, hb⟩ := h1
    have : ∃ f : Dbl, f.negative = decide (sign = str "-") ∧ (x < 2 ^ 1024 - 2 ^ 970 → Nearest x f) ∧ (2 ^ 1024 - 2 ^ 970 ≤ x → IsInfinite f) := by
      by_cases hx : x < 2 ^ 1024 - 2 ^ 970
      · obtain ⟨f, f1, f2⟩ := exists_nearest (decide (sign = str "-")) hb.nonneg hx
        exact ⟨f, f1, fun _ => f2, fun h => absurd (hx.trans_le h) (lt_irrefl _)⟩
      · obtain ⟨f, f1, f2⟩ := infinite_exists (decide (sign = str "-"))
        exact ⟨f, f1, fun h => absurd h hx, fun _ => f2⟩
    obtain ⟨f, hf⟩ := this
    refine ⟨f, fun sign' body' he hs' => ⟨fun x' hb' => ?_, fun hb' => ?_⟩⟩
    · obtain ⟨rfl, rfl⟩ := sign_unique hs hs' (floatText_noSign hb) (floatText_noSign hb') he
      rw [hb'.unique hb]
      exact hf
    · obtain ⟨rfl, rfl⟩ := sign_unique hs hs' (floatText_noSign hb) (infText_noSign hb') he
      exact (infText_not_float hb' hb).elim
  · by_cases h2 : ∃ sign body, s = sign ++ body ∧ (sign = [] ∨ sign = str "+" ∨ sign = str "-") ∧ InfText body
    · obtain ⟨sign, body, rfl, hs, hb⟩ := h2
      obtain ⟨f, f1, f2⟩ := infinite_exists (decide (sign = str "-"))
      refine ⟨f, fun sign' body' he hs' => ⟨fun x' hb' => (h1 ⟨sign', body', x', he, hs', hb'⟩).elim, fun hb' => ?_⟩⟩
      obtain ⟨rfl, rfl⟩ := sign_unique hs hs' (infText_noSign hb) (infText_noSign hb') he
      exact ⟨f1, f2⟩
    · exact ⟨0, fun sign' body' he hs' => ⟨fun x' hb' => (h1 ⟨sign', body', x', he, hs', hb'⟩).elim, fun hb' => (h2 ⟨sign', body', he, hs', hb'⟩).elim⟩⟩

theorem strtod_exists (t : List Byte) : ∃ r : Nat × Dbl, (∀ s, Subject s → s <+: t.dropWhile isBlank →
    (∀ s', Subject s' → s' <+: t.dropWhile isBlank → s'.length ≤ s.length) → r.1 = (t.takeWhile isBlank).length + s.length ∧ HasValue s r.2) ∧
    ((∀ s, Subject s → ¬ s <+: t.dropWhile isBlank) → r.1 = 0) := by
  by_cases h : ∃ s, Subject s ∧ s <+: t.dropWhile isBlank
  · obtain ⟨s, s1, s2, s3⟩ := longest_prefix h
    obtain ⟨f, hf⟩ := value_exists s
    refine ⟨((t.takeWhile isBlank).length + s.length, f), fun s' a1 a2 a3 => ?_, fun hn => absurd s2 (hn s s1)⟩
    have e1 := s3 s' a1 a2
    have e2 := a3 s s1 s2
    have : s' = s := (List.prefix_of_prefix_length_le a2 s2 e1).eq_of_length (by omega)
    subst this
    exact ⟨rfl, hf⟩
  · exact ⟨(0, 0), fun s a1 a2 _ => (h ⟨s, a1, a2⟩).elim, fun _ => rfl⟩

theorem libc_exists : ∃ L, LibcOk L := by
  have hsci : ∀ f : Dbl, ∃ t, (10 ^ 17 < f.magnitude → f.Finite → ∃ k e : Nat, SciText 16 t f.negative k e ∧
      |(k : ℚ) - f.magnitude * 10 ^ (16 - (e : Int))| ≤ 1 / 2) ∧
      (IsInfinite f → t = (if f.negative then str "-" else []) ++ str "inf") := by
    intro f
    by_cases hf : f.Finite
    · have hi : ¬ IsInfinite f := fun h => by unfold IsInfinite at h; unfold Dbl.Finite at hf; omega
      by_cases hm : 10 ^ 17 < f.magnitude
      · obtain ⟨t, ht⟩ := sci_exists hm
        exact ⟨t, fun _ _ => ht, fun h => absurd h hi⟩
      · exact ⟨[], fun h _ => absurd h hm, fun h => absurd h hi⟩
    · exact ⟨_, fun _ h => absurd h hf, fun _ => rfl⟩
  refine ⟨⟨fun p f => (fixed_exists p f).choose, fun _ f => (hsci f).choose, fun t => (strtod_exists t).choose⟩, ⟨⟨fun p f _ => ?_, fun f hf hm => ?_, fun f hf => ?_⟩, ⟨fun t s _ _ => ?_, fun t _ _ => ?_⟩⟩⟩
  · exact (fixed_exists p f).choose_spec
  · exact (hsci f).choose_spec.1 hm hf
  · exact ⟨_, (hsci f).choose_spec.2 hf, Or.inl rfl⟩
  · exact (strtod_exists t).choose_spec.1 s
  · exact (strtod_exists t).choose_spec.2

end Verif
