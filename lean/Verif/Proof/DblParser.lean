import Verif.Proof.PrintDouble
/-!
# There is a correct parser
-/
namespace Verif

theorem RoundsTo.toNearest {f : Dbl} {x : ℚ} (hf : f.Finite) (h : RoundsTo f.bits x) : Nearest x f := by
  refine ⟨hf, fun g _ => ?_⟩
  rw [f.magnitude_eq, g.magnitude_eq, f.significand_even]
  by_cases hg : g.bits = f.bits
  · rw [hg]; exact ⟨le_refl _, fun _ h => absurd rfl h⟩
  · obtain ⟨h1, h2⟩ := h.nearest hg
    exact ⟨h1, fun h _ => h2 h⟩

/-- Every number that does not overflow rounds to a double. -/
theorem exists_rounds {x : ℚ} (h0 : 0 ≤ x) (h1 : x < 2 ^ 1024 - 2 ^ 970) : ∃ n, n ≤ bitsMax ∧ RoundsTo n x := by
  classical
  obtain ⟨n, hn⟩ : ∃ n, n = Nat.findGreatest (fun n => magN n ≤ x) bitsMax := ⟨_, rfl⟩
  have hle : n ≤ bitsMax := by rw [hn]; exact Nat.findGreatest_le _
  have hlo : magN n ≤ x := by
    rw [hn]; exact Nat.findGreatest_spec (P := fun n => magN n ≤ x) (Nat.zero_le bitsMax) (by rw [magN_zero]; exact h0)
  have g1 := gap_pos n
  have g2 := gap_pos (n - 1)
  rcases Nat.lt_or_eq_of_le hle with hlt | heq
  · have hhi : x < magN (n + 1) := by
      by_contra hc
      have := Nat.le_findGreatest (P := fun n => magN n ≤ x) hlt (not_lt.mp hc)
      rw [← hn] at this
      omega
    have hs := magN_succ n
    by_cases hmid : x < magN n + gap n / 2 ∨ (x = magN n + gap n / 2 ∧ n % 2 = 0)
    · refine ⟨n, hle, ⟨by linarith, ?_, fun _ => by linarith, fun ho => ?_⟩⟩
      · rcases hmid with h | ⟨h, _⟩ <;> linarith
      · rcases hmid with h | ⟨_, h⟩
        · exact h
        · omega
    · have g3 := gap_pos (n + 1)
      push Not at hmid
      refine ⟨n + 1, hlt, ⟨?_, by linarith, fun ho => ?_, fun _ => by linarith⟩⟩
      · rw [Nat.add_sub_cancel]; linarith [hmid.1]
      · rw [Nat.add_sub_cancel]
        rcases lt_or_eq_of_le hmid.1 with h | h
        · linarith
        · have := hmid.2 h.symm; omega
  · have e1 := magN_max
    have e2 := gap_max
    have e3 : (2 : ℚ) ^ 971 = 2 ^ 970 * 2 := pow_succ 2 970
    have hhi : x < magN n + gap n / 2 := by
      rw [heq]
      rw [e2, e3] at e1 ⊢
      rw [← e1] at h1
      generalize (2 : ℚ) ^ 970 = B at *
      clear e1 e2 e3
      linarith
    exact ⟨n, hle, ⟨by linarith, hhi.le, fun _ => by linarith, fun _ => hhi⟩⟩

/-- The double with the given bits. -/
def ofBits (neg : Bool) (n : Nat) : Dbl := BitVec.ofNat 64 (n + if neg then 2 ^ 63 else 0)

theorem ofBits_ok (neg : Bool) {n : Nat} (h : n ≤ bitsMax) : (ofBits neg n).bits = n ∧ (ofBits neg n).negative = neg := by
  unfold bitsMax at h
  unfold ofBits Dbl.bits Dbl.negative
  rw [BitVec.toNat_ofNat]
  cases neg
  · simp only [Bool.false_eq_true, if_false]
    exact ⟨by omega, by rw [decide_eq_false]; omega⟩
  · simp only [if_true]
    exact ⟨by omega, by rw [decide_eq_true]; omega⟩

theorem exists_nearest {x : ℚ} (neg : Bool) (h0 : 0 ≤ x) (h1 : x < 2 ^ 1024 - 2 ^ 970) : ∃ f : Dbl, f.negative = neg ∧ Nearest x f := by
  obtain ⟨n, h2, h3⟩ := exists_rounds h0 h1
  obtain ⟨e1, e2⟩ := ofBits_ok neg h2
  refine ⟨ofBits neg n, e2, RoundsTo.toNearest (Dbl.finite_bits.mpr (by rw [e1]; exact h2)) (by rw [e1]; exact h3)⟩

theorem DecimalText.nonneg {t : List Byte} {neg : Bool} {x : ℚ} (h : DecimalText t neg x) : 0 ≤ x := by
  obtain ⟨int, frac, exp, e, h1, h2, h3, h4, h5, h6⟩ := h
  rw [h6]
  exact mul_nonneg (by positivity) (zpow_nonneg (by norm_num) _)

/-- Not a digit, or nothing. -/
def EndsNumber (l : List Byte) : Prop := ∀ b r, l = b :: r → ¬ (48 ≤ b.toNat ∧ b.toNat ≤ 57)

theorem digits_split : ∀ {a a' r r' : List Byte}, AllDigits a → AllDigits a' → EndsNumber r → EndsNumber r' → a ++ r = a' ++ r' → a = a' ∧ r = r'
  | [], [], _, _, _, _, _, _, h => ⟨rfl, h⟩
  | [], b :: a', r, r', _, h2, h3, _, h => by
    exact absurd (h2 b List.mem_cons_self) (h3 b (a' ++ r') h)
  | b :: a, [], r, r', h1, _, _, h4, h => by
    exact absurd (h1 b List.mem_cons_self) (h4 b (a ++ r) h.symm)
  | b :: a, c :: a', r, r', h1, h2, h3, h4, h => by
    injection h with e1 e2
    obtain ⟨e3, e4⟩ := digits_split (fun x hx => h1 x (List.mem_cons_of_mem _ hx)) (fun x hx => h2 x (List.mem_cons_of_mem _ hx)) h3 h4 e2
    exact ⟨by rw [e1, e3], e4⟩

theorem endsNumber_nil : EndsNumber [] := fun _ _ h => by cases h
theorem endsNumber_cons {b : Byte} {l : List Byte} (h : ¬ (48 ≤ b.toNat ∧ b.toNat ≤ 57)) : EndsNumber (b :: l) := fun c r e => by
  injection e with e1 _; rw [← e1]; exact h

theorem half_gap_zero : gap 0 / 2 = 2 ^ (-1075 : Int) := by
  have e : gap 0 = 2 ^ (-1074 : Int) := by unfold gap; congr 1
  rw [e, show (-1074 : Int) = -1075 + 1 by norm_num, zpow_add₀ (by norm_num), zpow_one]
  generalize (2 : ℚ) ^ (-1075 : Int) = A
  ring

/-- What rounds to a double that is not zero is more than half of the least of them. -/
theorem RoundsTo.above {n : Nat} {x : ℚ} (h : RoundsTo n x) (hn : n ≠ 0) : 2 ^ (-1075 : Int) < x := by
  rw [← half_gap_zero]
  rcases (by omega : n = 1 ∨ 2 ≤ n) with rfl | h2
  · have h1 := h.loS rfl
    have h3 := magN_succ 0
    rw [magN_zero, Nat.zero_add] at h3
    rw [h3, Nat.sub_self, zero_add, sub_half] at h1
    exact h1
  · have h1 := h.lo
    have h3 := magN_succ (n - 1)
    rw [Nat.sub_add_cancel (by omega)] at h3
    have h4 : magN (0 + 1) ≤ magN (n - 1) := magN_strictMono.monotone (by omega)
    rw [magN_succ, magN_zero] at h4
    have := gap_pos (n - 1)
    have := gap_pos 0
    linarith

/-- What follows the digits before the point. -/
def decTail (frac exp : List Byte) : List Byte := (if frac = [] then [] else str "." ++ frac) ++ exp

/-- The exponent part. -/
def ExpPart (exp : List Byte) (e : Int) : Prop :=
  (exp = [] ∧ e = 0) ∨ ∃ ds, AllDigits ds ∧ ds ≠ [] ∧ ((exp = str "e+" ++ ds ∧ e = digitsValue ds) ∨ (exp = str "e-" ++ ds ∧ e = -(digitsValue ds : Int)))

theorem ExpPart.head {exp : List Byte} {e : Int} (h : ExpPart exp e) : exp = [] ∨ ∃ r, exp = 101#8 :: r := by
  rcases h with ⟨h, _⟩ | ⟨ds, _, _, ⟨h, _⟩ | ⟨h, _⟩⟩
  · exact .inl h
  · exact .inr ⟨_, h⟩
  · exact .inr ⟨_, h⟩

theorem ExpPart.ends {exp : List Byte} {e : Int} (h : ExpPart exp e) : EndsNumber exp := by
  rcases h.head with h | ⟨r, h⟩
  · rw [h]; exact endsNumber_nil
  · rw [h]; exact endsNumber_cons (by decide)

theorem ExpPart.unique {exp : List Byte} {e e' : Int} (h : ExpPart exp e) (h' : ExpPart exp e') : e = e' := by
  rcases h with ⟨h, he⟩ | ⟨ds, _, _, ⟨h, he⟩ | ⟨h, he⟩⟩ <;> rcases h' with ⟨h', he'⟩ | ⟨ds', _, _, ⟨h', he'⟩ | ⟨h', he'⟩⟩
  all_goals rw [h] at h'
  · rw [he, he']
  · cases h'
  · cases h'
  · cases h'
  · have : ds = ds' := by injection h' with _ h'; injection h'
    rw [he, he', this]
  · exfalso; injection h' with _ h'; injection h' with h' _; exact absurd h' (by decide)
  · cases h'
  · exfalso; injection h' with _ h'; injection h' with h' _; exact absurd h' (by decide)
  · have : ds = ds' := by injection h' with _ h'; injection h'
    rw [he, he', this]

theorem decTail_ends {frac exp : List Byte} {e : Int} (h : ExpPart exp e) : EndsNumber (decTail frac exp) := by
  unfold decTail
  by_cases hf : frac = []
  · rw [if_pos hf]; exact h.ends
  · rw [if_neg hf]; exact endsNumber_cons (b := 46#8) (by decide)

theorem decTail_unique {frac frac' exp exp' : List Byte} {e e' : Int} (hf : AllDigits frac) (hf' : AllDigits frac') (h : ExpPart exp e) (h' : ExpPart exp' e')
    (heq : decTail frac exp = decTail frac' exp') : frac = frac' ∧ exp = exp' := by
  unfold decTail at heq
  by_cases c : frac = [] <;> by_cases c' : frac' = []
  · rw [if_pos c, if_pos c'] at heq
    exact ⟨by rw [c, c'], heq⟩
  · rw [if_pos c, if_neg c'] at heq
    exfalso
    have heq : exp = 46#8 :: (frac' ++ exp') := heq
    rcases h.head with h | ⟨r, h⟩ <;> rw [h] at heq
    · cases heq
    · injection heq with a _; exact absurd a (by decide)
  · rw [if_neg c, if_pos c'] at heq
    exfalso
    have heq : 46#8 :: (frac ++ exp) = exp' := heq
    rcases h'.head with h | ⟨r, h⟩ <;> rw [h] at heq
    · cases heq
    · injection heq with a _; exact absurd a (by decide)
  · rw [if_neg c, if_neg c'] at heq
    have heq : 46#8 :: (frac ++ exp) = 46#8 :: (frac' ++ exp') := heq
    injection heq with _ heq
    exact digits_split hf hf' h.ends h'.ends heq

/-- A text has at most one value. -/
theorem DecimalText.unique {t : List Byte} {neg neg' : Bool} {x x' : ℚ} (h : DecimalText t neg x) (h' : DecimalText t neg' x') :
    neg = neg' ∧ x = x' := by
  obtain ⟨int, frac, exp, e, h1, h2, h3, h4, h5, h6⟩ := h
  obtain ⟨int', frac', exp', e', h1', h2', h3', h4', h5', h6'⟩ := h'
  have t1 : t = (if neg then str "-" else []) ++ (int ++ decTail frac exp) := by rw [h4]; unfold decTail; simp only [List.append_assoc]
  have t2 : t = (if neg' then str "-" else []) ++ (int' ++ decTail frac' exp') := by rw [h4']; unfold decTail; simp only [List.append_assoc]
  have d1 : ∀ {i r}, AllDigits i → i ≠ [] → ∀ l, i ++ r ≠ 45#8 :: l := by
    intro i r hi hne l he
    match i, hi, hne with
    | b :: i, hi, _ =>
      injection he with he _
      have := hi b List.mem_cons_self
      rw [he] at this
      exact absurd this (by decide)
  have hneg : neg = neg' := by
    cases neg <;> cases neg'
    · rfl
    · exact absurd (t1.symm.trans t2) (d1 h1 h2 _)
    · exact absurd (t2.symm.trans t1) (d1 h1' h2' _)
    · rfl
  subst hneg
  have heq := List.append_cancel_left (t1.symm.trans t2)
  obtain ⟨a1, a2⟩ := digits_split h1 h1' (decTail_ends h5) (decTail_ends h5') heq
  obtain ⟨a3, a4⟩ := decTail_unique h3 h3' h5 h5' a2
  subst a1 a3 a4
  have he := ExpPart.unique h5 h5'
  exact ⟨rfl, by rw [h6, h6', he]⟩

open Classical in
/-- A correct parser, by choice. -/
noncomputable def chosenParser (t : List Byte) : Option Dbl :=
  if h : ∃ (neg : Bool) (x : ℚ), DecimalText t neg x ∧ x < 2 ^ 1024 - 2 ^ 970 then
    some (exists_nearest h.choose h.choose_spec.choose_spec.1.nonneg h.choose_spec.choose_spec.2).choose
  else none

theorem chosenParser_correct : CorrectParser chosenParser := by
  intro t neg x _ ht hx _
  have h : ∃ (neg : Bool) (x : ℚ), DecimalText t neg x ∧ x < 2 ^ 1024 - 2 ^ 970 := ⟨neg, x, ht, hx⟩
  obtain ⟨e1, e2⟩ := ht.unique h.choose_spec.choose_spec.1
  have hs := (exists_nearest h.choose h.choose_spec.choose_spec.1.nonneg h.choose_spec.choose_spec.2).choose_spec
  refine ⟨_, by unfold chosenParser; rw [dif_pos h], by rw [e1]; exact hs.1, by rw [e2]; exact hs.2⟩

theorem chosenParser_none {t : List Byte} (h : ∀ neg x, ¬ DecimalText t neg x) : chosenParser t = none := by
  unfold chosenParser
  rw [dif_neg]
  rintro ⟨neg, x, h1, _⟩
  exact h neg x h1

end Verif
