import Verif.Proof.FFParse
/-!
# The longest number at the beginning of a text is read
-/
namespace Verif.FF
open Verif

attribute [local irreducible] powerOfFive128 computeFloat computeError digitComp natBits fromParsed outcome

/-! ## Texts without a number -/

theorem parse_none_body {t body : List Byte} (hs : afterSign t = some body) (h1 : EndsNumber body) (h2 : body.head? = some 46 → EndsNumber (body.drop 1)) :
    parseNumberString t = none := by
  have ha : digitLoop 0 body = (0, body) := by
    have := digitLoop_ok [] body 0 allDigits_nil h1
    simpa [digitsValue] using this
  have hint : spanTo body body = [] := by unfold spanTo; rw [Nat.sub_self]; rfl
  unfold parseNumberString
  rw [hs]
  simp only [ha, hint]
  by_cases hp : body.head? = some 46
  · have hb : digitLoop (eightLoop 0 (body.drop 1)).1 (eightLoop 0 (body.drop 1)).2 = (0, body.drop 1) := by
      have := fraction_ok (ds := []) allDigits_nil (h2 hp) 0
      simpa [digitsValue] using this
    simp only [hp, decide_true, if_true, hb, Int.sub_self]
    rfl
  · simp only [hp, decide_false, Bool.false_eq_true, if_false]
    rfl

theorem digit_number {b : Byte} (h : 48 ≤ b.toNat ∧ b.toNat ≤ 57) (neg : Bool) : ∃ x, FloatText ((if neg then str "-" else []) ++ [b]) neg x := by
  refine ⟨_, [b], [], [], [], 0, ?_, ?_, by simp, Or.inl ⟨rfl, rfl⟩, Or.inl ⟨rfl, rfl⟩, rfl, rfl⟩
  · intro c hc; rw [List.mem_singleton.1 hc]; exact h
  · intro c hc; cases hc

theorem point_number {b : Byte} (h : 48 ≤ b.toNat ∧ b.toNat ≤ 57) (neg : Bool) : ∃ x, FloatText ((if neg then str "-" else []) ++ [46, b]) neg x := by
  refine ⟨_, [], str ".", [b], [], 0, ?_, ?_, by simp, Or.inr rfl, Or.inl ⟨rfl, rfl⟩, rfl, rfl⟩
  · intro c hc; cases hc
  · intro c hc; rw [List.mem_singleton.1 hc]; exact h

theorem body_none {t body : List Byte} (neg : Bool) (ht : t = (if neg then str "-" else []) ++ body)
    (h : ∀ s neg x, FloatText s neg x → ¬ s <+: t) : EndsNumber body ∧ (body.head? = some 46 → EndsNumber (body.drop 1)) := by
  constructor
  · rintro b r rfl hb
    obtain ⟨x, hx⟩ := digit_number hb neg
    exact h _ _ _ hx ⟨r, by rw [ht]; simp⟩
  · intro hp b r hr hb
    obtain ⟨x, hx⟩ := point_number hb neg
    cases body with
    | nil => cases hp
    | cons c l =>
      injection hp with hc
      subst hc
      have hr : l = b :: r := hr
      exact h _ _ _ hx ⟨r, by rw [ht, hr]; simp⟩

/-- Without a number at the beginning, nothing is parsed. -/
theorem parse_none {t : List Byte} (h : ∀ s neg x, FloatText s neg x → ¬ s <+: t) : parseNumberString t = none := by
  cases hs : afterSign t with
  | none => unfold parseNumberString; rw [hs]
  | some body =>
    have : ∃ neg : Bool, t = (if neg then str "-" else []) ++ body := by
      unfold afterSign at hs
      by_cases h45 : t.head? = some 45
      · rw [if_pos h45] at hs
        refine ⟨true, ?_⟩
        cases t with
        | nil => cases h45
        | cons c l =>
          injection h45 with hc
          subst hc
          simp only [List.drop_one, List.tail_cons] at hs
          cases l with
          | nil => simp at hs
          | cons b l =>
            simp only at hs
            by_cases hb : (!isInteger b && decide (b ≠ 46)) = true
            · rw [if_pos hb] at hs; cases hs
            · rw [if_neg hb] at hs; injection hs with hs; rw [← hs]; rfl
      · rw [if_neg h45] at hs
        injection hs with hs
        exact ⟨false, by rw [hs]; rfl⟩
    obtain ⟨neg, ht⟩ := this
    obtain ⟨h1, h2⟩ := body_none neg ht h
    exact parse_none_body hs h1 h2

/-- If there is a number at the beginning, there is a longest one. -/
theorem longest_exists {t : List Byte} (h : ∃ s neg x, FloatText s neg x ∧ s <+: t) : ∃ neg x rest, LongestNumber t neg x rest := by
  classical
  obtain ⟨s0, neg0, x0, h0, hp0⟩ := h
  let P : Nat → Prop := fun n => ∃ s neg x, FloatText s neg x ∧ s <+: t ∧ s.length = n
  have hP0 : P s0.length := ⟨s0, neg0, x0, h0, hp0, rfl⟩
  have hm := Nat.findGreatest_spec (P := P) (n := t.length) hp0.length_le hP0
  obtain ⟨s, neg, x, h1, ⟨rest, h2⟩, h3⟩ := hm
  refine ⟨neg, x, rest, s, h2.symm, h1, fun s' neg' x' h1' hp' => ?_⟩
  rw [h3]
  exact Nat.le_findGreatest hp'.length_le ⟨s', neg', x', h1', hp', rfl⟩

/-! ## The exponent -/

theorem pow400_hi : (2 : ℚ) ^ 1024 - 2 ^ 970 ≤ 10 ^ (400 : Int) := by
  have h : 2 ^ 1024 ≤ 10 ^ 400 := by decide +kernel
  have h1 : (2 : ℚ) ^ 1024 ≤ 10 ^ 400 := by exact_mod_cast h
  have h2 : (0 : ℚ) < 2 ^ 970 := pow_pos (by norm_num) _
  have e : (10 : ℚ) ^ (400 : Int) = 10 ^ 400 := zpow_natCast _ 400
  rw [e]
  exact (sub_le_self _ h2.le).trans h1

theorem pow400_lo : (10 : ℚ) ^ (-400 : Int) ≤ 2 ^ (-1075 : Int) := by
  have h : 2 ^ 1075 ≤ 10 ^ 400 := by decide +kernel
  have h1 : (2 : ℚ) ^ 1075 ≤ 10 ^ 400 := by exact_mod_cast h
  have e : (10 : ℚ) ^ (-400 : Int) = (10 ^ 400)⁻¹ := by rw [← zpow_natCast, ← zpow_neg]; rfl
  have e2 : (2 : ℚ) ^ (-1075 : Int) = (2 ^ 1075)⁻¹ := by rw [← zpow_natCast, ← zpow_neg]; rfl
  rw [e, e2]
  exact inv_anti₀ (pow_pos (by norm_num) _) h1

/-- Exponents that are not read to their end do not change the double. -/
theorem saturated {V n f N : Nat} {e ê : Int} (hs : Saturates e ê) (hV : V < 10 ^ n) (hf : f ≤ n) (hn : n < 2 ^ 27) (h : Rounds N (V * 10 ^ (ê - f))) :
    Rounds N (V * 10 ^ (e - f)) := by
  rcases Nat.eq_zero_or_pos V with rfl | h0
  · rw [Nat.cast_zero, zero_mul] at h ⊢; exact h
  have hV1 : (1 : ℚ) ≤ V := by exact_mod_cast h0
  rcases hs with rfl | ⟨h1, h2⟩ | ⟨h1, h2⟩
  · exact h
  · have a1 : (10 : ℚ) ^ (400 : Int) ≤ 10 ^ (ê - f) := zpow_le_zpow_right₀ (by norm_num) (by omega)
    have a2 : (10 : ℚ) ^ (ê - f) ≤ 10 ^ (e - f) := zpow_le_zpow_right₀ (by norm_num) (by omega)
    have a3 : ∀ z : ℚ, 0 < z → z ≤ V * z := fun z hz => le_mul_of_one_le_left hz.le hV1
    have hN := h.inf_iff.2 (pow400_hi.trans (a1.trans (a3 _ (zpow_pos (by norm_num) _))))
    exact .inr ⟨hN, pow400_hi.trans (a1.trans (a2.trans (a3 _ (zpow_pos (by norm_num) _))))⟩
  · have hV2 : (V : ℚ) ≤ 10 ^ (n : Int) := by rw [zpow_natCast]; exact_mod_cast hV.le
    have a2 : (10 : ℚ) ^ (e - f) ≤ 10 ^ (ê - f) := zpow_le_zpow_right₀ (by norm_num) (by omega)
    have a1 : (V : ℚ) * 10 ^ (ê - f) ≤ 2 ^ (-1075 : Int) := by
      have b1 : (V : ℚ) * 10 ^ (ê - f) ≤ 10 ^ (n : Int) * 10 ^ (ê - f) := mul_le_mul_of_nonneg_right hV2 (zpow_pos (by norm_num) _).le
      rw [← zpow_add₀ (by norm_num)] at b1
      have b2 : (10 : ℚ) ^ ((n : Int) + (ê - f)) ≤ 10 ^ (-400 : Int) := zpow_le_zpow_right₀ (by norm_num) (by omega)
      exact b1.trans (b2.trans pow400_lo)
    have hN := h.zero_iff.2 a1
    rw [hN]
    apply rounds_zero (mul_nonneg (Nat.cast_nonneg _) (zpow_pos (by norm_num) _).le)
    exact (mul_le_mul_of_nonneg_left a2 (Nat.cast_nonneg _)).trans a1

/-! ## The number -/

theorem ExponentText.head {l : List Byte} {e : Int} (h : ExponentText l e) (hne : l ≠ []) : ∃ c r, l = c :: r ∧ (c = 101 ∨ c = 69) := by
  rcases h with ⟨h, _⟩ | ⟨c, sign, ds, hc, _, _, h, _⟩
  · exact absurd h hne
  · exact ⟨c, _, h, hc⟩

theorem ExponentText.more {l : List Byte} {e : Int} (h : ExponentText l e) (hne : l ≠ []) {d : Byte} (hd : 48 ≤ d.toNat ∧ d.toNat ≤ 57) :
    ∃ e', ExponentText (l ++ [d]) e' := by
  rcases h with ⟨h, _⟩ | ⟨c, sign, ds, hc, hds, hdn, rfl, hs⟩
  · exact absurd h hne
  · have hds' : AllDigits (ds ++ [d]) := by
      intro b hb
      rcases List.mem_append.1 hb with h | h
      · exact hds b h
      · rw [List.mem_singleton.1 h]; exact hd
    rcases hs with ⟨hs, _⟩ | ⟨hs, _⟩
    · exact ⟨_, Or.inr ⟨c, sign, ds ++ [d], hc, hds', by simp, by simp, Or.inl ⟨hs, rfl⟩⟩⟩
    · exact ⟨_, Or.inr ⟨c, sign, ds ++ [d], hc, hds', by simp, by simp, Or.inr ⟨hs, rfl⟩⟩⟩

variable {fpu : Fpu}

/-- The longest number is read and turned into a double, up to the end of the exponent. -/
theorem number_core (hI : Ieee fpu) {t rest : List Byte} {neg : Bool} {x : ℚ} (h : LongestNumber t neg x rest) :
    ∃ (V n f N : Nat) (e ê : Int), x = V * 10 ^ (e - f) ∧ V < 10 ^ n ∧ f ≤ n ∧ n ≤ t.length ∧ Saturates e ê ∧ Rounds N (V * 10 ^ (ê - f)) ∧
      fromChars fpu t = outcome neg V N rest := by
  obtain ⟨s, ht, ⟨int, point, frac, exp, e, hi, hf, hne, hpt, hexp, hs, hx⟩, hmax⟩ := h
  have ext : ∀ u v, rest = u ++ v → u ≠ [] → ∀ neg' x', ¬ FloatText (s ++ u) neg' x' := by
    intro u v hr hu neg' x' hft
    have h1 := hmax _ _ _ hft ⟨v, by rw [ht, hr, List.append_assoc]⟩
    rw [List.length_append] at h1
    have : 0 < u.length := List.length_pos_iff.2 hu
    omega
  obtain ⟨dot, hdotp, hdotf⟩ : ∃ dot : Bool, point = (if dot then [46] else []) ∧ (dot = false → frac = []) := by
    rcases hpt with ⟨h1, h2⟩ | h1
    · exact ⟨false, h1, fun _ => h2⟩
    · exact ⟨true, h1, fun h => by cases h⟩
  have hpt' : (point = [] ∧ frac = []) ∨ point = str "." := hpt
  have digitsSnoc : ∀ {l : List Byte} {d : Byte}, AllDigits l → (48 ≤ d.toNat ∧ d.toNat ≤ 57) → AllDigits (l ++ [d]) := by
    intro l d hl hd b hb
    rcases List.mem_append.1 hb with h | h
    · exact hl b h
    · rw [List.mem_singleton.1 h]; exact hd
  -- nothing that would make the number longer follows
  have hnil : exp = [] → rest.head? ≠ some 46 ∨ dot = true := by
    intro he
    by_contra hc
    push Not at hc
    obtain ⟨h1, h2⟩ := hc
    have h2 : dot = false := by simpa using h2
    cases rest with
    | nil => cases h1
    | cons c r =>
      injection h1 with hc
      refine ext [c] r rfl (by simp) neg _ ⟨int, str ".", [], [], 0, hi, allDigits_nil, ?_, Or.inr rfl, Or.inl ⟨rfl, rfl⟩, ?_, rfl⟩
      · rw [hdotf h2] at hne; exact hne
      · rw [hs, he, hdotp, h2, hdotf h2, hc]; simp; rfl
  have hrest : EndsNumber rest := by
    rintro d r hr hd
    by_cases he : exp = []
    · rcases hpt' with ⟨h1, h2⟩ | h1
      · refine ext [d] r hr (by simp) neg _ ⟨int ++ [d], [], [], [], 0, digitsSnoc hi hd, allDigits_nil, by simp, Or.inl ⟨rfl, rfl⟩,
          Or.inl ⟨rfl, rfl⟩, ?_, rfl⟩
        rw [hs, he, h1, h2]; simp
      · refine ext [d] r hr (by simp) neg _ ⟨int, str ".", frac ++ [d], [], 0, hi, digitsSnoc hf hd, by simp, Or.inr rfl,
          Or.inl ⟨rfl, rfl⟩, ?_, rfl⟩
        rw [hs, he, h1]; simp
    · obtain ⟨e', he'⟩ := ExponentText.more hexp he hd
      refine ext [d] r hr (by simp) neg _ ⟨int, point, frac, exp ++ [d], e', hi, hf, hne, hpt, he', ?_, rfl⟩
      rw [hs]; simp
  have hbegin : exp = [] → ¬ BeginsExponent rest := by
    rintro he ⟨c, sign, d, r, hc, hsg, hd, hr⟩
    have hds : AllDigits [d] := by intro b hb; rw [List.mem_singleton.1 hb]; exact hd
    have : ∃ e', ExponentText (c :: (sign ++ [d])) e' := by
      rcases hsg with h | h | h
      · exact ⟨_, Or.inr ⟨c, sign, [d], hc, hds, by simp, rfl, Or.inl ⟨Or.inl h, rfl⟩⟩⟩
      · exact ⟨_, Or.inr ⟨c, sign, [d], hc, hds, by simp, rfl, Or.inl ⟨Or.inr h, rfl⟩⟩⟩
      · exact ⟨_, Or.inr ⟨c, sign, [d], hc, hds, by simp, rfl, Or.inr ⟨h, rfl⟩⟩⟩
    obtain ⟨e', he'⟩ := this
    refine ext (c :: (sign ++ [d])) r (by rw [hr]; simp) (by simp) neg _ ⟨int, point, frac, c :: (sign ++ [d]), e', hi, hf, hne, hpt, he', ?_, rfl⟩
    rw [hs, he]; simp
  obtain ⟨ê, hê, hsat⟩ : ∃ ê, exponentPart (exp ++ rest) = (ê, rest) ∧ Saturates e ê := by
    by_cases he : exp = []
    · refine ⟨0, ?_, ?_⟩
      · rw [he]; exact exponentPart_none (hbegin he)
      · rcases hexp with ⟨_, h⟩ | ⟨c, sign, ds, _, _, _, h, _⟩
        · exact Or.inl h.symm
        · rw [he] at h; cases h
    · exact exponentPart_some hexp he hrest
  have htl : EndsNumber (exp ++ rest) := by
    by_cases he : exp = []
    · rw [he]; exact hrest
    · obtain ⟨c, r, h1, h2⟩ := ExponentText.head hexp he
      rw [h1]
      exact endsNumber_cons (l := r ++ rest) (by rcases h2 with rfl | rfl <;> decide)
  have hdot : dot = false → frac = [] ∧ (exp ++ rest).head? ≠ some 46 := by
    intro hd
    refine ⟨hdotf hd, ?_⟩
    by_cases he : exp = []
    · rcases hnil he with h | h
      · rw [he]; exact h
      · rw [hd] at h; cases h
    · obtain ⟨c, r, h1, h2⟩ := ExponentText.head hexp he
      rw [h1]
      intro h
      injection h with h
      rcases h2 with rfl | rfl <;> revert h <;> decide
  have ht' : t = (if neg then [45] else []) ++ (int ++ ((if dot then [46] else []) ++ (frac ++ (exp ++ rest)))) := by
    rw [ht, hs, hdotp]
    have : (if neg then str "-" else []) = (if neg then [45] else [] : List Byte) := by cases neg <;> rfl
    rw [this]
    simp only [List.append_assoc]
  obtain ⟨p, hp, p1, p2, p3, p4, p5, p6⟩ := parse_ok hi hf hne hdot htl hê ht'
  subst p3
  obtain ⟨N, hN, hres⟩ := fromParsed_ok hI (e0 := ê - frac.length) hi hf hdotf p4 p5 p6
  have hlen : (p.integer ++ frac).length ≤ t.length := by
    rw [ht']
    simp only [List.length_append]
    omega
  refine ⟨digitsValue (p.integer ++ frac), (p.integer ++ frac).length, frac.length, N, e, ê, hx, digitsValue_lt (hi.append hf), ?_, hlen, hsat, hN, ?_⟩
  · rw [List.length_append]; omega
  · have htne : t ≠ [] := by
      intro h
      rw [h] at hlen
      exact hne (List.length_eq_zero_iff.1 (Nat.le_zero.1 hlen))
    unfold fromChars
    rw [if_neg htne, hp]
    simp only
    rw [hres, p1, p2]

theorem number_ok (hI : Ieee fpu) {t rest : List Byte} {neg : Bool} {x : ℚ} (hl : t.length < 2 ^ 27) (h : LongestNumber t neg x rest) :
    ∃ V N : Nat, (V = 0 ↔ x = 0) ∧ 0 ≤ x ∧ Rounds N x ∧ fromChars fpu t = outcome neg V N rest := by
  obtain ⟨V, n, f, N, e, ê, hx, h1, h2, h3, h4, h5, h6⟩ := number_core hI h
  have hp : (0 : ℚ) < 10 ^ (e - f) := zpow_pos (by norm_num) _
  refine ⟨V, N, ?_, ?_, ?_, h6⟩
  · rw [hx, mul_eq_zero, or_iff_left hp.ne', Nat.cast_eq_zero]
  · rw [hx]; exact mul_nonneg (Nat.cast_nonneg _) hp.le
  · rw [hx]; exact saturated h4 h1 h2 (by omega) h5

end Verif.FF
