import Verif.Proof.FFNumber
import Verif.Props.PrintDouble
/-!
# C69: reading numbers

The parser of the default build, fast_float. What the machine's arithmetic has to fulfil is `Ieee`; `C69_machine_exists` shows that it can.
-/
namespace Verif
open Spec

attribute [local irreducible] FF.powerOfFive128 FF.computeFloat FF.computeError FF.digitComp FF.natBits FF.fromParsed

variable {fpu : FF.Fpu}

theorem signed_ok (neg : Bool) {N : Nat} (h : N ≤ bitsMax) : (FF.signed neg N).bits = N ∧ (FF.signed neg N).negative = neg := ofBits_ok neg h

/-- The longest number at the beginning of a text is read as the nearest double, with the sign of the text, and the rest is left; unless the
number overflows or, although it is not zero, rounds to zero. -/
theorem C69_reads (hI : Ieee fpu) {t rest : List Byte} {neg : Bool} {x : ℚ} (hl : t.length < 2 ^ 27) (h : LongestNumber t neg x rest)
    (hx : x < 2 ^ 1024 - 2 ^ 970) (h0 : x = 0 ∨ 2 ^ (-1075 : Int) < x) :
    ∃ f, FF.fromChars fpu t = .value f rest ∧ fastParse fpu t = some f ∧ f.negative = neg ∧ Nearest x f := by
  obtain ⟨V, N, h1, _, h3, h4⟩ := FF.number_ok hI hl h
  have hN : N ≤ bitsMax ∧ RoundsTo N x := by
    rcases h3 with h3 | ⟨_, h3⟩
    · exact h3
    · exact absurd (h3.trans_lt hx) (lt_irrefl _)
  have ho : FF.outcome neg V N rest = .value (FF.signed neg N) rest := by
    unfold FF.outcome
    rw [if_neg]
    rintro (⟨h5, h6⟩ | h5)
    · rcases h0 with h0 | h0
      · exact h5 (h1.2 h0)
      · rw [h3.zero_iff] at h6
        exact absurd (h0.trans_le h6) (lt_irrefl _)
    · rw [h3.inf_iff] at h5
      exact absurd (h5.trans_lt hx) (lt_irrefl _)
  obtain ⟨s1, s2⟩ := signed_ok neg hN.1
  refine ⟨_, h4.trans ho, ?_, s2, RoundsTo.toNearest (Dbl.finite_bits.2 (by rw [s1]; exact hN.1)) (by rw [s1]; exact hN.2)⟩
  unfold fastParse
  rw [h4, ho]

/-- Numbers that overflow, and numbers that are not zero and round to zero, are refused. -/
theorem C69_range (hI : Ieee fpu) {t rest : List Byte} {neg : Bool} {x : ℚ} (hl : t.length < 2 ^ 27) (h : LongestNumber t neg x rest)
    (hx : 2 ^ 1024 - 2 ^ 970 ≤ x ∨ (x ≠ 0 ∧ x ≤ 2 ^ (-1075 : Int))) : fastParse fpu t = none := by
  obtain ⟨V, N, h1, _, h3, h4⟩ := FF.number_ok hI hl h
  have ho : FF.outcome neg V N rest = .range (FF.signed neg N) := by
    unfold FF.outcome
    rw [if_pos]
    rcases hx with hx | ⟨hx, hx'⟩
    · exact Or.inr (h3.inf_iff.2 hx)
    · exact Or.inl ⟨fun h => hx (h1.1 h), h3.zero_iff.2 hx'⟩
  unfold fastParse
  rw [h4, ho]

/-- A number that is a double is read as that double. -/
theorem C69_exact (hI : Ieee fpu) {t rest : List Byte} {f : Dbl} (hl : t.length < 2 ^ 27) (hf : f.Finite)
    (h : LongestNumber t f.negative f.magnitude rest) : fastParse fpu t = some f := by
  have hb := Dbl.finite_bits.1 hf
  have hr := roundsTo_self f.bits
  rw [← f.magnitude_eq] at hr
  have h0 : f.magnitude = 0 ∨ 2 ^ (-1075 : Int) < f.magnitude := by
    by_cases hz : f.bits = 0
    · exact Or.inl (bits_zero_magnitude.1 hz)
    · exact Or.inr (hr.above hz)
  obtain ⟨g, _, h2, h3, h4⟩ := C69_reads hI hl h (hr.bounded hb) h0
  rw [h2, Dbl.ext_bits h3 (nearest_unique hf hr h4)]

theorem lowerCase_iff : ∀ b : Byte, ((b ||| 32) = 110 ↔ lowerCase b = 110) ∧ ((b ||| 32) = 97 ↔ lowerCase b = 97) ∧ ((b ||| 32) = 105 ↔ lowerCase b = 105) ∧
    ((b ||| 32) = 102 ↔ lowerCase b = 102) := by decide +kernel

theorem beginsWith_three {e1 e2 e3 : Byte} (h1 : ∀ b : Byte, (b ||| 32) = e1 ↔ lowerCase b = e1) (h2 : ∀ b : Byte, (b ||| 32) = e2 ↔ lowerCase b = e2)
    (h3 : ∀ b : Byte, (b ||| 32) = e3 ↔ lowerCase b = e3) (t : List Byte) :
    FF.beginsWith t [e1, e2, e3] = true ↔ ∃ a rest, t = a ++ rest ∧ a.map lowerCase = [e1, e2, e3] := by
  constructor
  · intro h
    match t, h with
    | [], h => cases h
    | [a], h => simp [FF.beginsWith] at h
    | [a, b], h => simp [FF.beginsWith] at h
    | a :: b :: c :: r, h =>
      simp only [FF.beginsWith, Bool.and_eq_true, beq_iff_eq, Bool.and_true] at h
      exact ⟨[a, b, c], r, rfl, by simp [(h1 a).1 h.1, (h2 b).1 h.2.1, (h3 c).1 h.2.2]⟩
  · rintro ⟨a, rest, rfl, ha⟩
    match a, ha with
    | [a, b, c], ha =>
      simp only [List.map_cons, List.map_nil, List.cons.injEq, and_true] at ha
      rw [show ([a, b, c] ++ rest) = a :: b :: c :: rest from rfl]
      simp only [FF.beginsWith]
      rw [(h1 a).2 ha.1, (h2 b).2 ha.2.1, (h3 c).2 ha.2.2]
      simp

theorem beginsWord_iff {e1 e2 e3 : Byte} (h45 : e1 ≠ 45) (t : List Byte) (neg : Bool) :
    BeginsWord t neg [e1, e2, e3] ↔ neg = decide (t.head? = some 45) ∧
      ∃ a rest, (if t.head? = some 45 then t.drop 1 else t) = a ++ rest ∧ a.map lowerCase = [e1, e2, e3] := by
  constructor
  · rintro ⟨a, rest, rfl, ha⟩
    cases neg with
    | true => exact ⟨rfl, a, rest, rfl, ha⟩
    | false =>
      have hh : (a ++ rest).head? ≠ some 45 := by
        match a, ha with
        | b :: l, ha =>
          intro h
          injection h with h
          subst h
          injection ha with ha _
          exact h45 (by rw [← ha]; decide)
      refine ⟨(decide_eq_false hh).symm, a, rest, ?_, ha⟩
      show (if (a ++ rest).head? = some 45 then _ else _) = _
      rw [if_neg hh]
      rfl
  · rintro ⟨rfl, a, rest, h, ha⟩
    refine ⟨a, rest, ?_, ha⟩
    by_cases hh : t.head? = some 45
    · rw [if_pos hh] at h
      rw [decide_eq_true hh]
      cases t with
      | nil => cases hh
      | cons c l =>
        injection hh with hh
        rw [hh, ← h]
        rfl
    · rw [if_neg hh] at h
      rw [decide_eq_false hh, h]
      rfl

/-- A text that does not begin with a number is read as a NaN or an infinity if it begins with `nan` or `inf`, in small or capital letters
and perhaps after a minus sign, and refused otherwise. -/
theorem C69_words {t : List Byte} (h : NoNumber t) (f : Dbl) : fastParse fpu t = some f ↔
    ∃ neg : Bool, (BeginsWord t neg (str "nan") ∧ f = if neg then 0xFFF8000000000000#64 else 0x7FF8000000000000#64) ∨
      (BeginsWord t neg (str "inf") ∧ f = if neg then 0xFFF0000000000000#64 else 0x7FF0000000000000#64) := by
  have enan : str "nan" = [110, 97, 110] := by decide
  have einf : str "inf" = [105, 110, 102] := by decide
  have sn : ∀ b : Bool, FF.signed b 0x7FF8000000000000 = if b then 0xFFF8000000000000#64 else 0x7FF8000000000000#64 := by decide
  have si : ∀ b : Bool, FF.signed b 0x7FF0000000000000 = if b then 0xFFF0000000000000#64 else 0x7FF0000000000000#64 := by decide
  have l1 := fun b => (lowerCase_iff b).1
  have l2 := fun b => (lowerCase_iff b).2.1
  have l3 := fun b => (lowerCase_iff b).2.2.1
  have l4 := fun b => (lowerCase_iff b).2.2.2
  rw [enan, einf]
  simp only [beginsWord_iff (show (110 : Byte) ≠ 45 by decide), beginsWord_iff (show (105 : Byte) ≠ 45 by decide),
    ← beginsWith_three l1 l2 l1, ← beginsWith_three l3 l1 l4]
  by_cases ht : t = []
  · subst ht
    constructor
    · intro h; cases h
    · rintro ⟨neg, ⟨⟨_, h⟩, _⟩ | ⟨⟨_, h⟩, _⟩⟩ <;> simp [FF.beginsWith] at h
  have hp := FF.parse_none h
  have hfc : FF.fromChars fpu t = FF.parseInfNan t := by
    unfold FF.fromChars
    rw [if_neg ht, hp]
  obtain ⟨m, hm⟩ : ∃ m, m = decide (t.head? = some 45) := ⟨_, rfl⟩
  obtain ⟨b, hb⟩ : ∃ b, b = if t.head? = some 45 then t.drop 1 else t := ⟨_, rfl⟩
  have hb' : b = if m = true then t.drop 1 else t := by rw [hb, hm]; simp only [decide_eq_true_eq]
  have hpi : FF.parseInfNan t = if FF.beginsWith b [110, 97, 110] then .value (FF.signed m 0x7FF8000000000000) (FF.afterNan (b.drop 3))
      else if FF.beginsWith b [105, 110, 102] then
        .value (FF.signed m 0x7FF0000000000000) (if FF.beginsWith (b.drop 3) (str "inity") then b.drop 8 else b.drop 3)
      else .invalid := by
    unfold FF.parseInfNan
    rw [enan, einf]
    simp only
    rw [← hm, ← hb']
  have hexcl : FF.beginsWith b [110, 97, 110] = true → FF.beginsWith b [105, 110, 102] = true → False := by
    cases b with
    | nil => intro h; cases h
    | cons c l =>
      intro h1 h2
      simp only [FF.beginsWith, Bool.and_eq_true, beq_iff_eq] at h1 h2
      exact absurd (h1.1.symm.trans h2.1) (by decide)
  rw [← hb, ← hm]
  unfold fastParse
  rw [hfc, hpi]
  by_cases c1 : FF.beginsWith b [110, 97, 110] = true
  · rw [if_pos c1]
    simp only [Option.some.injEq]
    rw [sn]
    constructor
    · rintro rfl; exact ⟨m, Or.inl ⟨⟨rfl, c1⟩, rfl⟩⟩
    · rintro ⟨neg, ⟨⟨rfl, _⟩, h⟩ | ⟨⟨_, h⟩, _⟩⟩
      · exact h.symm
      · exact absurd h (fun h => hexcl c1 h)
  · rw [if_neg c1]
    by_cases c2 : FF.beginsWith b [105, 110, 102] = true
    · rw [if_pos c2]
      simp only [Option.some.injEq]
      rw [si]
      constructor
      · rintro rfl; exact ⟨m, Or.inr ⟨⟨rfl, c2⟩, rfl⟩⟩
      · rintro ⟨neg, ⟨⟨_, h⟩, _⟩ | ⟨⟨rfl, _⟩, h⟩⟩
        · exact absurd h c1
        · exact h.symm
    · rw [if_neg c2]
      constructor
      · intro h; cases h
      · rintro ⟨neg, ⟨⟨_, h⟩, _⟩ | ⟨⟨_, h⟩, _⟩⟩
        · exact absurd h c1
        · exact absurd h c2

/-- Every text begins with a number, of which there is a longest one, or does not. In no case do the big integers outgrow their fixed size. -/
theorem C69_total (hI : Ieee fpu) (t : List Byte) : ((∃ neg x rest, LongestNumber t neg x rest) ∨ NoNumber t) ∧ FF.fromChars fpu t ≠ .stuck := by
  by_cases h : ∃ s neg x, FloatText s neg x ∧ s <+: t
  · obtain ⟨neg, x, rest, hl⟩ := FF.longest_exists h
    refine ⟨Or.inl ⟨neg, x, rest, hl⟩, ?_⟩
    obtain ⟨V, n, f, N, e, ê, _, _, _, _, _, _, h6⟩ := FF.number_core hI hl
    rw [h6]
    unfold FF.outcome
    split <;> exact fun h => by cases h
  · have hno : NoNumber t := fun s neg x h1 h2 => h ⟨s, neg, x, h1, h2⟩
    refine ⟨Or.inr hno, ?_⟩
    unfold FF.fromChars
    split
    · exact fun h => by cases h
    · rw [FF.parse_none hno]
      simp only
      unfold FF.parseInfNan
      simp only
      generalize (if decide (t.head? = some 45) = true then t.drop 1 else t) = b
      by_cases c1 : FF.beginsWith b (str "nan") = true
      · rw [if_pos c1]; exact fun h => by cases h
      · rw [if_neg c1]
        by_cases c2 : FF.beginsWith b (str "inf") = true
        · rw [if_pos c2]; exact fun h => by cases h
        · rw [if_neg c2]; exact fun h => by cases h

/-! ## Satisfiability -/

/-- A machine that rounds as asked, whatever its mode is called. -/
noncomputable def chosenFpu (nearest : Bool) : FF.Fpu where
  nearest := nearest
  mul a b := Classical.epsilon fun n => n ≤ bitsMax ∧ RoundsTo n (magN a * magN b)
  div a b := Classical.epsilon fun n => n ≤ bitsMax ∧ RoundsTo n (magN a / magN b)

theorem chosenFpu_mul (nearest : Bool) {a b : Nat} (h : ∃ n, n ≤ bitsMax ∧ RoundsTo n (magN a * magN b)) :
    (chosenFpu nearest).mul a b ≤ bitsMax ∧ RoundsTo ((chosenFpu nearest).mul a b) (magN a * magN b) := Classical.epsilon_spec h
theorem chosenFpu_div (nearest : Bool) {a b : Nat} (h : ∃ n, n ≤ bitsMax ∧ RoundsTo n (magN a / magN b)) :
    (chosenFpu nearest).div a b ≤ bitsMax ∧ RoundsTo ((chosenFpu nearest).div a b) (magN a / magN b) := Classical.epsilon_spec h

/-- There are machines as `Ieee` asks for, in both modes. -/
theorem C69_machine_exists (nearest : Bool) : ∃ fpu : FF.Fpu, fpu.nearest = nearest ∧ Ieee fpu := by
  have near : ∀ {n : Nat} {x : ℚ}, n ≤ bitsMax → RoundsTo n x → Nearest x (Dbl.ofNat n) := by
    intro n x hn hr
    have hb := FF.ofNat_bits hn
    exact RoundsTo.toNearest (Dbl.finite_bits.2 (by rw [hb]; exact hn)) (by rw [hb]; exact hr)
  refine ⟨chosenFpu nearest, rfl, ⟨fun _ a b ha hb hx => ?_, fun _ a b ha hb _ hx => ?_, fun a b c ha hb hc hx => ?_⟩⟩
  · rw [FF.ofNat_magnitude ha, FF.ofNat_magnitude hb] at hx ⊢
    obtain ⟨h1, h2⟩ := chosenFpu_mul nearest (exists_rounds (mul_nonneg (magN_nonneg a) (magN_nonneg b)) hx)
    exact ⟨h1, near h1 h2⟩
  · rw [FF.ofNat_magnitude ha, FF.ofNat_magnitude hb] at hx ⊢
    obtain ⟨h1, h2⟩ := chosenFpu_div nearest (exists_rounds (div_nonneg (magN_nonneg a) (magN_nonneg b)) hx)
    exact ⟨h1, near h1 h2⟩
  · rw [FF.ofNat_magnitude ha, FF.ofNat_magnitude hb, FF.ofNat_magnitude hc] at hx
    have hr := roundsTo_self c
    rw [← hx] at hr
    obtain ⟨h1, h2⟩ := chosenFpu_mul nearest ⟨c, hc, hr⟩
    have hb := FF.ofNat_bits hc
    have hu := nearest_unique (f := Dbl.ofNat c) (Dbl.finite_bits.2 (by rw [hb]; exact hc)) (by rw [hb]; exact hr) (near h1 h2)
    rw [hb, FF.ofNat_bits h1] at hu
    exact hu

/-! ## Reading back what is printed -/

/-- A decimal is a number, and all of it. -/
theorem DecimalText.longest {t : List Byte} {neg : Bool} {x : ℚ} (h : DecimalText t neg x) : LongestNumber t neg x [] := by
  refine ⟨t, (List.append_nil _).symm, ?_, fun s' _ _ _ hp => hp.length_le⟩
  obtain ⟨int, frac, exp, e, h1, h2, h3, h4, h5, h6⟩ := h
  refine ⟨int, if frac = [] then [] else str ".", frac, exp, e, h1, h3, fun h => h2 (List.append_eq_nil_iff.1 h).1, ?_, ?_, ?_, h6⟩
  · by_cases hf : frac = []
    · exact Or.inl ⟨if_pos hf, hf⟩
    · exact Or.inr (if_neg hf)
  · rcases h5 with ⟨h5, h5'⟩ | ⟨ds, d1, d2, ⟨h5, h5'⟩ | ⟨h5, h5'⟩⟩
    · exact Or.inl ⟨h5, h5'⟩
    · exact Or.inr ⟨101, str "+", ds, Or.inl rfl, d1, d2, h5, Or.inl ⟨Or.inr rfl, h5'⟩⟩
    · exact Or.inr ⟨101, str "-", ds, Or.inl rfl, d1, d2, h5, Or.inr ⟨rfl, h5'⟩⟩
  · rw [h4]
    by_cases hf : frac = []
    · rw [if_pos hf, if_pos hf, hf]; simp
    · rw [if_neg hf, if_neg hf]; simp

/-- The parser of the default build is a correct one. -/
theorem C69_correct (hI : Ieee fpu) : CorrectParser (fastParse fpu) := by
  intro t neg x hl ht hx h0
  obtain ⟨f, _, h2, h3, h4⟩ := C69_reads hI hl ht.longest hx h0
  exact ⟨f, h2, h3, h4⟩

theorem fastParse_nil : fastParse fpu [] = none := rfl

theorem noNumber_cons {b : Byte} {w : List Byte} (h1 : ¬ (48 ≤ b.toNat ∧ b.toNat ≤ 57)) (h2 : b ≠ 45) (h3 : b ≠ 46) : NoNumber (b :: w) := by
  rintro s neg x ⟨int, point, frac, exp, e, hi, hf, hne, hp, _, hs, _⟩ ⟨r, hr⟩
  rw [hs] at hr
  cases neg with
  | true => injection hr with hr _; exact h2 hr.symm
  | false =>
    cases int with
    | cons c l =>
      injection hr with hr _
      exact h1 (hr ▸ hi c List.mem_cons_self)
    | nil =>
      rcases hp with ⟨_, hp⟩ | hp
      · exact hne (by rw [hp]; rfl)
      · rw [hp] at hr
        injection hr with hr _
        exact h3 hr.symm

theorem fastParse_E (w : List Byte) : fastParse fpu (69 :: w) = none := by
  have hn : NoNumber (69 :: w) := noNumber_cons (by decide) (by decide) (by decide)
  cases h : fastParse fpu (69 :: w) with
  | none => rfl
  | some f =>
    obtain ⟨neg, ⟨⟨a, rest, h1, h2⟩, _⟩ | ⟨⟨a, rest, h1, h2⟩, _⟩⟩ := (C69_words hn f).1 h
    all_goals
      cases neg with
      | true => injection h1 with h1 _; exact absurd h1 (by decide)
      | false =>
        match a, h2 with
        | c :: l, h2 =>
          injection h1 with h1 _
          subst h1
          injection h2 with h2 _
          exact absurd h2 (by decide)

/-- A number with thirty digits and an exponent, one that rounds to zero and one that overflows. -/
example (hI : Ieee fpu) : (∃ f, fastParse fpu (str "-123456789012345678901234567890.5e-3") = some f ∧ f.negative = true ∧
      Nearest (1234567890123456789012345678905 * 10 ^ (-4 : Int)) f) ∧
    fastParse fpu (str "1e-400") = none ∧ fastParse fpu (str "1e+999") = none := by
  have d1 : DecimalText (str "-123456789012345678901234567890.5e-3") true (1234567890123456789012345678905 * 10 ^ (-4 : Int)) := by
    refine ⟨str "123456789012345678901234567890", str "5", str "e-3", -3, by unfold AllDigits; decide, by decide, by unfold AllDigits; decide, by decide,
      Or.inr ⟨str "3", by unfold AllDigits; decide, by decide, Or.inr ⟨by decide, by decide⟩⟩, ?_⟩
    have e1 : digitsValue (str "123456789012345678901234567890" ++ str "5") = 1234567890123456789012345678905 := by decide
    have e2 : (str "5").length = 1 := by decide
    rw [e1, e2]
    norm_num
  have d2 : DecimalText (str "1e-400") false (10 ^ (-400 : Int)) := by
    refine ⟨str "1", [], str "e-400", -400, by unfold AllDigits; decide, by decide, allDigits_nil, by decide,
      Or.inr ⟨str "400", by unfold AllDigits; decide, by decide, Or.inr ⟨by decide, by decide⟩⟩, ?_⟩
    have e1 : digitsValue (str "1" ++ []) = 1 := by decide
    rw [e1]
    simp
  have d3 : DecimalText (str "1e+999") false (10 ^ (999 : Int)) := by
    refine ⟨str "1", [], str "e+999", 999, by unfold AllDigits; decide, by decide, allDigits_nil, by decide,
      Or.inr ⟨str "999", by unfold AllDigits; decide, by decide, Or.inl ⟨by decide, by decide⟩⟩, ?_⟩
    have e1 : digitsValue (str "1" ++ []) = 1 := by decide
    rw [e1]
    simp
  refine ⟨?_, ?_, ?_⟩
  · refine C69_correct hI _ _ _ (by decide) d1 (FF.small_bound (by norm_num)) (Or.inr ?_)
    have h8 : (2 : ℚ) ^ (-1075 : Int) ≤ 1 := zpow_le_one_of_nonpos₀ (by norm_num) (by norm_num)
    exact h8.trans_lt (by norm_num)
  · exact C69_range hI (by decide) d2.longest (Or.inr ⟨(zpow_pos (by norm_num) _).ne', FF.pow400_lo⟩)
  · refine C69_range hI (by decide) d3.longest (Or.inl (FF.pow400_hi.trans ?_))
    exact zpow_le_zpow_right₀ (by norm_num) (by norm_num)

/-- A NaN, with whatever follows, and the infinity. -/
example : fastParse fpu (str "-NaN(7)") = some 0xFFF8000000000000#64 ∧ fastParse fpu (str "Infinity") = some 0x7FF0000000000000#64 := by
  constructor
  · refine (C69_words ?_ _).2 ⟨true, Or.inl ⟨⟨str "NaN", str "(7)", by decide, by decide⟩, rfl⟩⟩
    rintro s neg x ⟨int, point, frac, exp, e, hi, hf, hne, hp, _, hs, _⟩ ⟨r, hr⟩
    rw [hs] at hr
    have h1 : str "-NaN(7)" = 45 :: 78 :: str "aN(7)" := by decide
    rw [h1] at hr
    cases neg with
    | true =>
      injection hr with _ hr
      cases int with
      | cons c l =>
        injection hr with hr _
        have := hi c List.mem_cons_self
        rw [hr] at this
        exact absurd this (by decide)
      | nil =>
        rcases hp with ⟨_, hp⟩ | hp
        · exact hne (by rw [hp]; rfl)
        · rw [hp] at hr
          injection hr with hr _
          exact absurd hr (by decide)
    | false =>
      cases int with
      | cons c l =>
        injection hr with hr _
        have := hi c List.mem_cons_self
        rw [hr] at this
        exact absurd this (by decide)
      | nil =>
        rcases hp with ⟨_, hp⟩ | hp
        · exact hne (by rw [hp]; rfl)
        · rw [hp] at hr
          injection hr with hr _
          exact absurd hr (by decide)
  · exact (C69_words (noNumber_cons (by decide) (by decide) (by decide)) _).2 ⟨false, Or.inr ⟨⟨str "Inf", str "inity", by decide, by decide⟩, rfl⟩⟩

/-- With the default printer and the default parser, a geometry written as well-known text and read again is the same geometry, if the
precision suffices for its ordinates.

Partial: as `C57_wkt_round_trip_partial`. -/
theorem C57_default_build_partial (hI : Ieee fpu) {g : Geom} {t : List Event} (ht : FeatureTrace g t) (hw : g.WF) (hu : g.Uniform) (hs : g.SinglePoints)
    (hh : g.height ≤ 31) (raw : WktW) {p : Nat} (hp : p ≤ 16) (flat : Bool) (hn : g.Ordinates (ShortDecimal p))
    (hf : flat = true → g.FlatReadable) (r : WktR) :
    ∃ s' t', feed (wktHandler ryuPrint) t (wktInitVisitor p flat (-1) (wktInit raw)) = .ok () s' ∧
      Behaves (fun _ h => wktVisit (fastParse fpu) s'.values h r) t' (.done ()) ∧ FeatureTrace g t' :=
  C57_wkt_round_trip_partial (C69_correct hI) fastParse_nil fastParse_E ht hw hu hs hh raw hp flat hn hf r

/-- The hypotheses are met by the example geometry. -/
example (raw : WktW) : ∃ fpu : FF.Fpu, Ieee fpu ∧ ∀ t, FeatureTrace exWktGeom t → ∃ s' t',
    feed (wktHandler ryuPrint) t (wktInitVisitor 16 false (-1) (wktInit raw)) = .ok () s' ∧
      Behaves (fun _ h => wktVisit (fastParse fpu) s'.values h exWktR) t' (.done ()) ∧ FeatureTrace exWktGeom t' := by
  obtain ⟨fpu, _, hI⟩ := C69_machine_exists true
  refine ⟨fpu, hI, fun t ht => C57_default_build_partial hI ht (by simp [exWktGeom, Geom.WF, Geom.WFL, Dims.n])
    (by simp [exWktGeom, Geom.Uniform, Geom.UniformL, FitsMember]) (by simp [exWktGeom, Geom.SinglePoints, Geom.SinglePointsL])
    (by simp [exWktGeom, Geom.height, Geom.heightL]) raw (Nat.le_refl _) false ?_ (fun h => by cases h) exWktR⟩
  have sh : ∀ {x}, x = dbl1 ∨ x = dbl2 ∨ x = dbl3 ∨ x = dbl4 → ShortDecimal 16 x := fun h => shortDecimal_sixteen (exOrdinate h).1 (exOrdinate h).2
  have h1 := sh (Or.inl rfl)
  have h2 := sh (Or.inr (Or.inl rfl))
  have h3 := sh (Or.inr (Or.inr (Or.inl rfl)))
  have h4 := sh (Or.inr (Or.inr (Or.inr rfl)))
  have key : ∀ Q : Dbl → Prop, Q dbl1 → Q dbl2 → Q dbl3 → Q dbl4 → exWktGeom.Ordinates Q := fun Q a b c d => by
    simp [exWktGeom, Geom.Ordinates, Geom.OrdinatesL, a, b, c, d]
  exact key _ h1 h2 h3 h4

/-! ## What is surprising -/

/-- Text after the number is ignored: the result is that of the number alone. -/
theorem C69_trailing (hI : Ieee fpu) {s junk : List Byte} {neg : Bool} {x : ℚ} (hl : (s ++ junk).length < 2 ^ 27)
    (h : LongestNumber (s ++ junk) neg x junk) : fastParse fpu (s ++ junk) = fastParse fpu s := by
  have hs : LongestNumber s neg x [] := by
    obtain ⟨s', h1, h2, _⟩ := h
    have e : s = s' := List.append_cancel_right h1
    subst e
    exact ⟨s, (List.append_nil _).symm, h2, fun _ _ _ _ hp => hp.length_le⟩
  have hl' : s.length < 2 ^ 27 := by rw [List.length_append] at hl; omega
  obtain ⟨_, _, _, h0, _⟩ := FF.number_ok hI hl h
  by_cases h1 : x < 2 ^ 1024 - 2 ^ 970
  · by_cases h2 : x = 0 ∨ 2 ^ (-1075 : Int) < x
    · obtain ⟨f, _, f1, f2, f3⟩ := C69_reads hI hl h h1 h2
      obtain ⟨g, _, g1, g2, g3⟩ := C69_reads hI hl' hs h1 h2
      obtain ⟨n, hn, hr⟩ := exists_rounds h0 h1
      obtain ⟨b1, b2⟩ := ofBits_ok neg hn
      have hfin : (ofBits neg n).Finite := Dbl.finite_bits.2 (by rw [b1]; exact hn)
      have u := fun k h => nearest_unique (g := k) hfin (by rw [b1]; exact hr) h
      rw [f1, g1, Dbl.ext_bits (f2.trans g2.symm) ((u f f3).trans (u g g3).symm)]
    · push Not at h2
      rw [C69_range hI hl h (Or.inr h2), C69_range hI hl' hs (Or.inr h2)]
  · rw [C69_range hI hl h (Or.inl (not_lt.1 h1)), C69_range hI hl' hs (Or.inl (not_lt.1 h1))]

theorem integer_longest {int junk : List Byte} (hi : AllDigits int) (hne : int ≠ []) (hj : ∀ b r, junk = b :: r →
    ¬ (48 ≤ b.toNat ∧ b.toNat ≤ 57) ∧ b ≠ 46 ∧ b ≠ 101 ∧ b ≠ 69) : LongestNumber (int ++ junk) false (digitsValue int) junk := by
  refine ⟨int, rfl, ⟨int, [], [], [], 0, hi, allDigits_nil, by simpa using hne, Or.inl ⟨rfl, rfl⟩, Or.inl ⟨rfl, rfl⟩, by simp, by simp⟩, ?_⟩
  rintro s' neg x ⟨int', point, frac, exp, e, hi', hf', hne', hp', hexp, hs, _⟩ ⟨r, hr⟩
  by_contra hc
  have hlt : int.length < s'.length := not_le.1 hc
  have hpre : ∃ b u, s' = int ++ b :: u ∧ junk = b :: (u ++ r) := by
    have h1 : s'.take int.length = int := by
      have := congrArg (List.take int.length) hr
      rw [List.take_append_of_le_length hlt.le, List.take_left] at this
      exact this
    obtain ⟨b, u, hbu⟩ : ∃ b u, s'.drop int.length = b :: u := by
      cases hd : s'.drop int.length with
      | nil => exact absurd (List.drop_eq_nil_iff.1 hd) (not_le.2 hlt)
      | cons b u => exact ⟨b, u, rfl⟩
    have h2 : s' = int ++ b :: u := by rw [← List.take_append_drop int.length s', h1, hbu]
    refine ⟨b, u, h2, ?_⟩
    rw [h2] at hr
    simpa using hr.symm
  obtain ⟨b, u, h2, h3⟩ := hpre
  obtain ⟨j1, j2, j3, j4⟩ := hj b _ h3
  rw [h2] at hs
  -- all of `s'` before `b` is digits
  have hneg : neg = false := by
    cases neg with
    | false => rfl
    | true =>
      cases int with
      | nil => exact absurd rfl hne
      | cons c l =>
        injection hs with hs _
        have := hi c List.mem_cons_self
        rw [hs] at this
        exact absurd this (by decide)
  subst hneg
  have hends : EndsNumber (b :: u) := endsNumber_cons j1
  have hends' : EndsNumber (point ++ (frac ++ exp)) := by
    rcases hp' with ⟨h5, h6⟩ | h5
    · rw [h5, h6]
      rcases hexp with ⟨h7, _⟩ | ⟨c, sign, ds, hc, _, _, h7, _⟩
      · rw [h7]; exact endsNumber_nil
      · rw [h7]; exact endsNumber_cons (l := sign ++ ds) (by rcases hc with rfl | rfl <;> decide)
    · rw [h5]; exact endsNumber_cons (b := 46) (l := frac ++ exp) (by decide)
  obtain ⟨_, h8⟩ := digits_split hi hi' hends hends' (by simpa using hs)
  rcases hp' with ⟨h5, h6⟩ | h5
  · rw [h5, h6] at h8
    rcases hexp with ⟨h7, _⟩ | ⟨c, sign, ds, hc, _, _, h7, _⟩
    · rw [h7] at h8; cases h8
    · rw [h7] at h8
      injection h8 with h8 _
      rcases hc with hc | hc
      · exact j3 (h8.trans hc)
      · exact j4 (h8.trans hc)
  · rw [h5] at h8
    injection h8 with h8 _
    exact j2 h8

/-- `12abc` is read as 12. -/
example (hI : Ieee fpu) : fastParse fpu (str "12abc") = some 0x4028000000000000#64 := by
  have h := integer_longest (int := str "12") (junk := str "abc") (by unfold AllDigits; decide) (by decide) (by
    intro b r h
    injection h with h _
    subst h
    decide)
  have e : str "12abc" = str "12" ++ str "abc" := by decide
  rw [e]
  refine C69_exact (rest := str "abc") hI (by decide) (by unfold Dbl.Finite; decide) ?_
  have e1 : Dbl.negative 0x4028000000000000#64 = false := by decide
  have e2 : Dbl.magnitude 0x4028000000000000#64 = (digitsValue (str "12") : Nat) := by
    have e3 : digitsValue (str "12") = 12 := by decide
    have e4 : Dbl.bits 0x4028000000000000#64 = 0x4028000000000000 := by decide
    rw [e3, Dbl.magnitude_eq, e4]
    unfold magN
    norm_num
  rw [e1, e2]
  exact h

/-- A plus sign before the number is refused. -/
theorem C69_plus (w : List Byte) : fastParse fpu (43 :: w) = none := by
  have hn : NoNumber (43 :: w) := noNumber_cons (by decide) (by decide) (by decide)
  cases h : fastParse fpu (43 :: w) with
  | none => rfl
  | some f =>
    obtain ⟨neg, ⟨⟨a, rest, h1, h2⟩, _⟩ | ⟨⟨a, rest, h1, h2⟩, _⟩⟩ := (C69_words hn f).1 h
    all_goals
      cases neg with
      | true => injection h1 with h1 _; exact absurd h1 (by decide)
      | false =>
        match a, h2 with
        | c :: l, h2 =>
          injection h1 with h1 _
          subst h1
          injection h2 with h2 _
          exact absurd h2 (by decide)

end Verif
