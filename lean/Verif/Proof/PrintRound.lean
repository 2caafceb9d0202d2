import Verif.Proof.DblParser
import Verif.Spec.WktGrammar
/-!
# Printing and then parsing
-/
namespace Verif
open Spec

/-- Strictly inside the rounding interval. -/
def StrictlyRounds (n : Nat) (x : ℚ) : Prop := magN n - gap (n - 1) / 2 < x ∧ x < magN n + gap n / 2

theorem StrictlyRounds.rounds {n : Nat} {x : ℚ} (h : StrictlyRounds n x) : RoundsTo n x := ⟨h.1.le, h.2.le, fun _ => h.1, fun _ => h.2⟩

theorem ofBits_magnitude {n : Nat} (h : n ≤ bitsMax) : (ofBits false n).Finite ∧ (ofBits false n).magnitude = magN n := by
  obtain ⟨e, _⟩ := ofBits_ok false h
  exact ⟨Dbl.finite_bits.mpr (by rw [e]; exact h), by rw [Dbl.magnitude_eq, e]⟩

theorem StrictlyNearest.inside {x : ℚ} {f : Dbl} (h : StrictlyNearest x f) (hn : 0 < f.bits) : StrictlyRounds f.bits x := by
  obtain ⟨hf, hx, h⟩ := h
  have hb := Dbl.finite_bits.mp hf
  rw [f.magnitude_eq] at h
  constructor
  · obtain ⟨g1, g2⟩ := ofBits_magnitude (n := f.bits - 1) (by omega)
    have h1 := h _ g1
    rw [g2] at h1
    have h2 := magN_succ (f.bits - 1)
    rw [Nat.sub_add_cancel hn] at h2
    have h3 := gap_pos (f.bits - 1)
    have h4 := h1 (by linarith)
    by_contra hc
    have : |x - magN (f.bits - 1)| ≤ |x - magN f.bits| := by
      rw [abs_of_neg (a := x - magN f.bits) (by linarith)]
      exact abs_le.mpr ⟨by linarith, by linarith⟩
    linarith
  · rcases Nat.lt_or_eq_of_le hb with hlt | heq
    · obtain ⟨g1, g2⟩ := ofBits_magnitude (n := f.bits + 1) (by omega)
      have h1 := h _ g1
      rw [g2] at h1
      have h2 := magN_succ f.bits
      have h3 := gap_pos f.bits
      have h4 := h1 (by linarith)
      by_contra hc
      have : |x - magN (f.bits + 1)| ≤ |x - magN f.bits| := by
        rw [abs_of_pos (a := x - magN f.bits) (by linarith)]
        exact abs_le.mpr ⟨by linarith, by linarith⟩
      linarith
    · have e1 := magN_max
      have e2 := gap_max
      have e3 : (2 : ℚ) ^ 971 = 2 ^ 970 * 2 := pow_succ 2 970
      rw [heq]
      rw [e2, e3] at e1 ⊢
      rw [← e1] at hx
      clear h e1 e2
      generalize (2 : ℚ) ^ 970 = B at *
      linarith

theorem StrictlyRounds.strict {x : ℚ} {f : Dbl} (hf : f.Finite) (h : StrictlyRounds f.bits x) : StrictlyNearest x f := by
  have hb := Dbl.finite_bits.mp hf
  refine ⟨hf, h.rounds.bounded hb, fun g _ hg => ?_⟩
  rw [f.magnitude_eq, g.magnitude_eq] at *
  have g1 := gap_pos f.bits
  have g2 := gap_pos (f.bits - 1)
  rcases Nat.lt_trichotomy g.bits f.bits with hlt | heq | hgt
  · have hbl := magN_below hlt
    rw [abs_of_pos (a := x - magN g.bits) (by linarith [h.1])]
    exact abs_lt.mpr ⟨by linarith [h.1], by linarith [h.1]⟩
  · rw [heq] at hg; exact absurd rfl hg
  · have hab := magN_above hgt
    rw [abs_of_neg (a := x - magN g.bits) (by linarith [h.2])]
    exact abs_lt.mpr ⟨by linarith [h.2], by linarith [h.2]⟩

theorem decimalText_zero : DecimalText (str "0") false 0 :=
  ⟨str "0", [], [], 0, by unfold AllDigits; decide, by decide, fun _ h => (List.not_mem_nil h).elim, by decide, .inl ⟨rfl, rfl⟩, by
    have : digitsValue (str "0" ++ []) = 0 := by decide
    rw [this]; simp⟩

theorem roundedTo_zero (p : Nat) : RoundedTo p 0 0 := ⟨0, by simp, by norm_num, by norm_num⟩

theorem dec_value_decimals {d : Dec} {q : Nat} (h : -(q : Int) ≤ d.exponent) : ∃ j : Nat, d.value = j / 10 ^ q := by
  refine ⟨d.mantissa * 10 ^ (d.exponent + q).toNat, ?_⟩
  unfold Dec.value
  push_cast
  rw [mul_div_assoc, ← zpow_natCast, ← zpow_natCast, ← zpow_sub₀ (by norm_num), Int.toNat_of_nonneg (by omega)]
  congr 2
  ring

theorem bits_zero_magnitude {f : Dbl} : f.bits = 0 ↔ f.magnitude = 0 := by
  rw [f.magnitude_eq]
  constructor
  · intro h; rw [h, magN_zero]
  · intro h
    by_contra hc
    have := magN_strictMono (Nat.pos_of_ne_zero hc)
    rw [magN_zero, h] at this
    exact lt_irrefl _ this

theorem bits_le_1e17 {f : Dbl} : f.bits ≤ bits1e17 ↔ f.magnitude ≤ 10 ^ 17 := by
  rw [f.magnitude_eq, ← magN_1e17]
  exact magN_strictMono.le_iff_le.symm

theorem RoundsTo.error {n : Nat} {x : ℚ} (h : RoundsTo n x) : |x - magN n| ≤ gap n / 2 := by
  have hg : gap (n - 1) ≤ gap n := by
    unfold gap
    refine zpow_le_zpow_right₀ (by norm_num) ?_
    have : (n - 1) / 2 ^ 52 ≤ n / 2 ^ 52 := Nat.div_le_div_right (Nat.sub_le _ _)
    omega
  exact abs_le.mpr ⟨by linarith [h.lo], by linarith [h.hi]⟩

/-- The text of a finite double. -/
theorem Nearest.rounds {x : ℚ} {f : Dbl} (h : Nearest x f) (h0 : 0 ≤ x) (h1 : x < 2 ^ 1024 - 2 ^ 970) : RoundsTo f.bits x := by
  obtain ⟨n, hn, hr⟩ := exists_rounds h0 h1
  obtain ⟨e, _⟩ := ofBits_ok false hn
  have := nearest_unique (f := ofBits false n) (ofBits_magnitude hn).1 (by rw [e]; exact hr) h
  rw [this, e]
  exact hr

/-- The decimal is as close as the decimals of its length get. -/
def ClosestDecimal (f : Dbl) (x : ℚ) : Prop :=
  ∃ (m : Nat) (e : Int), x = m * 10 ^ e ∧ m < 10 ^ 17 ∧
    ∀ k : Nat, (k * 10 ^ e : ℚ) < 2 ^ 1024 - 2 ^ 970 → Nearest (k * 10 ^ e) f → |x - f.magnitude| ≤ |k * 10 ^ e - f.magnitude|

theorem DecOk.toClosest {f : Dbl} {d : Dec} (h : DecOk f.bits d) : ClosestDecimal f d.value := by
  refine ⟨d.mantissa, d.exponent, rfl, by have := h.digits; omega, fun k h1 h2 => ?_⟩
  rw [f.magnitude_eq]
  exact h.closest k (h2.rounds (mul_nonneg (Nat.cast_nonneg _) (zpow_pos (by norm_num) _).le) h1)

theorem printDouble_text {f : Dbl} (hf : f.Finite) (p : Nat) :
    ∃ t x y, printDouble f p = some t ∧ (Nearest x f ∧ x < 2 ^ 1024 - 2 ^ 970 ∧ |x - f.magnitude| ≤ f.ulp / 2) ∧ DecimalText t (f.negative && decide (y ≠ 0)) y ∧
      (f.magnitude ≤ 10 ^ 17 → RoundedTo p x y) ∧ (10 ^ 17 < f.magnitude → y = x) ∧
      (∀ (k q : Nat), StrictlyNearest (k / 10 ^ q) f → ∃ j : Nat, x = j / 10 ^ q) ∧ ClosestDecimal f x := by
  have fin : ∀ {x}, RoundsTo f.bits x → Nearest x f ∧ x < 2 ^ 1024 - 2 ^ 970 ∧ |x - f.magnitude| ≤ f.ulp / 2 := fun h =>
    ⟨RoundsTo.toNearest hf h, h.bounded (Dbl.finite_bits.mp hf), by rw [f.magnitude_eq, f.ulp_eq]; exact h.error⟩
  obtain ⟨t, h1, ⟨h2, rfl⟩ | ⟨h2, h3, d, y, h4, h5, h6⟩ | ⟨h2, d, h3, h4, h5⟩⟩ := printDouble_ok hf p
  · refine ⟨_, 0, 0, h1, ?_, ?_, fun _ => roundedTo_zero p, fun _ => rfl, fun _ _ _ => ⟨0, by simp⟩, 0, 0, by simp, by norm_num, fun k _ _ => ?_⟩
    · refine fin ?_
      rw [h2]
      have := roundsTo_self 0
      rwa [magN_zero] at this
    · simp only [ne_eq, not_true_eq_false, decide_false, Bool.and_false]
      exact decimalText_zero
    · rw [bits_zero_magnitude.mp h2]
      simp
  · refine ⟨t, d.value, y, h1, fin h4.rounds, h6.decimal, fun _ => h5, fun h => ?_, fun k q hk => ?_, h4.toClosest⟩
    · have := bits_le_1e17.mp h3
      exact absurd h (not_lt.mpr this)
    · obtain ⟨a, b⟩ := hk.inside h2
      exact dec_value_decimals (h4.exponent_ge a b)
  · have hb : 0 < f.bits := by omega
    have hv : d.value ≠ 0 := by
      unfold Dec.value
      have : (0 : ℚ) < d.mantissa := by exact_mod_cast h3.pos
      exact (mul_pos this (zpow_pos (by norm_num) _)).ne'
    refine ⟨t, d.value, d.value, h1, fin h3.rounds, ?_, fun h => ?_, fun _ => rfl, fun k q hk => ?_, h3.toClosest⟩
    · rw [decide_eq_true hv, Bool.and_true]; exact h4
    · have := bits_le_1e17.mpr h; omega
    · obtain ⟨a, b⟩ := hk.inside hb
      exact dec_value_decimals (h3.exponent_ge a b)

theorem decimalText_word {t : List Byte} {neg : Bool} {x : ℚ} (h : DecimalText t neg x) : IsWord t := by
  obtain ⟨int, frac, exp, e, h1, h2, h3, h4, h5, h6⟩ := h
  have dig : ∀ {l : List Byte}, AllDigits l → ∀ c ∈ l, c ≠ 0 ∧ isSpace c = false ∧ c ≠ 40 ∧ c ≠ 41 ∧ c ≠ 44 := by
    intro l hl c hc
    have := hl c hc
    have ne : ∀ k : Byte, k.toNat < 48 → c ≠ k := by
      intro k hk he; rw [he] at this; omega
    refine ⟨ne 0 (by decide), ?_, ne 40 (by decide), ne 41 (by decide), ne 44 (by decide)⟩
    unfold isSpace
    simp only [Bool.or_eq_false_iff, decide_eq_false_iff_not]
    exact ⟨⟨⟨ne 32 (by decide), ne 9 (by decide)⟩, ne 10 (by decide)⟩, ne 13 (by decide)⟩
  constructor
  · rw [h4]
    intro hc
    simp only [List.append_eq_nil_iff] at hc
    exact h2 hc.1.1.2
  · intro c hc
    rw [h4] at hc
    simp only [List.mem_append] at hc
    rcases hc with ((hc | hc) | hc) | hc
    · cases neg
      · simp at hc
      · have : c = 45#8 := by simpa [str] using hc
        rw [this]; decide
    · exact dig h1 c hc
    · by_cases hf : frac = []
      · rw [if_pos hf] at hc; simp at hc
      · rw [if_neg hf, List.mem_append] at hc
        rcases hc with hc | hc
        · have : c = 46#8 := by simpa [str] using hc
          rw [this]; decide
        · exact dig h3 c hc
    · rcases h5 with ⟨h5, _⟩ | ⟨ds, d1, _, ⟨h5, _⟩ | ⟨h5, _⟩⟩ <;> rw [h5] at hc
      · simp at hc
      all_goals
        rw [List.mem_append] at hc
        rcases hc with hc | hc
        · revert c; decide
        · exact dig d1 c hc

theorem printDouble_any_length (f : Dbl) (p : Nat) : ∃ t, printDouble f p = some t ∧ IsWord t ∧ t.length ≤ max 36 (20 + p) := by
  by_cases hf : f.Finite
  · obtain ⟨t, x, y, a1, a2, a3, _⟩ := printDouble_text hf p
    obtain ⟨t', h1, h2⟩ := printDouble_ok hf p
    have e : t' = t := by rw [a1] at h1; injection h1 with h; exact h.symm
    subst e
    refine ⟨t', h1, decimalText_word a3, ?_⟩
    rcases h2 with ⟨h2, rfl⟩ | ⟨h2, h3, d, y, h4, h5, h6⟩ | ⟨h2, d, h3, h4, h5⟩
    · exact le_trans (by decide : _ ≤ 36) (Nat.le_max_left _ _)
    · have hy : y < 10 ^ 18 := by
        obtain ⟨k, k1, k2, _⟩ := h5
        have hm : magN f.bits ≤ 10 ^ 17 := by rw [← magN_1e17]; exact magN_strictMono.monotone h3
        have hg : gap f.bits ≤ 16 := by
          have : gap f.bits ≤ gap bits1e17 := by
            unfold gap
            refine zpow_le_zpow_right₀ (by norm_num) ?_
            have : f.bits / 2 ^ 52 ≤ bits1e17 / 2 ^ 52 := Nat.div_le_div_right h3
            omega
          have e : gap bits1e17 = 16 := by unfold gap bits1e17; norm_num
          linarith
        have hd := h4.rounds.hi
        have h10 : (1 : ℚ) ≤ 10 ^ p := one_le_pow₀ (by norm_num)
        have k3 := (abs_le.mp k2).2
        rw [k1, div_lt_iff₀ (by positivity)]
        have : d.value ≤ 10 ^ 17 + 8 := by linarith
        have hb : (10 : ℚ) ^ 17 + 8 + 1 < 10 ^ 18 := by norm_num
        nlinarith
      have := h6.length (n := 18) (by omega) hy
      omega
    · omega
  · have hexp : f.exponent = 2 ^ 11 - 1 := by
      have h1 : f.exponent = f.biased := by rw [f.exponent_eq, f.bits_div]
      have h2 : f.biased < 2 ^ 11 := Nat.mod_lt _ (by norm_num)
      unfold Dbl.Finite at hf
      omega
    have hs : f.special = true := by unfold Dbl.special; simp [hexp]
    have ht : printDouble f p = some (specialText f.sign f.exponent f.mantissa) := by
      unfold printDouble d2sExp d2sFixed
      rw [if_pos hs, if_pos hs, ite_self]
    refine ⟨_, ht, ?_⟩
    unfold specialText
    rw [hexp]
    split
    · exact ⟨⟨by decide, by decide⟩, le_trans (by decide : _ ≤ 36) (Nat.le_max_left _ _)⟩
    · rw [if_pos (by decide)]
      cases f.sign
      · exact ⟨⟨by decide, by decide⟩, le_trans (by decide : _ ≤ 36) (Nat.le_max_left _ _)⟩
      · exact ⟨⟨by decide, by decide⟩, le_trans (by decide : _ ≤ 36) (Nat.le_max_left _ _)⟩

theorem printDouble_length {f : Dbl} {p : Nat} (hp : p ≤ 16) : ∃ t, printDouble f p = some t ∧ IsWord t ∧ t.length ≤ 36 := by
  obtain ⟨t, h1, h2, h3⟩ := printDouble_any_length f p
  exact ⟨t, h1, h2, by omega⟩

/-- A double for which `p` decimals suffice is read back. -/
theorem printDouble_round {parse : List Byte → Option Dbl} (hc : CorrectParser parse) {f : Dbl} {p k : Nat} (hp : p < 10 ^ 8) (hk : StrictlyNearest (k / 10 ^ p) f)
    (h0 : f.magnitude = 0 → f.negative = false) : ∃ t, printDouble f p = some t ∧ IsWord t ∧ parse t = some f := by
  have hf := hk.1
  have fin : ∀ {t x}, printDouble f p = some t → RoundsTo f.bits x → (f.bits = 0 → x = 0) → DecimalText t f.negative x → parse t = some f := by
    intro t x hpr hr hx0 ht
    have hlen : t.length < 2 ^ 27 := by
      obtain ⟨t', l1, _, l3⟩ := printDouble_any_length f p
      rw [hpr] at l1
      injection l1 with l1
      rw [← l1] at l3
      omega
    have hx : x = 0 ∨ 2 ^ (-1075 : Int) < x := by
      by_cases hb : f.bits = 0
      · exact Or.inl (hx0 hb)
      · exact Or.inr (hr.above hb)
    obtain ⟨g, g1, g2, g3⟩ := hc t _ x hlen ht (hr.bounded (Dbl.finite_bits.mp hf)) hx
    rw [g1, Dbl.ext_bits g2 (nearest_unique hf hr g3)]
  obtain ⟨t, h1, ⟨h2, rfl⟩ | ⟨h2, h3, d, y, h4, h5, h6⟩ | ⟨h2, d, h3, h4, h5⟩⟩ := printDouble_ok hf p
  · refine ⟨_, h1, decimalText_word decimalText_zero, fin (x := 0) h1 ?_ (fun _ => rfl) ?_⟩
    · rw [h2]; have := roundsTo_self 0; rwa [magN_zero] at this
    · rw [h0 (bits_zero_magnitude.mp h2)]; exact decimalText_zero
  · obtain ⟨a, b⟩ := hk.inside h2
    have hy : y = d.value := roundedTo_unique (h4.exponent_ge a b) h5
    have hv : d.value ≠ 0 := by
      unfold Dec.value
      have : (0 : ℚ) < d.mantissa := by exact_mod_cast h4.pos
      exact (mul_pos this (zpow_pos (by norm_num) _)).ne'
    subst hy
    have hd := h6.decimal
    rw [decide_eq_true hv, Bool.and_true] at hd
    exact ⟨t, h1, decimalText_word hd, fin h1 h4.rounds (fun h => absurd h (by omega)) hd⟩
  · exact ⟨t, h1, decimalText_word h4, fin h1 h3.rounds (fun h => absurd h (by omega)) h4⟩

/-- From one half on sixteen decimals suffice. -/
theorem sixteen {f : Dbl} (hf : f.Finite) (h : 1 / 2 ≤ f.magnitude) : ∃ k : Nat, StrictlyNearest (k / 10 ^ 16) f := by
  have ehalf : magN 0x3FE0000000000000 = 1 / 2 := by unfold magN; norm_num
  have hge : 0x3FE0000000000000 ≤ f.bits := by
    rw [f.magnitude_eq, ← ehalf] at h
    exact magN_strictMono.le_iff_le.mp h
  have hpos : 0 < f.bits := by omega
  rcases Nat.lt_or_eq_of_le hge with hlt | heq
  · have hgp := gap_pred hpos
    have hgap : (10 ^ 16 : ℚ)⁻¹ < gap f.bits / 2 + gap (f.bits - 1) / 2 := by
      rw [hgp]
      split
      next hm =>
        have : (2 : ℚ) ^ (-53 : Int) ≤ gap f.bits := by
          unfold gap
          refine zpow_le_zpow_right₀ (by norm_num) ?_
          have : 0x3FE0000000000000 / 2 ^ 52 ≤ f.bits / 2 ^ 52 := Nat.div_le_div_right hge
          omega
        norm_num at this ⊢
        linarith
      next hm =>
        have : (2 : ℚ) ^ (-52 : Int) ≤ gap f.bits := by
          unfold gap
          refine zpow_le_zpow_right₀ (by norm_num) ?_
          omega
        norm_num at this ⊢
        linarith
    obtain ⟨k, k1, k2⟩ := exists_multiple (a := magN f.bits - gap (f.bits - 1) / 2) (b := magN f.bits + gap f.bits / 2) (c := (10 ^ 16 : ℚ)⁻¹)
      (RoundsTo.lo_nonneg hpos) (by positivity) (by linarith)
    exact ⟨k, StrictlyRounds.strict hf ⟨by rw [div_eq_mul_inv]; exact k1, by rw [div_eq_mul_inv]; exact k2⟩⟩
  · refine ⟨5 * 10 ^ 15, StrictlyRounds.strict hf ?_⟩
    have e : (((5 * 10 ^ 15 : Nat) : ℚ) / 10 ^ 16) = magN f.bits := by rw [← heq, ehalf]; norm_num
    rw [e]
    have g1 := gap_pos f.bits
    have g2 := gap_pos (f.bits - 1)
    exact ⟨by linarith, by linarith⟩

/-- Below a third of the last decimal nothing is left. -/
theorem printDouble_tiny {f : Dbl} {p : Nat} (h : f.magnitude < 1 / (3 * 10 ^ p)) (hf : f.Finite) :
    ∃ t, printDouble f p = some t ∧ DecimalText t false 0 := by
  obtain ⟨t, h1, ⟨h2, rfl⟩ | ⟨h2, h3, d, y, h4, h5, h6⟩ | ⟨h2, d, h3, h4, h5⟩⟩ := printDouble_ok hf p
  · exact ⟨_, h1, decimalText_zero⟩
  · refine ⟨t, h1, ?_⟩
    have hg : gap f.bits ≤ magN f.bits := by
      unfold gap magN
      have hp : (0 : ℚ) < 2 ^ ((max (f.bits / 2 ^ 52) 1 : Nat) - 1075 : Int) := zpow_pos (by norm_num) _
      refine le_mul_of_one_le_left hp.le ?_
      exact_mod_cast (show 1 ≤ (if f.bits / 2 ^ 52 = 0 then f.bits % 2 ^ 52 else 2 ^ 52 + f.bits % 2 ^ 52) by split <;> omega)
    have hd := h4.rounds.hi
    rw [f.magnitude_eq, lt_div_iff₀ (by positivity)] at h
    obtain ⟨k, k1, k2, _⟩ := h5
    have hp : (0 : ℚ) < 10 ^ p := by positivity
    have hk : (k : ℚ) < 1 := by
      have := (abs_le.mp k2).2
      nlinarith
    have hk0 : k = 0 := by
      have : k < 1 := by exact_mod_cast hk
      omega
    have hy : y = 0 := by rw [k1, hk0]; simp
    have := h6.decimal
    rw [hy] at this
    simpa using this
  · exfalso
    have h7 : (10 : ℚ) ^ 17 < f.magnitude := by
      rw [f.magnitude_eq, ← magN_1e17]; exact magN_strictMono h2
    have h8 : 1 / (3 * (10 : ℚ) ^ p) ≤ 1 := by
      rw [div_le_one (by positivity)]
      have : (1 : ℚ) ≤ 10 ^ p := one_le_pow₀ (by norm_num)
      linarith
    have : (1 : ℚ) < 10 ^ 17 := by norm_num
    linarith

end Verif
