import Verif.Proof.PrintRound
import Verif.Props.WktReader
/-!
# C57, C66: printing doubles and reading them back

The printer is the default one, Ryu. Theorems hold for every parser that rounds correctly, such as the default one (C69)
(`CorrectParser`), and `C57_parser_exists` shows that there is one.
-/
namespace Verif
open Spec

/-- Every finite double is printed, as a decimal. Up to 10^17 the text is some decimal `x` that rounds to the double, itself rounded to the
precision; beyond, it is such an `x` unchanged. `x` has no more decimals than any decimal that lies nearer to the double than to all others,
and with the power of ten it is written with no decimal that rounds to the double is closer to it. The sign is printed unless the text is a zero. -/
theorem C66_text {f : Dbl} (hf : f.Finite) (p : Nat) :
    ∃ t x y, printDouble f p = some t ∧ Nearest x f ∧ x < 2 ^ 1024 - 2 ^ 970 ∧ DecimalText t (f.negative && decide (y ≠ 0)) y ∧
      (f.magnitude ≤ 10 ^ 17 → RoundedTo p x y) ∧ (10 ^ 17 < f.magnitude → y = x) ∧
      (∀ (k q : Nat), StrictlyNearest (k / 10 ^ q) f → ∃ j : Nat, x = j / 10 ^ q) ∧
      (∃ (m : Nat) (e : Int), x = m * 10 ^ e ∧ m < 10 ^ 17 ∧ ∀ k : Nat, (k * 10 ^ e : ℚ) < 2 ^ 1024 - 2 ^ 970 → Nearest (k * 10 ^ e) f →
        |x - f.magnitude| ≤ |k * 10 ^ e - f.magnitude|) := by
  obtain ⟨t, x, y, h1, h2, h3⟩ := printDouble_text hf p
  exact ⟨t, x, y, h1, h2.1, h2.2.1, h3⟩

theorem strict_tenth : StrictlyNearest ((1 : Nat) / 10 ^ 1) 0x3FB999999999999A#64 := by
  refine StrictlyRounds.strict (by unfold Dbl.Finite; decide) ?_
  have : Dbl.bits 0x3FB999999999999A#64 = 0x3FB999999999999A := by decide
  rw [this]
  unfold StrictlyRounds magN gap
  norm_num

/-- The double of one tenth, and one beyond 10^17. -/
example : printDouble 0x3FB999999999999A#64 16 = some (str "0.1") ∧ StrictlyNearest ((1 : Nat) / 10 ^ 1) 0x3FB999999999999A#64 :=
  ⟨by decide +kernel, strict_tenth⟩
example : printDouble 0xC3ABC16D674EC801#64 3 = some (str "-1.0000000000000001e+18") := by decide +kernel

/-- No double, not even an infinity or a NaN, needs more than 36 characters at the precisions the writer uses, and the text is one word. -/
theorem C66_length (f : Dbl) {p : Nat} (hp : p ≤ 16) : ∃ t, printDouble f p = some t ∧ IsWord t ∧ t.length ≤ 36 :=
  printDouble_length hp

example : printDouble 0xC33FFFFFFFFFFFFF#64 16 = some (str "-9007199254740991") := by decide +kernel
example : printDouble 0xFFF0000000000000#64 16 = some (str "-Infinity") ∧ printDouble 0x7FF8000000000000#64 0 = some (str "nan") := by decide +kernel

/-- The error of the text is at most half a unit of the last decimal and half a unit of the last place. -/
theorem C66_error {f : Dbl} (hf : f.Finite) (p : Nat) :
    ∃ t y, printDouble f p = some t ∧ DecimalText t (f.negative && decide (y ≠ 0)) y ∧ |y - f.magnitude| ≤ 1 / (2 * 10 ^ p) + f.ulp / 2 := by
  obtain ⟨t, x, y, h1, ⟨_, _, hx⟩, h3, h4, h5, _⟩ := printDouble_text hf p
  refine ⟨t, y, h1, h3, ?_⟩
  have hp : (0 : ℚ) < 10 ^ p := by positivity
  have hy : |y - x| ≤ 1 / (2 * 10 ^ p) := by
    rcases le_or_gt f.magnitude (10 ^ 17) with h | h
    · obtain ⟨k, k1, k2, _⟩ := h4 h
      have e : (k - x * 10 ^ p : ℚ) = (y - x) * 10 ^ p := by rw [k1]; field_simp
      rw [e, abs_mul, abs_of_pos hp] at k2
      rw [le_div_iff₀ (by positivity)]
      linarith
    · rw [h5 h, sub_self, abs_zero]; positivity
  exact le_trans (abs_sub_le _ x _) (by linarith)

example : Dbl.Finite 0x3FB999999999999A#64 := by unfold Dbl.Finite; decide

/-- If a decimal with `p` decimals is nearer to the double than to all others, the double printed with precision `p` is read back by every
parser that rounds correctly. Negative zero is excluded. -/
theorem C57_decimals {parse : List Byte → Option Dbl} (hc : CorrectParser parse) {f : Dbl} {p k : Nat} (hp : p < 10 ^ 8) (hk : StrictlyNearest (k / 10 ^ p) f)
    (h0 : f.magnitude = 0 → f.negative = false) : ∃ t, printDouble f p = some t ∧ parse t = some f := by
  obtain ⟨t, h1, _, h2⟩ := printDouble_round hc hp hk h0
  exact ⟨t, h1, h2⟩

/-- Zero and all doubles from one half on survive printing with precision 16 and parsing.

Partial: the property asks for every finite double; see `C57_lost`, `C57_tiny` and `C57_negative_zero` for what happens to others. -/
theorem C57_round_trip_partial {parse : List Byte → Option Dbl} (hc : CorrectParser parse) {f : Dbl} (hf : f.Finite)
    (h : f = 0 ∨ 1 / 2 ≤ f.magnitude) : ∃ t, printDouble f 16 = some t ∧ parse t = some f := by
  rcases h with rfl | h
  · refine C57_decimals (k := 0) hc (by norm_num) (StrictlyRounds.strict hf ?_) (fun _ => by decide)
    have e : Dbl.bits 0 = 0 := by decide
    rw [e]
    unfold StrictlyRounds
    rw [magN_zero]
    have := gap_pos 0
    exact ⟨by simp; linarith, by simp; linarith⟩
  · obtain ⟨k, hk⟩ := sixteen hf h
    exact C57_decimals hc (by norm_num) hk (fun h0 => by rw [h0] at h; norm_num at h)

/-- There is a parser that rounds correctly. It refuses the empty text and texts that begin with `E`. -/
theorem C57_parser_exists : ∃ parse : List Byte → Option Dbl, CorrectParser parse ∧ parse [] = none ∧ ∀ w, parse (69 :: w) = none := by
  refine ⟨chosenParser, chosenParser_correct, chosenParser_none ?_, fun w => chosenParser_none ?_⟩
  · intro neg x h
    exact (decimalText_word h).1 rfl
  · rintro neg x ⟨int, frac, exp, e, h1, h2, h3, h4, h5, h6⟩
    cases neg
    · match int, h1, h2 with
      | b :: int, h1, _ =>
        injection h4 with h4 _
        have := h1 b List.mem_cons_self
        rw [← h4] at this
        exact absurd this (by decide)
    · injection h4 with h4 _
      exact absurd h4 (by decide)

/-- The hypotheses are met by the double of one tenth with any precision and by the largest double. -/
example {parse : List Byte → Option Dbl} (hc : CorrectParser parse) :
    (∃ t, printDouble 0x3FB999999999999A#64 1 = some t ∧ parse t = some 0x3FB999999999999A#64) ∧
    (∃ t, printDouble 0x7FEFFFFFFFFFFFFF#64 16 = some t ∧ parse t = some 0x7FEFFFFFFFFFFFFF#64) := by
  refine ⟨C57_decimals hc (by norm_num) strict_tenth (fun h => ?_), C57_round_trip_partial hc (by unfold Dbl.Finite; decide) (.inr ?_)⟩
  · have := bits_zero_magnitude.mpr h
    exact absurd this (by decide)
  · rw [Dbl.magnitude_eq]
    have e : magN 0x3FE0000000000000 = 1 / 2 := by unfold magN; norm_num
    rw [← e]
    exact magN_strictMono.monotone (by decide)

/-- 0.1 + 0.2 is printed as "0.3" with precision 16, which no correct parser reads as it. -/
theorem C57_lost {parse : List Byte → Option Dbl} (hc : CorrectParser parse) :
    ∃ f : Dbl, f.Finite ∧ printDouble f 16 = some (str "0.3") ∧ parse (str "0.3") ≠ some f := by
  refine ⟨0x3FD3333333333334#64, by unfold Dbl.Finite; decide, by decide +kernel, fun h => ?_⟩
  have ht : DecimalText (str "0.3") false (3 / 10) := by
    refine ⟨str "0", str "3", [], 0, by unfold AllDigits; decide, by decide, by unfold AllDigits; decide, by decide, .inl ⟨rfl, rfl⟩, ?_⟩
    have e1 : digitsValue (str "0" ++ str "3") = 3 := by decide
    have e2 : (str "3").length = 1 := by decide
    rw [e1, e2]; norm_num
  have hr : RoundsTo (Dbl.bits 0x3FD3333333333333#64) (3 / 10) := by
    refine StrictlyRounds.rounds ?_
    have : Dbl.bits 0x3FD3333333333333#64 = 0x3FD3333333333333 := by decide
    rw [this]
    unfold StrictlyRounds magN gap
    norm_num
  have hf : Dbl.Finite 0x3FD3333333333333#64 := by unfold Dbl.Finite; decide
  obtain ⟨g, g1, _, g3⟩ := hc _ _ _ (by decide) ht (hr.bounded (Dbl.finite_bits.mp hf)) (Or.inr (hr.above (by decide)))
  have h5 := nearest_unique hf hr g3
  rw [h] at g1
  injection g1 with g1
  rw [← g1] at h5
  exact absurd h5 (by decide)

/-- Doubles below a third of the last decimal are printed as zero, whatever their sign, so they are read back as zero. -/
theorem C57_tiny {f : Dbl} {p : Nat} (hf : f.Finite) (h : f.magnitude < 1 / (3 * 10 ^ p)) : ∃ t, printDouble f p = some t ∧ DecimalText t false 0 :=
  printDouble_tiny h hf

example : printDouble 0x3C670EF54646D497#64 16 = some (str "0") := by decide +kernel

/-- Negative zero is printed without its sign. -/
theorem C57_negative_zero {parse : List Byte → Option Dbl} (hc : CorrectParser parse) (p : Nat) :
    ∃ t, printDouble 0x8000000000000000#64 p = some t ∧ parse t = some 0 := by
  obtain ⟨t, h1, ⟨_, rfl⟩ | ⟨h2, _⟩ | ⟨h2, _⟩⟩ := printDouble_ok (f := 0x8000000000000000#64) (by unfold Dbl.Finite; decide) p
  · refine ⟨_, h1, ?_⟩
    have hf : Dbl.Finite 0#64 := by unfold Dbl.Finite; decide
    have hr : RoundsTo (Dbl.bits 0#64) 0 := by
      have := roundsTo_self 0
      rwa [magN_zero] at this
    obtain ⟨g, g1, g2, g3⟩ := hc _ _ _ (by decide) decimalText_zero (hr.bounded (Dbl.finite_bits.mp hf)) (Or.inl rfl)
    rw [g1, Dbl.ext_bits (f := g) (g := 0#64) (by rw [g2]; decide) (nearest_unique hf hr g3)]
    rfl
  · exact absurd h2 (by decide)
  · exact absurd h2 (by decide)

/-- The printer the well-known text writer calls. It never asks for more than 16 decimals (`C66_writer_precision`). -/
def ryuPrint (n : Nat) (x : Dbl) : List Byte := (printDouble x (min n 16)).getD []

theorem C66_writer_precision (raw : WktW) (prec : Int) (flat : Bool) (maxSize : Int) : (wktInitVisitor prec flat maxSize (wktInit raw)).precision ≤ 16 ∧
    (0 ≤ prec → prec ≤ 16 → ((wktInitVisitor prec flat maxSize (wktInit raw)).precision : Int) = prec) := by
  unfold wktInitVisitor
  dsimp only
  split <;> omega

/-- `p` decimals suffice for the double, and it is not negative zero. -/
def ShortDecimal (p : Nat) (x : Dbl) : Prop := (∃ k : Nat, StrictlyNearest (k / 10 ^ p) x) ∧ (x.magnitude = 0 → x.negative = false)

theorem ShortDecimal.words {parse : List Byte → Option Dbl} (hc : CorrectParser parse) {p : Nat} (hp : p ≤ 16) {x : Dbl} (h : ShortDecimal p x) :
    PrintsWords parse (ryuPrint p) x := by
  obtain ⟨⟨k, hk⟩, h0⟩ := h
  obtain ⟨t, h1, h2, h3⟩ := printDouble_round hc (by omega) hk h0
  unfold PrintsWords ryuPrint
  rw [Nat.min_eq_left hp, h1]
  exact ⟨h2, h3⟩

mutual
theorem ordinates_mono {P Q : Dbl → Prop} (h : ∀ x, P x → Q x) : ∀ g : Geom, g.Ordinates P → g.Ordinates Q
  | .point _ cs, hg => by simp only [Geom.Ordinates] at *; exact fun c hc x hx => h x (hg c hc x hx)
  | .linestring _ cs, hg => by simp only [Geom.Ordinates] at *; exact fun c hc x hx => h x (hg c hc x hx)
  | .polygon _ rs, hg => by simp only [Geom.Ordinates] at *; exact fun r hr c hc x hx => h x (hg r hr c hc x hx)
  | .multi _ _ ps, hg => by simp only [Geom.Ordinates] at *; exact ordinates_monoL h ps hg
theorem ordinates_monoL {P Q : Dbl → Prop} (h : ∀ x, P x → Q x) : ∀ gs : List Geom, Geom.OrdinatesL P gs → Geom.OrdinatesL Q gs
  | [], _ => by simp only [Geom.OrdinatesL]
  | g :: gs, hg => by
    simp only [Geom.OrdinatesL] at *
    exact ⟨ordinates_mono h g hg.1, ordinates_monoL h gs hg.2⟩
end

/-- With the real printer and any correct parser, a geometry written as well-known text and read again is the same geometry, if the precision
suffices for its ordinates.

Partial: as `C27_write_then_read_partial`, and for these ordinates only. -/
theorem C57_wkt_round_trip_partial {parse : List Byte → Option Dbl} (hc : CorrectParser parse) (hpe : parse [] = none)
    (hE : ∀ w, parse (69 :: w) = none) {g : Geom} {t : List Event} (ht : FeatureTrace g t) (hw : g.WF) (hu : g.Uniform) (hs : g.SinglePoints)
    (hh : g.height ≤ 31) (raw : WktW) {p : Nat} (hp : p ≤ 16) (flat : Bool) (hn : g.Ordinates (ShortDecimal p))
    (hf : flat = true → g.FlatReadable) (r : WktR) :
    ∃ s' t', feed (wktHandler ryuPrint) t (wktInitVisitor p flat (-1) (wktInit raw)) = .ok () s' ∧
      Behaves (fun _ h => wktVisit parse s'.values h r) t' (.done ()) ∧ FeatureTrace g t' := by
  refine C27_write_then_read_partial hpe hE (fun n x => ?_) ht hw hu hs hh raw p flat (ordinates_mono (fun x hx => ?_) g hn) hf r
  · obtain ⟨t, h1, _, h3⟩ := printDouble_length (f := x) (p := min n 16) (Nat.min_le_right _ _)
    unfold ryuPrint
    rw [h1]
    show t.length ≤ 40
    omega
  · have e : (wktInitVisitor p flat (-1) (wktInit raw)).precision = p := by
      have := (C66_writer_precision raw p flat (-1)).2 (by omega) (by omega)
      omega
    rw [e]
    exact hx.words hc hp

theorem shortDecimal_sixteen {x : Dbl} (hf : x.Finite) (h : 1 / 2 ≤ x.magnitude) : ShortDecimal 16 x :=
  ⟨sixteen hf h, fun h0 => by rw [h0] at h; norm_num at h⟩

/-- The default precision, 16, suffices for all ordinates that are at least one half in absolute value, so geometries with such ordinates
survive. -/
theorem C57_wkt_default_partial {parse : List Byte → Option Dbl} (hc : CorrectParser parse) (hpe : parse [] = none)
    (hE : ∀ w, parse (69 :: w) = none) {g : Geom} {t : List Event} (ht : FeatureTrace g t) (hw : g.WF) (hu : g.Uniform) (hs : g.SinglePoints)
    (hh : g.height ≤ 31) (raw : WktW) (flat : Bool) (hn : g.Ordinates (fun x => x.Finite ∧ 1 / 2 ≤ x.magnitude))
    (hf : flat = true → g.FlatReadable) (r : WktR) :
    ∃ s' t', feed (wktHandler ryuPrint) t (wktInitVisitor 16 flat (-1) (wktInit raw)) = .ok () s' ∧
      Behaves (fun _ h => wktVisit parse s'.values h r) t' (.done ()) ∧ FeatureTrace g t' :=
  C57_wkt_round_trip_partial hc hpe hE ht hw hu hs hh raw (p := 16) (Nat.le_refl _) flat
    (ordinates_mono (fun _ hx => shortDecimal_sixteen hx.1 hx.2) g hn) hf r

theorem exOrdinate {x : Dbl} (h : x = dbl1 ∨ x = dbl2 ∨ x = dbl3 ∨ x = dbl4) : x.Finite ∧ 1 / 2 ≤ x.magnitude := by
  have e : magN 0x3FE0000000000000 = 1 / 2 := by unfold magN; norm_num
  rw [Dbl.magnitude_eq, ← e]
  rcases h with rfl | rfl | rfl | rfl <;> exact ⟨by unfold Dbl.Finite; decide, magN_strictMono.monotone (by decide)⟩

/-- The hypotheses are met by the example geometry and the parser of `C57_parser_exists`. -/
example (raw : WktW) : ∃ parse : List Byte → Option Dbl, ∀ t, FeatureTrace exWktGeom t → ∃ s' t',
    feed (wktHandler ryuPrint) t (wktInitVisitor 16 false (-1) (wktInit raw)) = .ok () s' ∧
      Behaves (fun _ h => wktVisit parse s'.values h exWktR) t' (.done ()) ∧ FeatureTrace exWktGeom t' := by
  obtain ⟨parse, h1, h2, h3⟩ := C57_parser_exists
  refine ⟨parse, fun t ht => C57_wkt_default_partial h1 h2 h3 ht (by simp [exWktGeom, Geom.WF, Geom.WFL, Dims.n])
    (by simp [exWktGeom, Geom.Uniform, Geom.UniformL, FitsMember]) (by simp [exWktGeom, Geom.SinglePoints, Geom.SinglePointsL])
    (by simp [exWktGeom, Geom.height, Geom.heightL]) raw false ?_ (fun h => by cases h) exWktR⟩
  have h1 := exOrdinate (Or.inl rfl)
  have h2 := exOrdinate (Or.inr (Or.inl rfl))
  have h3 := exOrdinate (Or.inr (Or.inr (Or.inl rfl)))
  have h4 := exOrdinate (Or.inr (Or.inr (Or.inr rfl)))
  have key : ∀ Q : Dbl → Prop, Q dbl1 → Q dbl2 → Q dbl3 → Q dbl4 → exWktGeom.Ordinates Q := fun Q a b c d => by
    simp [exWktGeom, Geom.Ordinates, Geom.OrdinatesL, a, b, c, d]
  exact key _ h1 h2 h3 h4

end Verif
