import Verif.Spec.StdNumbers
import Verif.Proof.FFNumber
import Verif.Proof.PrintRound
import Mathlib.Data.Nat.Find
/-!
# Numbers without the bundled libraries
-/
namespace Verif
open Spec

/-! ## Printing -/

theorem stripLoop_zeros (n : Nat) (r : List Byte) : stripLoop (List.replicate n 48 ++ r) = stripLoop r := by
  induction n with
  | zero => rfl
  | succ n ih => rw [List.replicate_succ, List.cons_append, stripLoop, if_pos rfl, ih]

theorem trailing_zeros (frac : List Byte) : ∃ frac' n, frac = frac' ++ List.replicate n (48 : Byte) ∧ ∀ u, frac' ≠ u ++ [48] := by
  induction h : frac.length generalizing frac with
  | zero =>
    rw [List.length_eq_zero_iff] at h
    exact ⟨[], 0, by simp [h], fun u => by simp⟩
  | succ n ih =>
    by_cases hu : ∃ u, frac = u ++ [48]
    · obtain ⟨u, hu⟩ := hu
      obtain ⟨f', m, h1, h2⟩ := ih u (by rw [hu] at h; simp at h; omega)
      exact ⟨f', m + 1, by rw [hu, h1, List.append_assoc, ← List.replicate_succ'], h2⟩
    · exact ⟨frac, 0, by simp, fun u hc => hu ⟨u, hc⟩⟩

theorem strip_fixed (pre : List Byte) {frac : List Byte} (hf : AllDigits frac) : ∃ frac' n, frac = frac' ++ List.replicate n (48 : Byte) ∧
    (∀ u, frac' ≠ u ++ [48]) ∧ (stripLoop (pre ++ (str "." ++ frac)).reverse).reverse = pre ++ (if frac' = [] then [] else str "." ++ frac') := by
  obtain ⟨f', n, h1, h2⟩ := trailing_zeros frac
  refine ⟨f', n, h1, h2, ?_⟩
  have e : (pre ++ (str "." ++ frac)).reverse = List.replicate n 48 ++ (pre ++ (str "." ++ f')).reverse := by
    rw [h1]; simp
  rw [e, stripLoop_zeros]
  by_cases h0 : f' = []
  · rw [if_pos h0, h0]
    have : (pre ++ (str "." ++ [])).reverse = 46 :: pre.reverse := by simp [str]
    rw [this, stripLoop, if_neg (by decide), if_pos rfl]
    simp
  · rw [if_neg h0]
    obtain ⟨u, b, hb⟩ : ∃ u b, f' = u ++ [b] := ⟨_, _, (List.dropLast_append_getLast h0).symm⟩
    have hd := hf b (by rw [h1, hb]; simp)
    have b1 : b ≠ 48 := fun hc => h2 u (by rw [hb, hc])
    have b2 : b ≠ 46 := fun hc => by rw [hc] at hd; exact absurd hd (by decide)
    have : (pre ++ (str "." ++ f')).reverse = b :: (pre ++ (str "." ++ u)).reverse := by rw [hb]; simp
    rw [this, stripLoop, if_neg b1, if_neg b2, ← this, List.reverse_reverse]

theorem digitsValue_zeros (l : List Byte) (n : Nat) : digitsValue (l ++ List.replicate n 48) = digitsValue l * 10 ^ n := by
  have h := (zeros_ok n).2
  rw [show (digit 0) = (48 : Byte) from by decide] at h
  rw [digitsValue_append, h, List.length_replicate, Nat.add_zero]

/-- No needless zeros. -/
theorem digits_length {l : List Byte} (h : AllDigits l) (hne : l ≠ []) (hz : ∀ r, l = 48 :: r → r = []) : l.length ≤ 1 ∨ 10 ^ (l.length - 1) ≤ digitsValue l := by
  cases l with
  | nil => exact absurd rfl hne
  | cons b r =>
    by_cases hb : b = 48
    · left
      rw [hz r (by rw [hb])]; simp
    · right
      rw [FF.digitsValue_cons]
      have h1 := h b List.mem_cons_self
      have h2 : b.toNat ≠ 48 := fun hc => hb (BitVec.eq_of_toNat_eq hc)
      have : 1 * 10 ^ r.length ≤ (b.toNat - 48) * 10 ^ r.length := Nat.mul_le_mul_right _ (by omega)
      simp only [List.length_cons, Nat.add_sub_cancel]
      omega

theorem gt_1e17 {f : Dbl} (hf : f.Finite) : (f.gt dbl1e17 || Dbl.gt (0xC376345785D8A000#64) f) = decide (10 ^ 17 < f.magnitude) := by
  have hb := Dbl.finite_bits.mp hf
  unfold bitsMax at hb
  have e1 : (f.gt dbl1e17 || Dbl.gt (0xC376345785D8A000#64) f) = decide (bits1e17 < f.bits) := by
    unfold Dbl.gt
    have k1 : dbl1e17.toNat = 0x4376345785D8A000 := rfl
    have k2 : (0xC376345785D8A000#64).toNat = 0xC376345785D8A000 := rfl
    dsimp only
    simp only [k1, k2]
    unfold bits1e17 Dbl.bits at *
    have := f.isLt
    rw [Bool.eq_iff_iff]
    simp only [Bool.or_eq_true, Bool.and_eq_true, decide_eq_true_eq]
    by_cases hs : f.toNat < 2 ^ 63
    · simp only [hs, if_true]; norm_num; omega
    · simp only [hs, if_false]; norm_num; omega
  rw [e1]
  congr 1
  have := bits_le_1e17 (f := f)
  exact propext ⟨fun h => not_le.mp fun hc => absurd (this.mpr hc) (by omega), fun h => by
    by_contra hc
    exact absurd (this.mp (by omega)) (not_le.mpr h)⟩

/-- What is printed for a number that is not too large. -/
theorem stdPrint_small {L : Libc} (hL : SnprintfOk L) {f : Dbl} (hf : f.Finite) (hm : f.magnitude ≤ 10 ^ 17) {p : Nat} (h1 : 1 ≤ p) (h19 : p ≤ 19) :
    ∃ (int frac : List Byte) (y : ℚ), AllDigits int ∧ int ≠ [] ∧ (∀ r, int = 48 :: r → r = []) ∧ AllDigits frac ∧ (∀ u, frac ≠ u ++ [48]) ∧
      frac.length ≤ p ∧ int.length ≤ 18 ∧
      stdPrint L p f = (if f.negative then str "-" else []) ++ int ++ (if frac = [] then [] else str "." ++ frac) ∧
      y = digitsValue (int ++ frac) * 10 ^ ((0 : Int) - frac.length) ∧ RoundedTo p f.magnitude y := by
  obtain ⟨k, ⟨int, frac, a1, a2, a3, a4, a5, a6, a7⟩, hr⟩ := hL.fixed p f hf
  rw [if_neg (by omega : ¬ p = 0)] at a6
  obtain ⟨frac', n, b1, b2, b3⟩ := strip_fixed ((if f.negative then str "-" else []) ++ int) a4
  have hp : (0 : ℚ) < 10 ^ p := by positivity
  have hlen : int.length ≤ 18 := by
    rcases digits_length a1 a2 a3 with h | h
    · omega
    · by_contra hc
      have hk : (k : ℚ) ≤ 10 ^ 17 * 10 ^ p + 1 / 2 := by
        obtain ⟨j, j1, j2, _⟩ := hr
        have : k = j := by
          rw [div_left_inj' hp.ne'] at j1
          exact_mod_cast j1
        subst this
        have := (abs_le.mp j2).2
        have h3 : f.magnitude * 10 ^ p ≤ 10 ^ 17 * 10 ^ p := mul_le_mul_of_nonneg_right hm hp.le
        linarith
      have hk2 : 10 ^ 18 * 10 ^ p ≤ k := by
        rw [← a7, digitsValue_append, a5]
        have : 10 ^ 18 ≤ digitsValue int := le_trans (Nat.pow_le_pow_right (by decide) (by omega)) h
        exact le_trans (Nat.mul_le_mul_right _ this) (Nat.le_add_right _ _)
      have hk3 : (10 ^ 18 * 10 ^ p : ℚ) ≤ k := by exact_mod_cast hk2
      have h10 : (1 : ℚ) ≤ 10 ^ p := one_le_pow₀ (by norm_num)
      linarith
  have hcut : (L.fixed p f).take 39 = L.fixed p f := by
    apply List.take_of_length_le
    rw [a6]
    have hs : (if f.negative then str "-" else []).length ≤ 1 := by split <;> decide
    simp only [List.length_append] at *
    have : (str ".").length = 1 := rfl
    omega
  have hd : digitsValue (int ++ frac) = digitsValue (int ++ frac') * 10 ^ n := by
    rw [b1, ← List.append_assoc, digitsValue_zeros]
  have hn : frac'.length + n = p := by rw [← a5, b1, List.length_append, List.length_replicate]
  refine ⟨int, frac', k / 10 ^ p, a1, a2, a3, (b1 ▸ a4).left, b2, by omega, hlen, ?_, ?_, hr⟩
  · unfold stdPrint
    rw [gt_1e17 hf, if_neg (by simpa using hm), hcut, a6, b3]
  · rw [← a7, hd, ← hn]
    push_cast
    rw [pow_add, zero_sub, zpow_neg, zpow_natCast, mul_div_mul_right _ _ (by positivity), div_eq_mul_inv]

theorem magN_gap_pred {n : Nat} (hn : 0 < n) : magN n ≤ 2 ^ 53 * gap (n - 1) := by
  have e : magN n = (if n / 2 ^ 52 = 0 then n % 2 ^ 52 else 2 ^ 52 + n % 2 ^ 52 : Nat) * gap n := rfl
  have hg := gap_pos n
  rw [gap_pred hn, e]
  by_cases h : n % 2 ^ 52 ≠ 0 ∨ n / 2 ^ 52 ≤ 1
  · rw [if_pos h]
    refine mul_le_mul_of_nonneg_right ?_ hg.le
    have : (if n / 2 ^ 52 = 0 then n % 2 ^ 52 else 2 ^ 52 + n % 2 ^ 52 : Nat) ≤ 2 ^ 53 := by split <;> omega
    exact_mod_cast this
  · rw [if_neg h]
    have h1 : n % 2 ^ 52 = 0 := by omega
    have h2 : ¬ n / 2 ^ 52 = 0 := by omega
    rw [if_neg h2, h1]
    push_cast
    linarith

/-- Seventeen digits suffice. -/
theorem seventeen {n : Nat} {k e : Nat} (hn : 0 < n) (hk : 10 ^ 16 ≤ k) (h : |(k : ℚ) - magN n * 10 ^ (16 - (e : Int))| ≤ 1 / 2) :
    StrictlyRounds n (k * 10 ^ ((e : Int) - 16)) := by
  have hu : (0 : ℚ) < 10 ^ ((e : Int) - 16) := zpow_pos (by norm_num) _
  have hinv : (10 : ℚ) ^ (16 - (e : Int)) * 10 ^ ((e : Int) - 16) = 1 := by
    rw [← zpow_add₀ (by norm_num)]
    simp
  generalize (10 : ℚ) ^ ((e : Int) - 16) = u at *
  generalize (10 : ℚ) ^ (16 - (e : Int)) = v at *
  have hkq : (10 ^ 16 : ℚ) ≤ k := by exact_mod_cast hk
  obtain ⟨l1, l2⟩ := abs_le.mp h
  have m1 : (k - 1 / 2) * u ≤ magN n := by
    have := mul_le_mul_of_nonneg_right (show (k - 1 / 2 : ℚ) ≤ magN n * v by linarith) hu.le
    rwa [mul_assoc, hinv, mul_one] at this
  have m2 : magN n ≤ (k + 1 / 2) * u := by
    have := mul_le_mul_of_nonneg_right (show magN n * v ≤ (k + 1 / 2 : ℚ) by linarith) hu.le
    rwa [mul_assoc, hinv, mul_one] at this
  have g1 := magN_gap_pred hn
  have g2 : gap (n - 1) ≤ gap n := by
    rw [gap_pred hn]
    have := gap_pos n
    split <;> linarith
  have m3 : ((10 : ℚ) ^ 16 - 1 / 2) * u ≤ (k - 1 / 2) * u := mul_le_mul_of_nonneg_right (by linarith) hu.le
  have m4 : u < gap (n - 1) := by
    norm_num at g1 m3
    linarith
  constructor <;> linarith

/-- If some decimal with `p` digits after the point identifies the double, the nearest one does. -/
theorem fixed_rounds {f : Dbl} {p k : Nat} (h1 : 1 ≤ p) (h16 : p ≤ 16) (hk : StrictlyNearest (k / 10 ^ p) f) {y : ℚ} (hr : RoundedTo p f.magnitude y) :
    RoundsTo f.bits y := by
  obtain ⟨j, rfl, j2, _⟩ := hr
  rw [f.magnitude_eq] at j2
  have hP : (0 : ℚ) < 10 ^ p := by positivity
  rcases Nat.eq_zero_or_pos f.bits with h0 | hpos
  · rw [h0, magN_zero, zero_mul, sub_zero] at j2
    have : j = 0 := by
      have : (j : ℚ) < 1 := by linarith [(abs_le.mp j2).2]
      have : j < 1 := by exact_mod_cast this
      omega
    rw [h0, this]
    have := roundsTo_self 0
    rw [magN_zero] at this
    simpa using this
  obtain ⟨s1, s2⟩ := hk.inside hpos
  generalize hn : f.bits = n at *
  have hg := gap_pos n
  have hgp := gap_pred hpos
  by_cases hc : |(k : ℚ) - magN n * 10 ^ p| < 1 / 2
  · have e : (k : ℚ) = j := by
      obtain ⟨a, b⟩ := abs_lt.mp hc
      obtain ⟨c, d⟩ := abs_le.mp j2
      have u1 : (k : ℚ) < j + 1 := by linarith
      have u2 : (j : ℚ) < k + 1 := by linarith
      have : k < j + 1 := by exact_mod_cast u1
      have : j < k + 1 := by exact_mod_cast u2
      have : k = j := by omega
      rw [this]
    rw [← e]
    exact StrictlyRounds.rounds ⟨s1, s2⟩
  · have hbig : 1 < gap n * 10 ^ p := by
      have t1 : |(k : ℚ) - magN n * 10 ^ p| < gap n * 10 ^ p / 2 := by
        have ek : (k : ℚ) = k / 10 ^ p * 10 ^ p := by rw [div_mul_cancel₀ _ hP.ne']
        have hle : gap (n - 1) ≤ gap n := by rw [hgp]; split <;> linarith
        rw [ek, ← sub_mul, abs_mul, abs_of_pos hP, mul_div_right_comm]
        refine mul_lt_mul_of_pos_right (abs_lt.mpr ⟨by linarith, by linarith⟩) hP
      linarith [not_lt.mp hc]
    have near : |(j : ℚ) / 10 ^ p - magN n| ≤ 1 / 2 / 10 ^ p := by
      have e : (j : ℚ) / 10 ^ p - magN n = (j - magN n * 10 ^ p) / 10 ^ p := by rw [sub_div, mul_div_cancel_right₀ _ hP.ne']
      rw [e, abs_div, abs_of_pos hP]
      exact div_le_div_of_nonneg_right j2 hP.le
    by_cases hpow : n % 2 ^ 52 ≠ 0 ∨ n / 2 ^ 52 ≤ 1
    · rw [if_pos hpow] at hgp
      have hlt : 1 / 2 / 10 ^ p < gap n / 2 := by
        rw [div_lt_iff₀ hP]
        linarith
      obtain ⟨a, b⟩ := abs_le.mp near
      exact StrictlyRounds.rounds ⟨by rw [hgp]; linarith, by linarith⟩
    · have q1 : n % 2 ^ 52 = 0 := by omega
      have q2 : 2 ≤ n / 2 ^ 52 := by omega
      have hE : 1022 ≤ n / 2 ^ 52 := by
        by_contra hlt
        have hle : gap n ≤ 2 ^ (-54 : Int) := by
          unfold gap
          refine zpow_le_zpow_right₀ (by norm_num) ?_
          omega
        have h10 : (10 : ℚ) ^ p ≤ 10 ^ 16 := pow_le_pow_right₀ (by norm_num) h16
        have : gap n * 10 ^ p ≤ 2 ^ (-54 : Int) * 10 ^ 16 := mul_le_mul hle h10 hP.le (zpow_pos (by norm_num) _).le
        norm_num at this
        linarith
      have hm : magN n * 2 = ((2 ^ (n / 2 ^ 52 - 1022) : Nat) : ℚ) := by
        unfold magN
        rw [if_neg (by omega), q1, Nat.max_eq_left (by omega), Nat.add_zero]
        generalize n / 2 ^ 52 = E at *
        rw [show ((2 ^ 52 : Nat) : ℚ) = 2 ^ (52 : Int) by norm_num, Nat.cast_pow, Nat.cast_ofNat, ← zpow_natCast (2 : ℚ) (E - 1022),
          ← zpow_add₀ (by norm_num)]
        have : (2 : ℚ) ^ ((52 : Int) + ((E : Nat) - 1075 : Int)) * 2 = 2 ^ ((52 : Int) + ((E : Nat) - 1075 : Int) + 1) := (zpow_add_one₀ (by norm_num) _).symm
        rw [this]
        congr 1
        omega
      obtain ⟨q, rfl⟩ : ∃ q, p = q + 1 := ⟨p - 1, by omega⟩
      have hmi : magN n * 10 ^ (q + 1) = ((2 ^ (n / 2 ^ 52 - 1022) * (5 * 10 ^ q) : Nat) : ℚ) := by
        rw [Nat.cast_mul, ← hm]
        push_cast
        ring
      have ej : (j : ℚ) = magN n * 10 ^ (q + 1) := by
        rw [hmi] at j2 ⊢
        generalize 2 ^ (n / 2 ^ 52 - 1022) * (5 * 10 ^ q) = z at *
        obtain ⟨c, d⟩ := abs_le.mp j2
        have u1 : (z : ℚ) < j + 1 := by linarith
        have u2 : (j : ℚ) < z + 1 := by linarith
        have : z < j + 1 := by exact_mod_cast u1
        have : j < z + 1 := by exact_mod_cast u2
        have : j = z := by omega
        rw [this]
      rw [ej, mul_div_cancel_right₀ _ hP.ne']
      exact roundsTo_self n

/-- What is printed for a number that is too large. -/
theorem stdPrint_large {L : Libc} (hL : SnprintfOk L) {f : Dbl} (hf : f.Finite) (hm : 10 ^ 17 < f.magnitude) (p : Nat) :
    ∃ x, DecimalText (stdPrint L p f) f.negative x ∧ StrictlyRounds f.bits x ∧ (stdPrint L p f).length ≤ 24 := by
  obtain ⟨k, e, ⟨d, frac, ds, a1, a2, a3, a4, a5, a6, a7, a8, a9⟩, hk⟩ := hL.sci f hf hm
  have ht : stdPrint L p f = L.sci 16 f := by
    unfold stdPrint
    rw [gt_1e17 hf, if_pos (by simpa using hm)]
  have hpos : 0 < f.bits := by
    rcases Nat.eq_zero_or_pos f.bits with h | h
    · rw [f.magnitude_eq, h, magN_zero] at hm; norm_num at hm
    · exact h
  have hk16 : 10 ^ 16 ≤ k := by
    rw [← a8, FF.digitsValue_cons, a3]
    have h1 := a1 d List.mem_cons_self
    have h2 : d.toNat ≠ 48 := fun hc => a2 (BitVec.eq_of_toNat_eq hc)
    have : 1 * 10 ^ 16 ≤ (d.toNat - 48) * 10 ^ 16 := Nat.mul_le_mul_right _ (by omega)
    rw [Nat.one_mul] at this
    exact this.trans (Nat.le_add_right _ _)
  have he : e < 1000 := by
    by_contra hc
    have hu : (0 : ℚ) < 10 ^ (16 - (e : Int)) := zpow_pos (by norm_num) _
    have h1 := (abs_le.mp hk).2
    have h2 : (10 ^ 16 : ℚ) ≤ k := by exact_mod_cast hk16
    have h3 : f.magnitude < 2 ^ 1024 := by
      rw [f.magnitude_eq, ← magN_max]
      have := magN_strictMono.monotone (Dbl.finite_bits.mp hf)
      have := gap_pos bitsMax
      linarith
    have h4 : (10 : ℚ) ^ (16 - (e : Int)) ≤ 10 ^ (-984 : Int) := zpow_le_zpow_right₀ (by norm_num) (by omega)
    have h5 : f.magnitude * 10 ^ (16 - (e : Int)) ≤ 2 ^ 1024 * 10 ^ (-984 : Int) := mul_le_mul h3.le h4 hu.le (by positivity)
    have h6 : (2 : ℚ) ^ 1024 * 10 ^ (-984 : Int) ≤ 1 := by
      have h : 2 ^ 1024 ≤ 10 ^ 984 := by decide +kernel
      have h' : (2 : ℚ) ^ 1024 ≤ 10 ^ 984 := by exact_mod_cast h
      rw [zpow_neg, ← div_eq_mul_inv]
      have e : (10 : ℚ) ^ (984 : Int) = 10 ^ 984 := zpow_natCast _ 984
      rw [e, div_le_one (pow_pos (by norm_num) _)]
      exact h'
    have h7 := h5.trans h6
    clear h3 h4 h5 h6
    generalize f.magnitude * 10 ^ (16 - (e : Int)) = M at *
    have h8 : (2 : ℚ) ≤ 10 ^ 16 := by norm_num
    have h9 := h8.trans h2
    linarith
  have hds : ds.length ≤ 3 := by
    by_contra hc
    cases ds with
    | nil => simp at a5
    | cons b r =>
      have hb : b ≠ 48 := fun hc' => by
        have := a6 r (by rw [hc'])
        omega
      have h1 := a4 b List.mem_cons_self
      have h2 : b.toNat ≠ 48 := fun hc => hb (BitVec.eq_of_toNat_eq hc)
      rw [FF.digitsValue_cons] at a9
      have h3 : 1 * 10 ^ r.length ≤ (b.toNat - 48) * 10 ^ r.length := Nat.mul_le_mul_right _ (by omega)
      have h4 : 10 ^ 3 ≤ 10 ^ r.length := Nat.pow_le_pow_right (by decide) (by simp at hc; omega)
      omega
  rw [f.magnitude_eq] at hk
  refine ⟨_, ?_, seventeen hpos hk16 hk, ?_⟩
  · rw [ht, a7]
    refine ⟨[d], frac, str "e+" ++ ds, e, fun b hb => a1 b (by simp at hb; simp [hb]), by simp, fun b hb => a1 b (List.mem_cons_of_mem _ hb), ?_,
      Or.inr ⟨ds, a4, fun h => by rw [h] at a5; simp at a5, Or.inl ⟨rfl, by rw [a9]⟩⟩, ?_⟩
    · rw [if_neg (show ¬ frac = [] from fun h => by rw [h] at a3; simp at a3)]
      simp only [List.append_assoc]
    · rw [a3, ← a8]; rfl
  · rw [ht, a7]
    have hs : (if f.negative then str "-" else []).length ≤ 1 := by split <;> decide
    have h1 : (str ".").length = 1 := rfl
    have h2 : (str "e+").length = 2 := rfl
    simp only [List.length_append, List.length_cons, List.length_nil]
    omega

theorem infinite_cases {f : Dbl} (h : IsInfinite f) : f = 0x7FF0000000000000#64 ∨ f = 0xFFF0000000000000#64 := by
  obtain ⟨h1, h2⟩ := h
  unfold Dbl.biased at h1
  unfold Dbl.fraction at h2
  have := f.isLt
  rcases (by omega : f.toNat = 0x7FF0000000000000 ∨ f.toNat = 0xFFF0000000000000) with h | h
  · exact Or.inl (BitVec.eq_of_toNat_eq h)
  · exact Or.inr (BitVec.eq_of_toNat_eq h)

theorem stdPrint_infinite {L : Libc} (hL : SnprintfOk L) {f : Dbl} (h : IsInfinite f) (p : Nat) :
    ∃ w, stdPrint L p f = (if f.negative then str "-" else []) ++ w ∧ (w = str "inf" ∨ w = str "infinity") := by
  have ht : stdPrint L p f = L.sci 16 f := by
    unfold stdPrint
    rw [if_pos]
    rcases infinite_cases h with rfl | rfl <;> decide +kernel
  rw [ht]
  exact hL.infinite f h

theorem stripLoop_length (l : List Byte) : (stripLoop l).length ≤ l.length := by
  induction l with
  | nil => simp [stripLoop]
  | cons b r ih =>
    unfold stripLoop
    split
    · simp only [List.length_cons]; omega
    · split
      · simp
      · exact Nat.le_refl _

theorem stdPrint_length {L : Libc} (hL : SnprintfOk L) (p : Nat) (f : Dbl) : (stdPrint L p f).length ≤ 39 := by
  by_cases hb : (f.gt dbl1e17 || Dbl.gt (0xC376345785D8A000#64) f) = true
  · by_cases hf : f.Finite
    · rw [gt_1e17 hf, decide_eq_true_eq] at hb
      obtain ⟨_, _, _, h⟩ := stdPrint_large hL hf hb p
      omega
    · have hi : IsInfinite f := by
        unfold Dbl.gt at hb
        have k1 : dbl1e17.toNat = 0x4376345785D8A000 := rfl
        have k2 : (0xC376345785D8A000#64).toNat = 0xC376345785D8A000 := rfl
        dsimp only at hb
        simp only [k1, k2, Bool.or_eq_true, Bool.and_eq_true, decide_eq_true_eq] at hb
        unfold IsInfinite
        unfold Dbl.Finite at hf
        unfold Dbl.biased Dbl.fraction at *
        have := f.isLt
        omega
      obtain ⟨w, h, hw⟩ := stdPrint_infinite hL hi p
      rw [h]
      have hs : (if f.negative then str "-" else []).length ≤ 1 := by split <;> decide
      have : w.length ≤ 8 := by rcases hw with rfl | rfl <;> decide
      rw [List.length_append]
      omega
  · unfold stdPrint
    rw [if_neg hb, List.length_reverse]
    refine le_trans (stripLoop_length _) ?_
    rw [List.length_reverse, List.length_take]
    omega

/-! ## Reading -/

theorem floatText_head {b : Byte} {w : List Byte} {neg : Bool} {x : ℚ} (h : FloatText (b :: w) neg x) :
    (neg = true ∧ b = 45 ∧ FloatText w false x) ∨ (neg = false ∧ ((48 ≤ b.toNat ∧ b.toNat ≤ 57) ∨ b = 46)) := by
  obtain ⟨int, point, frac, exp, e, hi, hf, hne, hp, he, hs, hx⟩ := h
  cases neg with
  | true =>
    injection hs with h1 h2
    exact Or.inl ⟨rfl, h1, int, point, frac, exp, e, hi, hf, hne, hp, he, h2, hx⟩
  | false =>
    refine Or.inr ⟨rfl, ?_⟩
    cases int with
    | cons c l =>
      injection hs with h1 _
      exact Or.inl (h1 ▸ hi c List.mem_cons_self)
    | nil =>
      rcases hp with ⟨_, hp⟩ | hp
      · exact absurd (by rw [hp]; rfl) hne
      · rw [hp] at hs
        injection hs with h1 _
        exact Or.inr h1

theorem floatText_ne_nil {neg : Bool} {x : ℚ} : ¬ FloatText [] neg x := by
  rintro ⟨int, point, frac, exp, e, hi, hf, hne, hp, he, hs, hx⟩
  cases neg with
  | true => cases hs
  | false =>
    simp only [Bool.false_eq_true, if_false, List.nil_append] at hs
    have := List.append_eq_nil_iff.mp hs.symm
    have h2 := List.append_eq_nil_iff.mp this.2
    have h3 := List.append_eq_nil_iff.mp h2.2
    exact hne (by rw [this.1, h3.1]; rfl)

/-- A number as `strtod` sees it. -/
theorem FloatText.split {t : List Byte} {neg : Bool} {x : ℚ} (h : FloatText t neg x) :
    ∃ body, t = (if neg then str "-" else []) ++ body ∧ FloatText body false x := by
  obtain ⟨int, point, frac, exp, e, hi, hf, hne, hp, he, hs, hx⟩ := h
  exact ⟨_, hs, int, point, frac, exp, e, hi, hf, hne, hp, he, rfl, hx⟩

theorem FloatText.subject {t : List Byte} {neg : Bool} {x : ℚ} (h : FloatText t neg x) : Subject t := by
  obtain ⟨body, h1, h2⟩ := h.split
  exact ⟨_, body, h1, by cases neg <;> simp, Or.inl ⟨x, h2⟩⟩

theorem allDigits_nonzero {l : List Byte} (h : AllDigits l) : (0 : Byte) ∉ l := fun hc => absurd (h 0 hc) (by decide)

theorem hex_nonzero {l : List Byte} (h : l.all isHex = true) : (0 : Byte) ∉ l := fun hc => by
  have := List.all_eq_true.mp h 0 hc
  exact absurd this (by decide)

theorem lower_nonzero {l w : List Byte} (h : l.map lowerCase = w) (hw : (0 : Byte) ∉ w) : (0 : Byte) ∉ l := fun hc => by
  apply hw
  rw [← h]
  exact List.mem_map.mpr ⟨0, hc, by decide⟩

theorem sign_nonzero {sign : List Byte} (h : sign = [] ∨ sign = str "+" ∨ sign = str "-") : (0 : Byte) ∉ sign := by
  rcases h with rfl | rfl | rfl <;> decide

theorem FloatText.nonzero {t : List Byte} {neg : Bool} {x : ℚ} (h : FloatText t neg x) : (0 : Byte) ∉ t := by
  obtain ⟨int, point, frac, exp, e, hi, hf, hne, hp, he, hs, hx⟩ := h
  have h1 : (0 : Byte) ∉ (if neg then str "-" else []) := by cases neg <;> decide
  have h2 := allDigits_nonzero hi
  have h3 : (0 : Byte) ∉ point := by rcases hp with ⟨h, _⟩ | h <;> rw [h] <;> decide
  have h4 := allDigits_nonzero hf
  have h5 : (0 : Byte) ∉ exp := by
    rcases he with ⟨h, _⟩ | ⟨c, sign, ds, hc, hd, _, h, hsg⟩
    · rw [h]; decide
    · have h6 : (0 : Byte) ∉ sign := by rcases hsg with ⟨h | h, _⟩ | ⟨h, _⟩ <;> rw [h] <;> decide
      have h7 := allDigits_nonzero hd
      rw [h]
      rcases hc with rfl | rfl <;> simpa using ⟨h6, h7⟩
  rw [hs]
  simp only [List.mem_append, not_or]
  exact ⟨h1, h2, h3, h4, h5⟩

theorem Spec.Subject.nonzero {s : List Byte} (h : Subject s) : (0 : Byte) ∉ s := by
  obtain ⟨sign, body, rfl, hs, hb⟩ := h
  rw [List.mem_append, not_or]
  refine ⟨sign_nonzero hs, ?_⟩
  rcases hb with ⟨x, hb⟩ | hb | hb | hb
  · exact hb.nonzero
  · obtain ⟨x, int, point, frac, exp, hx, hi, hf, _, hp, he, rfl⟩ := hb
    have h3 : (0 : Byte) ∉ point := by rcases hp with ⟨h, _⟩ | h <;> rw [h] <;> decide
    have h5 : (0 : Byte) ∉ exp := by
      rcases he with h | ⟨c, sign, ds, hc, hsg, hd, _, h⟩
      · rw [h]; decide
      · have h6 := sign_nonzero hsg
        have h7 := allDigits_nonzero hd
        rw [h]
        rcases hc with rfl | rfl <;> simpa using ⟨h6, h7⟩
    have h1 := hex_nonzero hi
    have h2 := hex_nonzero hf
    have h8 : (0 : Byte) ∉ str "0" := by decide
    have h9 : (0 : Byte) ≠ x := by rcases hx with rfl | rfl <;> decide
    simp only [List.mem_append, List.mem_cons, not_or]
    exact ⟨h8, h9, h1, h3, h2, h5⟩
  · rcases hb with hb | hb
    · exact lower_nonzero hb (by decide)
    · exact lower_nonzero hb (by decide)
  · rcases hb with hb | ⟨w, cs, hw, rfl, hc⟩
    · exact lower_nonzero hb (by decide)
    · have h1 := lower_nonzero hw (by decide)
      have h2 : (0 : Byte) ∉ cs := fun h => absurd (hc 0 h) (by decide)
      have h3 : (0 : Byte) ∉ str "(" := by decide
      have h4 : (0 : Byte) ∉ str ")" := by decide
      simp only [List.mem_append, not_or]
      exact ⟨h1, h3, h2, h4⟩

theorem lower_head {b : Byte} {w r : List Byte} {c : Byte} (h : (b :: w).map lowerCase = c :: r) (hc : 97 ≤ c.toNat) : isBlank b = false := by
  injection h with h _
  rw [← h] at hc
  unfold lowerCase at hc
  unfold isBlank
  have : b ≠ 32 ∧ ¬ (9 ≤ b.toNat ∧ b.toNat ≤ 13) := by
    split at hc
    next hb => exact ⟨fun hx => by rw [hx] at hb; exact absurd hb (by decide), by omega⟩
    · exact ⟨fun hx => by rw [hx] at hc; exact absurd hc (by decide), by omega⟩
  simp only [this.1, decide_false, Bool.false_or, Bool.and_eq_false_imp, decide_eq_true_eq, decide_eq_false_iff_not]
  exact fun h1 h2 => this.2 ⟨h1, h2⟩

theorem Spec.Subject.head {s : List Byte} (h : Subject s) : ∃ b r, s = b :: r ∧ isBlank b = false := by
  obtain ⟨sign, body, rfl, hs, hb⟩ := h
  rcases hs with rfl | rfl | rfl
  · rcases hb with ⟨x, hb⟩ | hb | hb | hb
    · cases body with
      | nil => exact absurd hb floatText_ne_nil
      | cons b w =>
        refine ⟨b, w, rfl, ?_⟩
        rcases floatText_head hb with ⟨h, _⟩ | ⟨_, h | rfl⟩
        · cases h
        · unfold isBlank
          have : b ≠ 32 := fun hx => by rw [hx] at h; exact absurd h (by decide)
          simp only [this, decide_false, Bool.false_or, Bool.and_eq_false_imp, decide_eq_true_eq, decide_eq_false_iff_not]
          omega
        · decide
    · obtain ⟨x, int, point, frac, exp, _, _, _, _, _, _, rfl⟩ := hb
      exact ⟨48, _, rfl, by decide⟩
    · cases body with
      | nil => rcases hb with hb | hb <;> cases hb
      | cons b w =>
        refine ⟨b, w, rfl, ?_⟩
        rcases hb with hb | hb <;> exact lower_head hb (by decide)
    · rcases hb with hb | ⟨w, cs, hw, rfl, hc⟩
      · cases body with
        | nil => cases hb
        | cons b w => exact ⟨b, w, rfl, lower_head hb (by decide)⟩
      · cases w with
        | nil => cases hw
        | cons b w => exact ⟨b, _, rfl, lower_head hw (by decide)⟩
  · exact ⟨43, body, rfl, by decide⟩
  · exact ⟨45, body, rfl, by decide⟩

open Classical in
theorem longest_prefix {P : List Byte → Prop} {t : List Byte} (h : ∃ s, P s ∧ s <+: t) :
    ∃ s, P s ∧ s <+: t ∧ ∀ s', P s' → s' <+: t → s'.length ≤ s.length := by
  obtain ⟨s0, h0, h1⟩ := h
  have hQ : ∃ s, P s ∧ s <+: t ∧ s.length = s0.length := ⟨s0, h0, h1, rfl⟩
  obtain ⟨s, a1, a2, a3⟩ := Nat.findGreatest_spec (P := fun n => ∃ s, P s ∧ s <+: t ∧ s.length = n) h1.length_le hQ
  exact ⟨s, a1, a2, fun s' b1 b2 => by rw [a3]; exact Nat.le_findGreatest b2.length_le ⟨s', b1, b2, rfl⟩⟩

theorem takeWhile_all {p : Byte → Bool} : ∀ {t : List Byte} {b : Byte}, b ∈ t.takeWhile p → p b = true
  | c :: t, b, h => by
    by_cases hc : p c = true
    · rw [List.takeWhile_cons_of_pos hc] at h
      rcases List.mem_cons.mp h with rfl | h
      · exact hc
      · exact takeWhile_all h
    · rw [List.takeWhile_cons_of_neg hc] at h; cases h

theorem takeWhile_self {p : Byte → Bool} {t : List Byte} (h : ∀ b ∈ t, p b = true) : t.takeWhile p = t := by
  have := List.takeWhile_append_of_pos (l₂ := []) h
  simpa using this

theorem takeWhile_nonzero {t : List Byte} (h : (0 : Byte) ∉ t) : t.takeWhile (· != 0) = t := by
  apply takeWhile_self
  intro b hb
  simp only [bne_iff_ne]
  exact fun hc => h (hc ▸ hb)

theorem takeWhile_zero {t : List Byte} (h : (0 : Byte) ∈ t) : (t.takeWhile (· != 0)).length < t.length := by
  rcases Nat.lt_or_ge (t.takeWhile (· != 0)).length t.length with hl | hl
  · exact hl
  · exfalso
    have e := (List.takeWhile_prefix (· != (0 : Byte)) (l := t)).eq_of_length_le hl
    rw [← e] at h
    exact absurd (takeWhile_all h) (by decide)

theorem zero_not_takeWhile (t : List Byte) : (0 : Byte) ∉ t.takeWhile (· != 0) := fun h => by
  have := takeWhile_all h
  exact absurd this (by decide)

theorem blanks_split {ws s : List Byte} (h1 : ws.all isBlank = true) (h2 : Subject s) :
    (ws ++ s).takeWhile isBlank = ws ∧ (ws ++ s).dropWhile isBlank = s := by
  obtain ⟨b, r, rfl, hb⟩ := h2.head
  have h1 := List.all_eq_true.mp h1
  constructor
  · rw [List.takeWhile_append_of_pos h1, List.takeWhile_cons_of_neg (by simp [hb]), List.append_nil]
  · rw [List.dropWhile_append_of_pos h1, List.dropWhile_cons_of_neg (by simp [hb])]

/-- A complete number is read. -/
theorem stdParse_subject {L : Libc} (hL : StrtodOk L.strtod) {ws s : List Byte} (h1 : ws.all isBlank = true) (h2 : Subject s)
    (hl : (ws ++ s).length < 64) : ∃ f, stdParse L (ws ++ s) = some f ∧ HasValue s f := by
  have hz : (0 : Byte) ∉ ws ++ s := by
    rw [List.mem_append, not_or]
    exact ⟨fun hc => absurd (List.all_eq_true.mp h1 0 hc) (by decide), h2.nonzero⟩
  obtain ⟨e1, e2⟩ := blanks_split h1 h2
  obtain ⟨h3, h4⟩ := hL.longest (ws ++ s) s hl hz h2 (by rw [e2]) (fun s' _ h => by rw [e2] at h; exact h.length_le)
  rw [e1] at h3
  refine ⟨_, ?_, h4⟩
  unfold stdParse
  rw [if_neg (fun h => by
      obtain ⟨b, r, h5, _⟩ := h2.head
      rw [h5] at h; simp at h), if_neg (by omega), takeWhile_nonzero hz]
  dsimp only
  rw [if_pos (by rw [h3, List.length_append])]

/-- Only complete numbers are read. -/
theorem stdParse_some {L : Libc} (hL : StrtodOk L.strtod) {t : List Byte} {f : Dbl} (h : stdParse L t = some f) :
    t.length < 64 ∧ ∃ ws s, t = ws ++ s ∧ ws.all isBlank = true ∧ Subject s := by
  unfold stdParse at h
  by_cases h0 : t = []
  · rw [if_pos h0] at h; cases h
  rw [if_neg h0] at h
  by_cases h1 : 64 ≤ t.length
  · rw [if_pos h1] at h; cases h
  rw [if_neg h1] at h
  dsimp only at h
  have hpos : 0 < t.length := List.length_pos_iff.mpr h0
  by_cases h2 : (L.strtod (t.takeWhile (· != 0))).1 = t.length
  swap
  · rw [if_neg h2] at h; cases h
  have hlen : (t.takeWhile (· != 0)).length ≤ t.length := (List.takeWhile_prefix _).length_le
  generalize hu : t.takeWhile (· != 0) = u at *
  have huz : (0 : Byte) ∉ u := by rw [← hu]; exact zero_not_takeWhile t
  by_cases hs : ∃ s, Subject s ∧ s <+: u.dropWhile isBlank
  · obtain ⟨s, s1, s2, s3⟩ := longest_prefix hs
    obtain ⟨h3, _⟩ := hL.longest u s (by omega) huz s1 s2 s3
    have e : u.takeWhile isBlank ++ u.dropWhile isBlank = u := List.takeWhile_append_dropWhile
    have el := congrArg List.length e
    rw [List.length_append] at el
    have hle := s2.length_le
    have hut : u = t := (hu ▸ List.takeWhile_prefix _ : u <+: t).eq_of_length_le (by omega)
    have hsd : s = u.dropWhile isBlank := s2.eq_of_length_le (by omega)
    refine ⟨by omega, u.takeWhile isBlank, s, by rw [hsd, e, hut], ?_, s1⟩
    rw [List.all_eq_true]
    exact fun b hb => takeWhile_all hb
  · have := hL.none u (by omega) huz (fun s a b => hs ⟨s, a, b⟩)
    omega

theorem stdParse_number {L : Libc} (hL : StrtodOk L.strtod) {t : List Byte} {neg : Bool} {x : ℚ} (h : FloatText t neg x) (hl : t.length < 64) :
    ∃ f, stdParse L t = some f ∧ f.negative = neg ∧ (x < 2 ^ 1024 - 2 ^ 970 → Nearest x f) ∧ (2 ^ 1024 - 2 ^ 970 ≤ x → IsInfinite f) := by
  obtain ⟨f, h1, h2⟩ := stdParse_subject hL (ws := []) rfl h.subject hl
  obtain ⟨body, h3, h4⟩ := h.split
  obtain ⟨h5, h6⟩ := (h2 _ body h3 (by cases neg <;> simp)).1 x h4
  refine ⟨f, h1, ?_, h6⟩
  rw [h5]
  cases neg <;> decide

end Verif
