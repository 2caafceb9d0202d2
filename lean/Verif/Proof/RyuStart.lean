import Verif.Proof.RyuExact
/-!
# Step 3 of `d2d` gives step 4 what it needs
-/
namespace Verif

/-- The interval of `d2d`. -/
theorem ryuIv_of {m2 mmShift u D : Nat} {accept : Bool} (hm : 0 < m2) (hs : mmShift ≤ 1) (hu : 0 < u) (hD : 0 < D) :
    RyuIv D (4 * m2 * u) ((4 * m2 + 2) * u) ((4 * m2 - 1 - mmShift) * u) accept := by
  have e1 : 4 * m2 - 1 - mmShift = 4 * m2 - (1 + mmShift) := by omega
  have e2 : 4 * m2 * u = (4 * m2 - (1 + mmShift)) * u + (1 + mmShift) * u := by rw [← Nat.add_mul]; congr 1; omega
  have e3 : (4 * m2 + 2) * u = 4 * m2 * u + 2 * u := Nat.add_mul _ _ _
  have e4 : (1 + mmShift) * u ≤ 2 * u := Nat.mul_le_mul_right _ (by omega)
  have e5 : 1 * u ≤ (1 + mmShift) * u := Nat.mul_le_mul_right _ (by omega)
  refine ⟨hD, Nat.mul_pos (by omega) hu, ?_, ?_, ?_⟩ <;> rw [e1] at * <;> omega

theorem ryu_room {m2 mmShift u D : Nat} {accept : Bool} (hm : 0 < m2) (hs : mmShift ≤ 1) (hu : 0 < u) (hD : 0 < D) (hle : D ≤ u) :
    (4 * m2 - 1 - mmShift) * u / D < ryuTop ((4 * m2 + 2) * u) accept / D := by
  have e2 : (4 * m2 + 2) * u = (4 * m2 - 1 - mmShift) * u + (3 + mmShift) * u := by rw [← Nat.add_mul]; congr 1; omega
  have e5 : 3 * u ≤ (3 + mmShift) * u := Nat.mul_le_mul_right _ (by omega)
  have e6 : (4 * m2 - 1 - mmShift) * u + D ≤ ryuTop ((4 * m2 + 2) * u) accept := by unfold ryuTop; split <;> omega
  calc _ < (4 * m2 - 1 - mmShift) * u / D + 1 := Nat.lt_succ_self _
    _ = ((4 * m2 - 1 - mmShift) * u + D) / D := (Nat.add_div_right _ hD).symm
    _ ≤ _ := Nat.div_le_div_right e6

/-- At least one digit is dropped. -/
theorem ryu_far {m2 mmShift u D : Nat} {accept : Bool} (hm : 0 < m2) (hs : mmShift ≤ 1) (hD : 0 < D) (hle : 10 * D ≤ u) :
    (4 * m2 - 1 - mmShift) * u / D / 10 < ryuTop ((4 * m2 + 2) * u) accept / D / 10 := by
  rw [Nat.div_div_eq_div_mul, Nat.div_div_eq_div_mul, Nat.mul_comm D 10]
  exact ryu_room hm hs (by omega) (by omega) hle

theorem top_div_of_not_dvd {P D : Nat} (hD : 0 < D) (h : ¬ D ∣ P) : (P - 1) / D = P / D := by
  have h1 := Nat.div_add_mod P D
  have h2 := Nat.mod_lt P hD
  have h3 : P % D ≠ 0 := fun hz => h (Nat.dvd_of_mod_eq_zero hz)
  have h4 : P - 1 = P % D - 1 + D * (P / D) := by omega
  rw [h4, Nat.add_mul_div_left _ _ hD, Nat.div_eq_of_lt (by omega), Nat.zero_add]

theorem top_div_of_dvd {P D : Nat} (hD : 0 < D) (hP : 0 < P) (h : D ∣ P) : (P - 1) / D = P / D - 1 := by
  obtain ⟨k, rfl⟩ := h
  have hk : 0 < k := Nat.pos_of_mul_pos_left hP
  obtain ⟨j, rfl⟩ : ∃ j, k = j + 1 := ⟨k - 1, by omega⟩
  have e : D * (j + 1) - 1 = D - 1 + D * j := by rw [Nat.mul_add]; omega
  rw [e, Nat.add_mul_div_left _ _ hD, Nat.div_eq_of_lt (by omega), Nat.mul_div_cancel_left _ hD]
  omega

/-- Ten times the unit does not divide the exclusive bound: the integer part needs no correction. -/
theorem top_tenth {P D : Nat} (hD : 0 < D) (h : ¬ D * 10 ∣ P) : P / D / 10 = (P - 1) / D / 10 := by
  rw [Nat.div_div_eq_div_mul, Nat.div_div_eq_div_mul, top_div_of_not_dvd (by omega) h]

theorem no_five23 {m2 : Nat} (hm' : m2 < 2 ^ 53) (hev : ¬ m2 % 2 = 0) (h : 5 ^ 23 ∣ 4 * m2 + 2) : False := by
  have h2 : 5 ^ 23 ∣ 2 * m2 + 1 := (five_two 23 1).symm.dvd_of_dvd_mul_left (by rw [show 2 ^ 1 * (2 * m2 + 1) = 4 * m2 + 2 by ring]; exact h)
  obtain ⟨k, hk⟩ := h2
  have h3 : k < 2 := by
    by_contra hc
    have h4 : 5 ^ 23 * 2 ≤ 5 ^ 23 * k := Nat.mul_le_mul_left _ (Nat.le_of_not_lt hc)
    have h5 : 2 * 2 ^ 53 < 5 ^ 23 * 2 := by norm_num
    linarith
  match k, h3, hk with
  | 0, _, hk => rw [Nat.mul_zero] at hk; cases hk
  | 1, _, hk =>
    have h5 : 2 * m2 + 1 = 2 * 5960464477539062 + 1 := hk.trans (by norm_num)
    have h6 : m2 = 5960464477539062 := Nat.eq_of_mul_eq_mul_left (by decide) (Nat.succ.inj h5)
    exact hev (by rw [h6])

theorem no_five23' {m2 mmShift : Nat} (hm' : m2 < 2 ^ 53) (hev : m2 % 2 = 0) (hm : 0 < m2) (hs : mmShift = 1 ∨ mmShift = 0 ∧ m2 = 2 ^ 52)
    (h : 5 ^ 23 ∣ 4 * m2 - 1 - mmShift) : False := by
  rcases hs with rfl | ⟨rfl, rfl⟩
  · have h2 : 5 ^ 23 ∣ 2 * m2 - 1 := (five_two 23 1).symm.dvd_of_dvd_mul_left (by
      rw [show 2 ^ 1 * (2 * m2 - 1) = 4 * m2 - 1 - 1 by omega]; exact h)
    obtain ⟨k, hk⟩ := h2
    have h3 : k < 2 := by
      by_contra hc
      have h4 : 5 ^ 23 * 2 ≤ 5 ^ 23 * k := Nat.mul_le_mul_left _ (Nat.le_of_not_lt hc)
      have h5 : 2 * 2 ^ 53 < 5 ^ 23 * 2 := by norm_num
      have h6 : 2 * m2 - 1 ≤ 2 * m2 := Nat.sub_le _ _
      linarith
    match k, h3, hk with
    | 0, _, hk => rw [Nat.mul_zero] at hk; omega
    | 1, _, hk =>
      have h5 : 2 * m2 - 1 = 11920928955078125 := hk.trans (by norm_num)
      clear h hk
      omega
  · exact absurd h (by decide +kernel)

/-- Step 3 for `e2 >= 0`. -/
theorem d2dUp_ok {m2 e2 mmShift : Nat} (hm : 0 < m2) (hm' : m2 < 2 ^ 53) (hs' : mmShift = 1 ∨ mmShift = 0 ∧ m2 = 2 ^ 52) (he : e2 < 970) :
    ∃ b, d2dUp m2 e2 mmShift = some b ∧ b.e10 = upQ e2 ∧ upQ e2 ≤ e2 ∧
      RyuStart (5 ^ upQ e2) (4 * m2 * 2 ^ (e2 - upQ e2)) ((4 * m2 + 2) * 2 ^ (e2 - upQ e2)) ((4 * m2 - 1 - mmShift) * 2 ^ (e2 - upQ e2))
        (decide (m2 % 2 = 0)) b := by
  have hs : mmShift ≤ 1 := by omega
  have hfar : upQ e2 = 0 ∨ 10 * 5 ^ upQ e2 ≤ 2 ^ (e2 - upQ e2) := of_decide_eq_true (List.all_eq_true.mp upFar_all e2 (by simpa using he))
  obtain ⟨mul, h1, h2, h3, h4⟩ := up_exact he
  obtain ⟨q, hq⟩ : ∃ q, upQ e2 = q := ⟨_, rfl⟩
  rw [hq] at h1 h2 h3 h4 hfar ⊢
  obtain ⟨p1, p2⟩ := h4 (4 * m2 + 2) (by omega)
  obtain ⟨r1, r2⟩ := h4 (4 * m2) (by omega)
  obtain ⟨l1, l2⟩ := h4 (4 * m2 - 1 - mmShift) (by omega)
  have hb : d2dUp m2 e2 mmShift = (let vr := 4 * m2 * 2 ^ (e2 - q) / 5 ^ q
      let vp := (4 * m2 + 2) * 2 ^ (e2 - q) / 5 ^ q
      let vm := (4 * m2 - 1 - mmShift) * 2 ^ (e2 - q) / 5 ^ q
      if q ≤ 21 then
        if 4 * m2 % 5 = 0 then some ⟨vr, vp, vm, q, false, decide (4 * m2 % 5 ^ q = 0)⟩
        else if m2 % 2 = 0 then some ⟨vr, vp, vm, q, decide ((4 * m2 - 1 - mmShift) % 5 ^ q = 0), false⟩
        else some ⟨vr, if (4 * m2 + 2) % 5 ^ q = 0 then vp - 1 else vp, vm, q, false, false⟩
      else some ⟨vr, vp, vm, q, false, false⟩) := by
    unfold d2dUp mulShiftAll
    dsimp only
    rw [hq, h1]
    simp only [Option.bind_eq_bind, Option.bind_some, p2, l2, r2]
  rw [hb]
  dsimp only
  have hD : 0 < 5 ^ q := Nat.pow_pos (by decide)
  have hu : 0 < 2 ^ (e2 - q) := Nat.pow_pos (by decide)
  have hP : 0 < (4 * m2 + 2) * 2 ^ (e2 - q) := Nat.mul_pos (by omega) hu
  have dv : ∀ {x w : Nat}, 5 ^ w ∣ x * 2 ^ (e2 - q) ↔ 5 ^ w ∣ x := by
    intro x w
    exact ⟨fun h => (five_two w (e2 - q)).symm.dvd_of_dvd_mul_right h, fun h => h.mul_right _⟩
  have fin : ∀ vp z w, vp / 10 = ryuTop ((4 * m2 + 2) * 2 ^ (e2 - q)) (decide (m2 % 2 = 0)) / 5 ^ q / 10 → vp < 2 ^ 64 →
      (z = true → m2 % 2 = 0 ∧ (4 * m2 - 1 - mmShift) % 5 ^ q = 0) → (w = true → 4 * m2 % 5 ^ q = 0) →
      (m2 % 2 = 0 → 5 ^ (q + 1) ∣ 4 * m2 - 1 - mmShift → z = true) →
      RyuStart (5 ^ q) (4 * m2 * 2 ^ (e2 - q)) ((4 * m2 + 2) * 2 ^ (e2 - q)) ((4 * m2 - 1 - mmShift) * 2 ^ (e2 - q)) (decide (m2 % 2 = 0))
        ⟨4 * m2 * 2 ^ (e2 - q) / 5 ^ q, vp, (4 * m2 - 1 - mmShift) * 2 ^ (e2 - q) / 5 ^ q, q, z, w⟩ := by
    intro vp z w hvp hlt hz hw hcomp
    refine ⟨ryuIv_of hm hs hu hD, rfl, rfl, hvp, ryu_room hm hs hu hD h3, hlt, l1, fun h => ?_, fun h => ?_, fun ha h => ?_, ?_⟩
    · obtain ⟨z1, z2⟩ := hz h
      refine ⟨by simpa using z1, ?_⟩
      exact Nat.mod_eq_zero_of_dvd ((dv (x := 4 * m2 - 1 - mmShift) (w := q)).mpr (Nat.dvd_of_mod_eq_zero z2))
    · exact Nat.mod_eq_zero_of_dvd ((dv (x := 4 * m2) (w := q)).mpr (Nat.dvd_of_mod_eq_zero (hw h)))
    · refine hcomp (by simpa using ha) (dv.mp (Nat.dvd_trans ⟨2, ?_⟩ (Nat.dvd_of_mod_eq_zero h)))
      rw [Nat.pow_succ]; ring
    · rcases hfar with hf | hf
      · left; rw [hf, Nat.pow_zero, Nat.mod_one]
      · right; exact ryu_far hm hs hD hf
  by_cases hev : m2 % 2 = 0
  · have ht : ryuTop ((4 * m2 + 2) * 2 ^ (e2 - q)) (decide (m2 % 2 = 0)) = (4 * m2 + 2) * 2 ^ (e2 - q) := by simp [ryuTop, hev]
    rw [ht] at fin
    by_cases hq : q ≤ 21
    · rw [if_pos hq]
      by_cases h5 : 4 * m2 % 5 = 0
      · rw [if_pos h5]
        refine ⟨_, rfl, rfl, h2, fin _ _ _ rfl p1 (by simp) (fun h => of_decide_eq_true h) fun _ h => ?_⟩
        have h6 : 5 ∣ 4 * m2 - 1 - mmShift := Nat.dvd_trans (Dvd.intro_left (5 ^ q) (Nat.pow_succ 5 q).symm) h
        omega
      · rw [if_neg h5, if_pos hev]
        refine ⟨_, rfl, rfl, h2, fin _ _ _ rfl p1 (by simp [hev]) (by simp) fun _ h => decide_eq_true ?_⟩
        exact Nat.mod_eq_zero_of_dvd (Nat.dvd_trans (Nat.pow_dvd_pow 5 (Nat.le_succ q)) h)
    · rw [if_neg hq]
      refine ⟨_, rfl, rfl, h2, fin _ _ _ rfl p1 (by simp) (by simp) fun _ h => ?_⟩
      exact (no_five23' hm' hev hm hs' (Nat.dvd_trans (Nat.pow_dvd_pow 5 (by omega)) h)).elim
  · have ht : ryuTop ((4 * m2 + 2) * 2 ^ (e2 - q)) (decide (m2 % 2 = 0)) = (4 * m2 + 2) * 2 ^ (e2 - q) - 1 := by simp [ryuTop, hev]
    rw [ht] at fin
    have ten : ∀ {w}, 5 ^ w * 10 ∣ (4 * m2 + 2) * 2 ^ (e2 - q) → 5 ^ (w + 1) ∣ 4 * m2 + 2 := by
      intro w h
      rw [← dv]
      exact Nat.dvd_trans ⟨2, by rw [Nat.pow_succ]; ring⟩ h
    by_cases hq : q ≤ 21
    · rw [if_pos hq]
      by_cases h5 : 4 * m2 % 5 = 0
      · rw [if_pos h5]
        refine ⟨_, rfl, rfl, h2, fin _ _ _ (top_tenth hD fun h => ?_) p1 (by simp) (fun h => of_decide_eq_true h) fun h => absurd h hev⟩
        have h6 : 5 ∣ 4 * m2 + 2 := Nat.dvd_trans (Dvd.intro_left (5 ^ q) (Nat.pow_succ 5 q).symm) (ten h)
        omega
      · rw [if_neg h5, if_neg hev]
        refine ⟨_, rfl, rfl, h2, fin _ _ _ ?_ ?_ (by simp) (by simp) fun h => absurd h hev⟩
        · by_cases hd : (4 * m2 + 2) % 5 ^ q = 0
          · rw [if_pos hd, top_div_of_dvd hD hP (dv.mpr (Nat.dvd_of_mod_eq_zero hd))]
          · rw [if_neg hd, top_div_of_not_dvd hD fun h => hd (Nat.mod_eq_zero_of_dvd (dv.mp h))]
        · split <;> omega
    · rw [if_neg hq]
      refine ⟨_, rfl, rfl, h2, fin _ _ _ (top_tenth hD fun h => ?_) p1 (by simp) (by simp) fun h => absurd h hev⟩
      have h6 : 5 ^ 23 ∣ 4 * m2 + 2 := Nat.dvd_trans (Nat.pow_dvd_pow 5 (by omega)) (ten h)
      exact no_five23 hm' hev h6

/-- Step 3 for `e2 < 0`. -/
theorem d2dDown_ok {m2 n mmShift : Nat} (hm : 0 < m2) (hm' : m2 < 2 ^ 53) (hs : mmShift ≤ 1) (hn : n < 1077) :
    ∃ b, d2dDown m2 n mmShift = some b ∧ b.e10 = (downQ n : Int) - n ∧ downQ n ≤ n ∧
      RyuStart (2 ^ downQ n) (4 * m2 * 5 ^ (n - downQ n)) ((4 * m2 + 2) * 5 ^ (n - downQ n)) ((4 * m2 - 1 - mmShift) * 5 ^ (n - downQ n))
        (decide (m2 % 2 = 0)) b := by
  have hfar : downQ n ≤ 1 ∨ 10 * 2 ^ downQ n ≤ 5 ^ (n - downQ n) := of_decide_eq_true (List.all_eq_true.mp downFar_all n (by simpa using hn))
  obtain ⟨mul, h1, h2, h3, h4⟩ := down_exact hn
  obtain ⟨q, hq⟩ : ∃ q, downQ n = q := ⟨_, rfl⟩
  rw [hq] at h1 h2 h3 h4 hfar ⊢
  obtain ⟨w, hw⟩ : ∃ w, pow5bits (n - q) = w := ⟨_, rfl⟩
  rw [hw] at h4
  obtain ⟨p1, p2⟩ := h4 (4 * m2 + 2) (by omega)
  obtain ⟨r1, r2⟩ := h4 (4 * m2) (by omega)
  obtain ⟨l1, l2⟩ := h4 (4 * m2 - 1 - mmShift) (by omega)
  have hb : d2dDown m2 n mmShift = (let vr := 4 * m2 * 5 ^ (n - q) / 2 ^ q
      let vp := (4 * m2 + 2) * 5 ^ (n - q) / 2 ^ q
      let vm := (4 * m2 - 1 - mmShift) * 5 ^ (n - q) / 2 ^ q
      let e10 : Int := q - n
      if q ≤ 1 then
        if m2 % 2 = 0 then some ⟨vr, vp, vm, e10, decide (mmShift = 1), true⟩
        else some ⟨vr, vp - 1, vm, e10, false, true⟩
      else if q < 63 then some ⟨vr, vp, vm, e10, false, decide (4 * m2 % 2 ^ q = 0)⟩
      else some ⟨vr, vp, vm, e10, false, false⟩) := by
    unfold d2dDown mulShiftAll
    dsimp only
    rw [hq, hw, h1]
    simp only [Option.bind_eq_bind, Option.bind_some, p2, l2, r2]
  rw [hb]
  dsimp only
  have hD : 0 < 2 ^ q := Nat.pow_pos (by decide)
  have hu : 0 < 5 ^ (n - q) := Nat.pow_pos (by decide)
  have hP : 0 < (4 * m2 + 2) * 5 ^ (n - q) := Nat.mul_pos (by omega) hu
  have dv : ∀ {x w : Nat}, 2 ^ w ∣ x * 5 ^ (n - q) ↔ 2 ^ w ∣ x := by
    intro x w
    exact ⟨fun h => (five_two (n - q) w).dvd_of_dvd_mul_right h, fun h => h.mul_right _⟩
  have even : ∀ {x}, x % 2 = 0 → q ≤ 1 → 2 ^ q ∣ x := by
    intro x hx hq
    exact Nat.dvd_trans (Nat.pow_dvd_pow 2 hq) (by omega)
  have fin : ∀ vp z w, vp / 10 = ryuTop ((4 * m2 + 2) * 5 ^ (n - q)) (decide (m2 % 2 = 0)) / 2 ^ q / 10 → vp < 2 ^ 64 →
      (z = true → m2 % 2 = 0 ∧ 2 ^ q ∣ (4 * m2 - 1 - mmShift)) → (w = true → 2 ^ q ∣ 4 * m2) →
      (m2 % 2 = 0 → 2 ^ (q + 1) ∣ 4 * m2 - 1 - mmShift → z = true) →
      RyuStart (2 ^ q) (4 * m2 * 5 ^ (n - q)) ((4 * m2 + 2) * 5 ^ (n - q)) ((4 * m2 - 1 - mmShift) * 5 ^ (n - q)) (decide (m2 % 2 = 0))
        ⟨4 * m2 * 5 ^ (n - q) / 2 ^ q, vp, (4 * m2 - 1 - mmShift) * 5 ^ (n - q) / 2 ^ q, (q : Int) - n, z, w⟩ := by
    intro vp z w hvp hlt hz hw hcomp
    refine ⟨ryuIv_of hm hs hu hD, rfl, rfl, hvp, ryu_room hm hs hu hD h3, hlt, l1, fun h => ?_, fun h => ?_, fun ha h => ?_, ?_⟩
    · obtain ⟨z1, z2⟩ := hz h
      refine ⟨by simpa using z1, ?_⟩
      exact Nat.mod_eq_zero_of_dvd ((dv (x := 4 * m2 - 1 - mmShift) (w := q)).mpr z2)
    · exact Nat.mod_eq_zero_of_dvd ((dv (x := 4 * m2) (w := q)).mpr (hw h))
    · refine hcomp (by simpa using ha) (dv.mp (Nat.dvd_trans ⟨5, ?_⟩ (Nat.dvd_of_mod_eq_zero h)))
      rw [Nat.pow_succ]; ring
    · rcases hfar with hf | hf
      · left; exact Nat.mod_eq_zero_of_dvd ((dv (x := 4 * m2) (w := q)).mpr (even (by omega) hf))
      · right; exact ryu_far hm hs hD hf
  have four : ∀ {z}, ¬ q ≤ 1 → 2 ^ (q + 1) ∣ 4 * m2 - 1 - mmShift → z = true := by
    intro z hq h
    have h6 : 2 ^ 2 ∣ 4 * m2 - 1 - mmShift := Nat.dvd_trans (Nat.pow_dvd_pow 2 (by omega)) h
    omega
  by_cases hev : m2 % 2 = 0
  · have ht : ryuTop ((4 * m2 + 2) * 5 ^ (n - q)) (decide (m2 % 2 = 0)) = (4 * m2 + 2) * 5 ^ (n - q) := by simp [ryuTop, hev]
    rw [ht] at fin
    by_cases hq : q ≤ 1
    · rw [if_pos hq, if_pos hev]
      refine ⟨_, rfl, rfl, h2, fin _ _ _ rfl p1 (fun hz => ⟨hev, even ?_ hq⟩) (fun _ => even (by omega) hq) fun _ h => decide_eq_true ?_⟩
      · have : mmShift = 1 := by simpa using hz
        omega
      · have h6 : 2 ∣ 4 * m2 - 1 - mmShift := Nat.dvd_trans (Dvd.intro_left (2 ^ q) (Nat.pow_succ 2 q).symm) h
        omega
    · rw [if_neg hq]
      by_cases hq' : q < 63
      · rw [if_pos hq']; exact ⟨_, rfl, rfl, h2, fin _ _ _ rfl p1 (by simp) (fun h => Nat.dvd_of_mod_eq_zero (of_decide_eq_true h)) fun _ => four hq⟩
      · rw [if_neg hq']; exact ⟨_, rfl, rfl, h2, fin _ _ _ rfl p1 (by simp) (by simp) fun _ => four hq⟩
  · have ht : ryuTop ((4 * m2 + 2) * 5 ^ (n - q)) (decide (m2 % 2 = 0)) = (4 * m2 + 2) * 5 ^ (n - q) - 1 := by simp [ryuTop, hev]
    rw [ht] at fin
    by_cases hq : q ≤ 1
    · rw [if_pos hq, if_neg hev]
      refine ⟨_, rfl, rfl, h2, fin _ _ _ ?_ (by omega) (by simp) (fun _ => even (by omega) hq) fun h => absurd h hev⟩
      rw [top_div_of_dvd hD hP (dv.mpr (even (by omega) hq))]
    · have hten : (4 * m2 + 2) * 5 ^ (n - q) / 2 ^ q / 10 = ((4 * m2 + 2) * 5 ^ (n - q) - 1) / 2 ^ q / 10 := by
        refine top_tenth hD fun h => ?_
        have h6 : 2 ^ 2 ∣ 4 * m2 + 2 := Nat.dvd_trans (Nat.pow_dvd_pow 2 (by omega)) (dv.mp (Nat.dvd_trans (Nat.dvd_mul_right _ _) h))
        omega
      rw [if_neg hq]
      by_cases hq' : q < 63
      · rw [if_pos hq']; exact ⟨_, rfl, rfl, h2, fin _ _ _ hten p1 (by simp) (fun h => Nat.dvd_of_mod_eq_zero (of_decide_eq_true h)) fun _ => four hq⟩
      · rw [if_neg hq']; exact ⟨_, rfl, rfl, h2, fin _ _ _ hten p1 (by simp) (by simp) fun _ => four hq⟩

end Verif
