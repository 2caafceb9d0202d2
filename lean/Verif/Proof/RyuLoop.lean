import Verif.Model.Ryu
import Mathlib.Tactic.Linarith
import Mathlib.Tactic.Ring
/-!
# Step 4 of `d2d`: the decimal found is in the rounding interval and has no superfluous digit

The interval is `M / D` to `P / D`, the number `V / D`, all exact; the loops see the integer parts.
-/
namespace Verif

/-- What is known about the interval. -/
structure RyuIv (D V P M : Nat) (accept : Bool) : Prop where
  pos : 0 < D
  mpos : 0 < M
  lo : M < V
  hi : V < P
  near : V - M ≤ P - V

/-- The largest integer allowed as a numerator. -/
def ryuTop (P : Nat) (accept : Bool) : Nat := if accept then P else P - 1

/-- The decimal is in the interval; shortest: no multiple of ten times its unit is strictly inside. -/
structure RyuOk (D V P M : Nat) (accept : Bool) (o r : Nat) : Prop where
  lo : M ≤ o * (D * 10 ^ r)
  hi : o * (D * 10 ^ r) ≤ P
  loS : accept = false → M < o * (D * 10 ^ r)
  hiS : accept = false → o * (D * 10 ^ r) < P
  short : ∀ k, M < k * (D * 10 ^ (r + 1)) → P ≤ k * (D * 10 ^ (r + 1))
  near : o ≤ V / (D * 10 ^ r) + 1
  pos : 0 < o
  closest : ∀ k : Nat, M ≤ k * (D * 10 ^ r) → (accept = false → M < k * (D * 10 ^ r)) →
    |((o * (D * 10 ^ r) : Nat) : Int) - V| ≤ |((k * (D * 10 ^ r) : Nat) : Int) - V|

theorem div_mul_bounds (a : Nat) {d : Nat} (h : 0 < d) : a / d * d ≤ a ∧ a < a / d * d + d := by
  have h1 := Nat.div_add_mod a d
  have h2 := Nat.mod_lt a h
  rw [Nat.mul_comm] at h1
  omega

section
variable {D V P M : Nat} {accept : Bool}

theorem ryuTop_le : ryuTop P accept ≤ P := by unfold ryuTop; split <;> omega

/-- The end of both cases. -/
theorem ryu_finish (h : RyuIv D V P M accept) {r vr vm vp : Nat} (hr : vr = V / (D * 10 ^ r)) (hm : vm = M / (D * 10 ^ r))
    (hp : vp = ryuTop P accept / (D * 10 ^ r)) (hstop : vp / 10 ≤ vm / 10) (exact up : Bool)
    (he : exact = true → accept = true ∧ vm * (D * 10 ^ r) = M) (hlt : vm < vp ∨ exact = true)
    (hup : up = true → D * 10 ^ r ≤ 2 * (V - vr * (D * 10 ^ r))) (hdn : up = false → 2 * (V - vr * (D * 10 ^ r)) ≤ D * 10 ^ r)
    (hcomp : accept = true → exact = false → vm * (D * 10 ^ r) = M → vr ≠ vm) :
    RyuOk D V P M accept (vr + if (decide (vr = vm) && (!accept || !exact)) || up then 1 else 0) r := by
  have hD : 0 < D * 10 ^ r := Nat.mul_pos h.pos (Nat.pow_pos (by decide))
  have hD' : D * 10 ^ (r + 1) = 10 * (D * 10 ^ r) := by rw [Nat.pow_succ]; ring
  obtain ⟨r1, r2⟩ := div_mul_bounds V hD
  obtain ⟨m1, m2⟩ := div_mul_bounds M hD
  obtain ⟨p1, p2⟩ := div_mul_bounds (ryuTop P accept) hD
  rw [← hr] at r1 r2
  rw [← hm] at m1 m2
  rw [← hp] at p1 p2
  have hs : ∀ k, M < k * (D * 10 ^ (r + 1)) → P ≤ k * (D * 10 ^ (r + 1)) := by
    intro k hk
    rw [hD'] at hk ⊢
    by_contra hc
    have h1 : k * (10 * (D * 10 ^ r)) ≤ ryuTop P accept := by unfold ryuTop; split <;> omega
    have h2 : vm / 10 < k := by
      have e : vm / 10 = M / (D * 10 ^ r * 10) := by rw [hm, Nat.div_div_eq_div_mul]
      rw [e, Nat.div_lt_iff_lt_mul (by omega)]
      calc M < _ := hk
        _ = _ := by ring
    have h3 : k ≤ vp / 10 := by
      have e : vp / 10 = ryuTop P accept / (D * 10 ^ r * 10) := by rw [hp, Nat.div_div_eq_div_mul]
      rw [e, Nat.le_div_iff_mul_le (by omega)]
      calc k * (D * 10 ^ r * 10) = k * (10 * (D * 10 ^ r)) := by ring
        _ ≤ _ := h1
    omega
  have hlo := h.lo
  have hhi := h.hi
  have hnear := h.near
  have htop : ryuTop P accept ≤ P := ryuTop_le
  have htopS : accept = false → ryuTop P accept < P := by intro e; subst e; simp only [ryuTop]; simp; omega
  have htop1 : P ≤ ryuTop P accept + 1 := by unfold ryuTop; split <;> omega
  have hmr : vm ≤ vr := by rw [hr, hm]; exact Nat.div_le_div_right (by omega)
  have mono : ∀ {a b : Nat}, a < b → a * (D * 10 ^ r) + D * 10 ^ r ≤ b * (D * 10 ^ r) := by
    intro a b hab
    calc a * (D * 10 ^ r) + D * 10 ^ r = (a + 1) * (D * 10 ^ r) := by ring
      _ ≤ _ := Nat.mul_le_mul_right _ hab
  have e1 : (vr + 1) * (D * 10 ^ r) = vr * (D * 10 ^ r) + D * 10 ^ r := by ring
  have e2 : (vm + 1) * (D * 10 ^ r) = vm * (D * 10 ^ r) + D * 10 ^ r := by ring
  by_cases hc : ((decide (vr = vm) && (!accept || !exact)) || up) = true
  · rw [if_pos hc]
    have key : vr * (D * 10 ^ r) + D * 10 ^ r ≤ ryuTop P accept := by
      by_cases hu : up = true
      · have hu' := hup hu
        by_contra hcon
        rcases hlt with hlt | hex
        · have hvp : vp ≤ vr := by
            by_contra hh
            have := mono (show vr < vp by omega)
            omega
          have := mono (show vm < vr by omega)
          omega
        · obtain ⟨ha, hM⟩ := he hex
          subst ha
          have e3 : ryuTop P true = P := rfl
          rw [e3] at hcon
          rcases Nat.lt_or_ge vm vr with hv | hv
          · have := mono hv
            omega
          · have : vm = vr := by omega
            subst this
            omega
      · have hc' : decide (vr = vm) && (!accept || !exact) = true := by
          simpa [hu] using hc
        simp only [Bool.and_eq_true, decide_eq_true_eq, Bool.or_eq_true, Bool.not_eq_true'] at hc'
        obtain ⟨hv, hx⟩ := hc'
        have hvm : vm < vp := by
          rcases hlt with hlt | hex
          · exact hlt
          · have := (he hex).1
            rcases hx with hx | hx
            · rw [hx] at this; cases this
            · rw [hx] at hex; cases hex
        have := mono hvm
        rw [hv]
        omega
    refine ⟨by rw [e1]; omega, by rw [e1]; omega, fun _ => by rw [e1]; omega, fun ha => ?_, hs, by rw [← hr], by omega, fun k hk1 hk2 => ?_⟩
    · have := htopS ha
      rw [e1]
      omega
    · rw [e1]
      rcases Nat.lt_or_ge vr k with hk | hk
      · have := mono hk
        rw [abs_of_nonneg (by omega), abs_of_nonneg (by omega)]
        omega
      · have hkv : k * (D * 10 ^ r) ≤ vr * (D * 10 ^ r) := Nat.mul_le_mul_right _ hk
        by_cases hu : up = true
        · have hu' := hup hu
          rw [abs_of_nonneg (by omega), abs_of_nonpos (by omega)]
          omega
        · exfalso
          have hc' : decide (vr = vm) && (!accept || !exact) = true := by
            simpa [hu] using hc
          simp only [Bool.and_eq_true, decide_eq_true_eq, Bool.or_eq_true, Bool.not_eq_true'] at hc'
          obtain ⟨hv, hx⟩ := hc'
          rw [hv] at hkv
          rcases hx with hx | hx
          · have := hk2 hx
            omega
          · cases ha : accept
            · have := hk2 ha
              omega
            · exact hcomp ha hx (by omega) hv
  · rw [if_neg hc]
    have hc1 : (vr = vm → accept = true ∧ exact = true) := by
      intro hv
      simp only [Bool.or_eq_true, Bool.and_eq_true, decide_eq_true_eq, Bool.not_eq_true', not_or, not_and] at hc
      have := hc.1 hv
      constructor
      · cases accept <;> simp_all
      · cases exact <;> simp_all
    have hlow : M ≤ vr * (D * 10 ^ r) ∧ (accept = false → M < vr * (D * 10 ^ r)) := by
      rcases Nat.lt_or_ge vm vr with hv | hv
      · have := mono hv
        omega
      · have hv : vr = vm := by omega
        obtain ⟨ha, hex⟩ := hc1 hv
        have := (he hex).2
        rw [hv, this]
        exact ⟨Nat.le_refl _, fun h => by rw [ha] at h; cases h⟩
    simp only [Nat.add_zero]
    refine ⟨hlow.1, by omega, hlow.2, fun _ => by omega, hs, by omega, ?_, fun k _ _ => ?_⟩
    · have := h.mpos
      by_contra h0
      have : vr = 0 := by omega
      subst this
      omega
    · have hd := hdn (by
        cases hu : up
        · rfl
        · rw [hu, Bool.or_true] at hc; exact absurd rfl hc)
      rw [abs_of_nonpos (a := ((vr * (D * 10 ^ r) : Nat) : Int) - V) (by omega)]
      rcases Nat.lt_or_ge vr k with hk | hk
      · have := mono hk
        rw [abs_of_nonneg (by omega)]
        omega
      · have hkv : k * (D * 10 ^ r) ≤ vr * (D * 10 ^ r) := Nat.mul_le_mul_right _ hk
        rw [abs_of_nonpos (by omega)]
        omega

/-- The state of the loops after `r` digits have been removed. -/
structure RyuInv (D V P M : Nat) (accept : Bool) (r : Nat) (s : RyuLoop) : Prop where
  vr : s.vr = V / (D * 10 ^ r)
  vm : s.vm = M / (D * 10 ^ r)
  vp : s.vp / 10 = ryuTop P accept / (D * 10 ^ r) / 10
  removed : s.removed = r
  exact : s.vmZeros = true → accept = true ∧ s.vm * (D * 10 ^ r) = M
  last : 5 ≤ s.last → D * 10 ^ r ≤ 2 * (V - s.vr * (D * 10 ^ r))
  lastU : r ≠ 0 → s.last ≤ 4 → 2 * (V - s.vr * (D * 10 ^ r)) ≤ D * 10 ^ r
  tie : s.vrZeros = true → 10 * (V - s.vr * (D * 10 ^ r)) = s.last * (D * 10 ^ r)
  comp0 : accept = true → M % (D * 10 ^ (r + 1)) = 0 → s.vmZeros = true
  comp1 : r ≠ 0 → accept = true → M % (D * 10 ^ r) = 0 → s.vmZeros = true

theorem pow_step (D r : Nat) : D * 10 ^ (r + 1) = D * 10 ^ r * 10 := by rw [Nat.pow_succ, ← Nat.mul_assoc]

theorem last_digit {V E : Nat} (hE : 0 < E) (h : 5 ≤ V / E % 10) : E * 10 ≤ 2 * (V - V / E / 10 * (E * 10)) := by
  have h1 := Nat.div_add_mod V E
  have h2 := Nat.mod_lt V hE
  have h3 := Nat.div_add_mod (V / E) 10
  have h4 : V / E / 10 * (E * 10) = E * (10 * (V / E / 10)) := by ring
  have h5 : E * (V / E) = E * (10 * (V / E / 10)) + E * (V / E % 10) := by rw [← Nat.mul_add, h3]
  have h6 : E * 5 ≤ E * (V / E % 10) := Nat.mul_le_mul_left _ h
  rw [h4]
  omega

theorem last_digit' {V E : Nat} (hE : 0 < E) (h : V / E % 10 ≤ 4) : 2 * (V - V / E / 10 * (E * 10)) ≤ E * 10 := by
  have h1 := Nat.div_add_mod V E
  have h2 := Nat.mod_lt V hE
  have h3 := Nat.div_add_mod (V / E) 10
  have h4 : V / E / 10 * (E * 10) = E * (10 * (V / E / 10)) := by ring
  have h5 : E * (V / E) = E * (10 * (V / E / 10)) + E * (V / E % 10) := by rw [← Nat.mul_add, h3]
  have h6 : E * (V / E % 10) ≤ E * 4 := Nat.mul_le_mul_left _ h
  rw [h4]
  omega

theorem div_mod_ten {M E : Nat} (hE : 0 < E) (h : M % (E * 10) = 0) : M / E % 10 = 0 := by
  obtain ⟨k, hk⟩ := Nat.dvd_of_mod_eq_zero h
  rw [hk, Nat.mul_assoc, Nat.mul_div_cancel_left _ hE, Nat.mul_mod_right]

theorem ryuInv_step (h : RyuIv D V P M accept) {r : Nat} {s : RyuLoop} (hs : RyuInv D V P M accept r s) (z : Bool)
    (hz : z = true → s.vmZeros = true ∧ s.vm % 10 = 0) (hz' : s.vmZeros = true → s.vm % 10 = 0 → z = true) (w : Bool)
    (hw : w = true → s.vrZeros = true ∧ s.last = 0) :
    RyuInv D V P M accept (r + 1) ⟨s.vr / 10, s.vp / 10, s.vm / 10, z, w, s.vr % 10, s.removed + 1⟩ := by
  have hD : 0 < D * 10 ^ r := Nat.mul_pos h.pos (Nat.pow_pos (by decide))
  have hc1 : accept = true → M % (D * 10 ^ (r + 1)) = 0 → z = true := fun ha hm => by
    refine hz' (hs.comp0 ha hm) ?_
    rw [hs.vm]
    rw [pow_step] at hm
    exact div_mod_ten hD hm
  refine ⟨?_, ?_, ?_, by rw [hs.removed], fun hz' => ?_, fun hl => ?_, fun _ hl => ?_, fun hw' => ?_, fun ha hm => ?_, fun _ => hc1⟩
  · rw [hs.vr, pow_step, Nat.div_div_eq_div_mul]
  · rw [hs.vm, pow_step, Nat.div_div_eq_div_mul]
  · show s.vp / 10 / 10 = _
    rw [hs.vp, pow_step, Nat.div_div_eq_div_mul (ryuTop P accept) (D * 10 ^ r) 10]
  · obtain ⟨h1, h2⟩ := hz hz'
    obtain ⟨h3, h4⟩ := hs.exact h1
    refine ⟨h3, ?_⟩
    show s.vm / 10 * _ = M
    rw [pow_step]
    have : s.vm / 10 * (D * 10 ^ r * 10) = s.vm / 10 * 10 * (D * 10 ^ r) := by ring
    rw [this, Nat.div_mul_cancel (Nat.dvd_of_mod_eq_zero h2), h4]
  · show _ ≤ 2 * (V - s.vr / 10 * _)
    have hl' : 5 ≤ V / (D * 10 ^ r) % 10 := by rw [← hs.vr]; exact hl
    rw [pow_step, hs.vr]
    exact last_digit hD hl'
  · show 2 * (V - s.vr / 10 * _) ≤ _
    have hl' : V / (D * 10 ^ r) % 10 ≤ 4 := by rw [← hs.vr]; exact hl
    rw [pow_step, hs.vr]
    exact last_digit' hD hl'
  · obtain ⟨w1, w2⟩ := hw hw'
    have h1 := hs.tie w1
    rw [w2, Nat.zero_mul] at h1
    show 10 * (V - s.vr / 10 * _) = s.vr % 10 * _
    have h2 := (div_mul_bounds V hD).1
    rw [← hs.vr] at h2
    have h3 := Nat.div_add_mod s.vr 10
    have h4 : s.vr * (D * 10 ^ r) = s.vr / 10 * (D * 10 ^ r * 10) + s.vr % 10 * (D * 10 ^ r) := by
      conv_lhs => rw [← h3]
      ring
    have h5 : s.vr % 10 * (D * 10 ^ r * 10) = 10 * (s.vr % 10 * (D * 10 ^ r)) := by ring
    rw [pow_step, h5]
    omega
  · refine hc1 ha (Nat.mod_eq_zero_of_dvd (Nat.dvd_trans ?_ (Nat.dvd_of_mod_eq_zero hm)))
    exact Nat.mul_dvd_mul_left _ (Nat.pow_dvd_pow 10 (by omega))

theorem ryuLoop1_run (h : RyuIv D V P M accept) : ∀ (n r : Nat) (s : RyuLoop), RyuInv D V P M accept r s →
    M / (D * 10 ^ r) < ryuTop P accept / (D * 10 ^ r) → s.vp < 10 ^ n →
    ∃ r' s', ryuLoop1 (n + 1) s = some s' ∧ RyuInv D V P M accept r' s' ∧ s'.vp / 10 ≤ s'.vm / 10 ∧
      M / (D * 10 ^ r') < ryuTop P accept / (D * 10 ^ r') ∧ r ≤ r' ∧ (r' = r → s.vp / 10 ≤ s.vm / 10)
  | n, r, s, hs, hlt, hf => by
    by_cases hc : s.vp / 10 ≤ s.vm / 10
    · exact ⟨r, s, by rw [ryuLoop1, if_pos hc], hs, hc, hlt, Nat.le_refl _, fun _ => hc⟩
    · cases n with
      | zero => exfalso; rw [Nat.pow_zero] at hf; omega
      | succ n =>
        obtain ⟨r', s', h1, h2, h3, h4, h5, _⟩ := ryuLoop1_run h n (r + 1) _ (ryuInv_step h hs (s.vmZeros && decide (s.vm % 10 = 0)) (by simp)
          (by simp; exact fun a b => ⟨a, b⟩) (s.vrZeros && decide (s.last = 0)) (by simp)) (by
            rw [pow_step, ← Nat.div_div_eq_div_mul M (D * 10 ^ r), ← Nat.div_div_eq_div_mul _ (D * 10 ^ r), ← hs.vp, ← hs.vm]
            omega) (by
            show s.vp / 10 < _
            rw [Nat.pow_succ] at hf
            omega)
        exact ⟨r', s', by rw [ryuLoop1, if_neg hc]; exact h1, h2, h3, h4, by omega, fun e => by omega⟩

theorem ryuLoop2_run (h : RyuIv D V P M accept) : ∀ (n r : Nat) (s : RyuLoop), RyuInv D V P M accept r s →
    s.vmZeros = true → s.vp / 10 ≤ s.vm / 10 → s.vm < 10 ^ n →
    ∃ r' s', ryuLoop2 (n + 1) s = some s' ∧ RyuInv D V P M accept r' s' ∧ s'.vp / 10 ≤ s'.vm / 10 ∧ s'.vmZeros = true ∧ r ≤ r'
  | n, r, s, hs, hz, hstop, hf => by
    by_cases hc : s.vm % 10 ≠ 0
    · exact ⟨r, s, by rw [ryuLoop2, if_pos hc], hs, hstop, hz, Nat.le_refl _⟩
    · have hpos : 0 < s.vm := by
        have := (hs.exact hz).2
        have := h.mpos
        by_contra h0
        have : s.vm = 0 := by omega
        simp [this] at *
        omega
      cases n with
      | zero => exfalso; rw [Nat.pow_zero] at hf; omega
      | succ n =>
        obtain ⟨r', s', h1, h2, h3, h4, h5⟩ := ryuLoop2_run h n (r + 1) _ (ryuInv_step h hs s.vmZeros (fun e => ⟨e, by omega⟩) (fun e _ => e)
          (s.vrZeros && decide (s.last = 0)) (by simp)) hz (by
            show s.vp / 10 / 10 ≤ s.vm / 10 / 10
            omega) (by
            show s.vm / 10 < _
            rw [Nat.pow_succ] at hf
            omega)
        exact ⟨r', s', by rw [ryuLoop2, if_neg hc]; exact h1, h2, h3, h4, by omega⟩

theorem ryuLoop3_removed : ∀ {n r vr vp vm : Nat} {up : Bool} {vr' vp' vm' : Nat} {up' : Bool} {r' : Nat},
    ryuLoop3 n vr vp vm up (r + 1) = some (vr', vp', vm', up', r') → r' ≠ 0
  | 0, _, _, _, _, _, _, _, _, _, _, h => by cases h
  | n + 1, r, vr, vp, vm, up, vr', vp', vm', up', r', h => by
    rw [ryuLoop3] at h
    split at h
    · simp only [Option.some.injEq, Prod.mk.injEq] at h
      omega
    · exact ryuLoop3_removed h

theorem ryuLoop3_run (h : RyuIv D V P M accept) : ∀ (n r : Nat) (vr vp vm : Nat) (up : Bool),
    vr = V / (D * 10 ^ r) → vm = M / (D * 10 ^ r) → vp / 10 = ryuTop P accept / (D * 10 ^ r) / 10 →
    (up = true → D * 10 ^ r ≤ 2 * (V - vr * (D * 10 ^ r))) → (r ≠ 0 → up = false → 2 * (V - vr * (D * 10 ^ r)) ≤ D * 10 ^ r) →
    M / (D * 10 ^ r) < ryuTop P accept / (D * 10 ^ r) → vp < 10 ^ n →
    ∃ r' vr' vp' vm' up', ryuLoop3 (n + 1) vr vp vm up r = some (vr', vp', vm', up', r') ∧ vr' = V / (D * 10 ^ r') ∧
      vm' = M / (D * 10 ^ r') ∧ vp' / 10 = ryuTop P accept / (D * 10 ^ r') / 10 ∧
      (up' = true → D * 10 ^ r' ≤ 2 * (V - vr' * (D * 10 ^ r'))) ∧ vp' / 10 ≤ vm' / 10 ∧
      M / (D * 10 ^ r') < ryuTop P accept / (D * 10 ^ r') ∧ (r' ≠ 0 → up' = false → 2 * (V - vr' * (D * 10 ^ r')) ≤ D * 10 ^ r') ∧
      (r' = 0 → up' = up ∧ vp / 10 ≤ vm / 10)
  | n, r, vr, vp, vm, up, hr, hm, hp, hu, hd, hlt, hf => by
    have hD : 0 < D * 10 ^ r := Nat.mul_pos h.pos (Nat.pow_pos (by decide))
    by_cases hc : vp / 10 ≤ vm / 10
    · exact ⟨r, vr, vp, vm, up, by rw [ryuLoop3, if_pos hc], hr, hm, hp, hu, hc, hlt, hd, fun _ => ⟨rfl, hc⟩⟩
    · cases n with
      | zero => exfalso; rw [Nat.pow_zero] at hf; omega
      | succ n =>
        obtain ⟨r', vr', vp', vm', up', h1, h2, h3, h4, h5, h6, h7, h8, h9⟩ := ryuLoop3_run h n (r + 1) (vr / 10) (vp / 10) (vm / 10) (decide (vr % 10 ≥ 5))
          (by rw [hr, pow_step, Nat.div_div_eq_div_mul]) (by rw [hm, pow_step, Nat.div_div_eq_div_mul])
          (by rw [hp, pow_step, Nat.div_div_eq_div_mul (ryuTop P accept) (D * 10 ^ r) 10])
          (fun hl => by
            simp only [decide_eq_true_eq] at hl
            rw [pow_step]
            rw [hr] at hl ⊢
            exact last_digit hD hl)
          (fun _ hl => by
            simp only [decide_eq_false_iff_not] at hl
            rw [pow_step]
            rw [hr] at hl ⊢
            exact last_digit' hD (by omega))
          (by
            rw [pow_step, ← Nat.div_div_eq_div_mul M (D * 10 ^ r), ← Nat.div_div_eq_div_mul _ (D * 10 ^ r), ← hp, ← hm]
            omega) (by
            rw [Nat.pow_succ] at hf
            omega)
        have hr' : r' ≠ 0 := ryuLoop3_removed h1
        exact ⟨r', vr', vp', vm', up', by rw [ryuLoop3, if_neg hc]; exact h1, h2, h3, h4, h5, h6, h7, h8, fun e => absurd e hr'⟩

/-- What step 3 gives to step 4. -/
structure RyuStart (D V P M : Nat) (accept : Bool) (b : RyuBounds) : Prop where
  iv : RyuIv D V P M accept
  vr : b.vr = V / D
  vm : b.vm = M / D
  vp : b.vp / 10 = ryuTop P accept / D / 10
  room : M / D < ryuTop P accept / D
  small : b.vp < 2 ^ 64
  smallM : b.vm < 2 ^ 64
  exact : b.vmZeros = true → accept = true ∧ M % D = 0
  zeros : b.vrZeros = true → V % D = 0
  comp : accept = true → M % (D * 10) = 0 → b.vmZeros = true
  far : V % D = 0 ∨ M / D / 10 < ryuTop P accept / D / 10

theorem d2dGeneral_ok {b : RyuBounds} (hb : RyuStart D V P M accept b) :
    ∃ o r, d2dGeneral b accept = some ⟨o, b.e10 + (r : Nat)⟩ ∧ RyuOk D V P M accept o r := by
  have h := hb.iv
  have h0 : RyuInv D V P M accept 0 ⟨b.vr, b.vp, b.vm, b.vmZeros, b.vrZeros, 0, 0⟩ := by
    refine ⟨by simpa using hb.vr, by simpa using hb.vm, by simpa using hb.vp, rfl, fun hz => ?_, fun hl => (by cases hl), fun e => absurd rfl e,
      fun hz => ?_, fun ha hm => hb.comp ha (by simpa using hm), fun e => absurd rfl e⟩
    · obtain ⟨h1, h2⟩ := hb.exact hz
      refine ⟨h1, ?_⟩
      show b.vm * (D * 10 ^ 0) = M
      rw [Nat.pow_zero, Nat.mul_one, hb.vm]
      exact Nat.div_mul_cancel (Nat.dvd_of_mod_eq_zero h2)
    · show 10 * (V - b.vr * (D * 10 ^ 0)) = 0 * _
      rw [Nat.pow_zero, Nat.mul_one, hb.vr, Nat.div_mul_cancel (Nat.dvd_of_mod_eq_zero (hb.zeros hz))]
      simp
  have hsmall : b.vp < 10 ^ 63 := Nat.lt_of_lt_of_le hb.small (by decide)
  obtain ⟨r1, s1, e1, i1, stop1, lt1, _, first1⟩ := ryuLoop1_run h 63 0 _ h0 (by simpa using hb.room) hsmall
  have hvm1 : s1.vm < 10 ^ 63 := by
    rw [i1.vm]
    refine Nat.lt_of_le_of_lt (Nat.div_le_div_left (c := D) ?_ h.pos) ?_
    · exact Nat.le_mul_of_pos_right _ (Nat.pow_pos (by decide))
    · rw [← hb.vm]; exact Nat.lt_of_lt_of_le hb.smallM (by decide)
  have key : ∃ r2 s2, (if s1.vmZeros = true then ryuLoop2 64 s1 else some s1) = some s2 ∧ RyuInv D V P M accept r2 s2 ∧
      s2.vp / 10 ≤ s2.vm / 10 ∧ (M / (D * 10 ^ r2) < ryuTop P accept / (D * 10 ^ r2) ∨ s2.vmZeros = true) ∧ r1 ≤ r2 := by
    by_cases hz : s1.vmZeros = true
    · rw [if_pos hz]
      obtain ⟨r2, s2, e2, i2, stop2, z2, le2⟩ := ryuLoop2_run h 63 r1 s1 i1 hz stop1 hvm1
      exact ⟨r2, s2, e2, i2, stop2, .inr z2, le2⟩
    · rw [if_neg hz]
      exact ⟨r1, s1, rfl, i1, stop1, .inl lt1, Nat.le_refl _⟩
  obtain ⟨r2, s2, e2, i2, stop2, lt2, le2⟩ := key
  have hfar : r2 = 0 → V % D = 0 := by
    intro e
    rcases hb.far with hf | hf
    · exact hf
    · have := first1 (by omega)
      have h1 : b.vp / 10 ≤ b.vm / 10 := this
      rw [hb.vp, hb.vm] at h1
      omega
  refine ⟨_, r2, ?_, ryu_finish h i2.vr i2.vm rfl (i2.vp ▸ stop2) s2.vmZeros
    (decide ((if s2.vrZeros && decide (s2.last = 5) && decide (s2.vr % 2 = 0) then 4 else s2.last) ≥ 5)) i2.exact
    (i2.vm ▸ lt2) (fun hu => i2.last ?_) (fun hu => ?_) (fun ha hx hm hv => ?_)⟩
  · unfold d2dGeneral
    rw [e1]
    by_cases hz : s1.vmZeros = true
    · rw [if_pos hz] at e2
      simp only [Option.bind_eq_bind, Option.bind_some, hz, if_true, e2, i2.removed]
    · rw [if_neg hz] at e2
      cases e2
      simp only [Option.bind_eq_bind, Option.bind_some, hz, i2.removed]
      rfl
  · simp only [decide_eq_true_eq] at hu
    split at hu
    · omega
    · exact hu
  · simp only [decide_eq_false_iff_not] at hu
    by_cases h0 : r2 = 0
    · subst h0
      have hv := i2.vr
      rw [Nat.pow_zero, Nat.mul_one] at hv ⊢
      rw [hv, Nat.div_mul_cancel (Nat.dvd_of_mod_eq_zero (hfar rfl))]
      omega
    · split at hu
      next ht =>
        simp only [Bool.and_eq_true, decide_eq_true_eq] at ht
        have := i2.tie ht.1.1
        rw [ht.1.2] at this
        omega
      · exact i2.lastU h0 (by omega)
  · by_cases h0 : r2 = 0
    · subst h0
      have hv1 := i2.vr
      have hlo := h.lo
      rw [Nat.pow_zero, Nat.mul_one] at hv1 hm
      rw [← hv, hv1, Nat.div_mul_cancel (Nat.dvd_of_mod_eq_zero (hfar rfl))] at hm
      omega
    · have := i2.comp1 h0 ha (by rw [← hm]; exact Nat.mul_mod_left _ _)
      rw [hx] at this
      cases this

theorem d2dCommon_ok {b : RyuBounds} (hb : RyuStart D V P M accept b) (hz : b.vmZeros = false) :
    ∃ o r, d2dCommon b = some ⟨o, b.e10 + (r : Nat)⟩ ∧ RyuOk D V P M accept o r := by
  have h := hb.iv
  have hsmall : b.vp < 10 ^ 63 := Nat.lt_of_lt_of_le hb.small (by decide)
  have fin : ∀ (r vr vp vm : Nat) (up : Bool), vr = V / (D * 10 ^ r) → vm = M / (D * 10 ^ r) →
      vp / 10 = ryuTop P accept / (D * 10 ^ r) / 10 → (up = true → D * 10 ^ r ≤ 2 * (V - vr * (D * 10 ^ r))) →
      (r ≠ 0 → up = false → 2 * (V - vr * (D * 10 ^ r)) ≤ D * 10 ^ r) →
      M / (D * 10 ^ r) < ryuTop P accept / (D * 10 ^ r) → vp < 10 ^ 63 → (V % D ≠ 0 → r ≠ 0 ∨ vm / 10 < vp / 10) →
      ∃ o r', (do
        let (vr, _, vm, up, removed) ← ryuLoop3 64 vr vp vm up r
        some (⟨vr + (if decide (vr = vm) || up then 1 else 0), b.e10 + removed⟩ : Dec)) = some ⟨o, b.e10 + (r' : Nat)⟩ ∧
        RyuOk D V P M accept o r' := by
    intro r vr vp vm up hr hm hp hu hd hlt hf hfar
    obtain ⟨r', vr', vp', vm', up', e, h1, h2, h3, h4, h5, h6, h7, h8⟩ := ryuLoop3_run h 63 r vr vp vm up hr hm hp hu hd hlt hf
    have hex : r' = 0 → V % D = 0 := by
      intro e0
      by_contra hc
      rcases hfar hc with h9 | h9
      · obtain ⟨r0, rfl⟩ : ∃ r0, r = r0 + 1 := ⟨r - 1, by omega⟩
        exact ryuLoop3_removed e e0
      · have := (h8 e0).2
        omega
    refine ⟨_, r', ?_, ryu_finish h h1 h2 rfl (h3 ▸ h5) false up' (fun e => by cases e) (.inl (h2 ▸ h6)) h4 (fun hu' => ?_) (fun ha _ hm' hv => ?_)⟩
    · rw [e]
      simp
    · by_cases h0 : r' = 0
      · rw [h0, Nat.pow_zero, Nat.mul_one] at h1 ⊢
        rw [h1, Nat.div_mul_cancel (Nat.dvd_of_mod_eq_zero (hex h0))]
        omega
      · exact h7 h0 hu'
    · by_cases h0 : r' = 0
      · have hlo := h.lo
        rw [h0, Nat.pow_zero, Nat.mul_one] at h1 hm'
        rw [← hv, h1, Nat.div_mul_cancel (Nat.dvd_of_mod_eq_zero (hex h0))] at hm'
        omega
      · have : b.vmZeros = true := by
          refine hb.comp ha (Nat.mod_eq_zero_of_dvd (Nat.dvd_trans ?_ (Dvd.intro_left _ hm')))
          have := Nat.pow_dvd_pow 10 (show 1 ≤ r' by omega)
          rw [Nat.pow_one] at this
          exact Nat.mul_dvd_mul_left _ this
        rw [hz] at this
        cases this
  by_cases hc : b.vp / 100 > b.vm / 100
  · have e100 : ∀ x : Nat, x / 100 = x / 10 / 10 := fun x => by omega
    have hp100 : b.vp / 100 = ryuTop P accept / (D * 10 ^ 2) := by
      rw [e100, hb.vp, Nat.div_div_eq_div_mul, Nat.div_div_eq_div_mul]
      congr 1
    have hm100 : b.vm / 100 = M / (D * 10 ^ 2) := by rw [hb.vm, Nat.div_div_eq_div_mul]; rfl
    have hr100 : b.vr / 100 = V / (D * 10 ^ 2) := by rw [hb.vr, Nat.div_div_eq_div_mul]; rfl
    obtain ⟨o, r, e, ho⟩ := fin 2 (b.vr / 100) (b.vp / 100) (b.vm / 100) (decide (b.vr % 100 ≥ 50)) hr100 hm100
      (by rw [hp100]) (fun hu => by
        simp only [decide_eq_true_eq] at hu
        rw [hb.vr] at hu ⊢
        have h1 := Nat.div_add_mod V D
        have h2 := Nat.mod_lt V h.pos
        have h3 := Nat.div_add_mod (V / D) 100
        have h4 : V / D / 100 * (D * 10 ^ 2) = D * (100 * (V / D / 100)) := by ring
        have h5 : D * (V / D) = D * (100 * (V / D / 100)) + D * (V / D % 100) := by rw [← Nat.mul_add, h3]
        have h6 : D * 50 ≤ D * (V / D % 100) := Nat.mul_le_mul_left _ hu
        have h7 : D * 10 ^ 2 = D * 100 := rfl
        rw [h4, h7]
        omega)
      (fun _ hu => by
        simp only [decide_eq_false_iff_not] at hu
        rw [hb.vr] at hu ⊢
        have h1 := Nat.div_add_mod V D
        have h2 := Nat.mod_lt V h.pos
        have h3 := Nat.div_add_mod (V / D) 100
        have h4 : V / D / 100 * (D * 10 ^ 2) = D * (100 * (V / D / 100)) := by ring
        have h5 : D * (V / D) = D * (100 * (V / D / 100)) + D * (V / D % 100) := by rw [← Nat.mul_add, h3]
        have h6 : D * (V / D % 100) ≤ D * 49 := Nat.mul_le_mul_left _ (by omega)
        have h7 : D * 10 ^ 2 = D * 100 := rfl
        rw [h4, h7]
        omega)
      (by rw [← hp100, ← hm100]; exact hc) (by omega) (fun _ => .inl (by decide))
    refine ⟨o, r, ?_, ho⟩
    unfold d2dCommon
    simp only [hc, if_true]
    exact e
  · obtain ⟨o, r, e, ho⟩ := fin 0 b.vr b.vp b.vm false (by simpa using hb.vr) (by simpa using hb.vm) (by simpa using hb.vp) (fun e => by cases e)
      (fun e => absurd rfl e) (by simpa using hb.room) hsmall (fun hne => .inr (by
        rw [hb.vp, hb.vm]
        rcases hb.far with hf | hf
        · exact absurd hf hne
        · exact hf))
    refine ⟨o, r, ?_, ho⟩
    unfold d2dCommon
    simp only [hc, if_false]
    exact e
end
end Verif
