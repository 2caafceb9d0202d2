import Verif.Proof.BuilderOomRun
/-!
# C76: running out of memory while building
-/
namespace Verif
open Spec Oom

theorem oom_rel {junk : Nat → Nat → Byte} {b0 : Builder} {h : List Call} {rcs : List Code} {s : Sys}
    (hr : runs junk h (Sys.start b0) = some (rcs, s)) (hw : ∀ c ∈ h, IsRaw c) : Oom.Rel s (ledger h rcs) :=
  (runs_rel h _ _ rcs s (rel_start b0) hw hr).1

theorem readable_of {s : Sys} {d : Option Nat} {n : Nat} (h : n ≤ (block s.heap d).length) : readable s d n = some ((block s.heap d).take n) := by
  unfold readable
  by_cases hn : n = 0
  · subst hn; simp
  · rw [if_neg hn]
    cases d with
    | none => simp [block] at h; omega
    | some a =>
      cases e : s.heap a with
      | none => simp [block, e] at h; omega
      | some m =>
        have : block s.heap (some a) = m := block_some e
        rw [this] at h ⊢
        simp [e, h]

/-- **C76** Whatever memory was refused before, no call that a client may make on a builder's buffers uses memory that is not there. -/
theorem C76_safe (junk : Nat → Nat → Byte) (ty : TypeId) (b0 : Builder) (_h0 : builderInitFromType ty = .ok b0) (h : List Call) (rcs : List Code) (s : Sys)
    (hr : runs junk h (Sys.start b0) = some (rcs, s)) (hw : ∀ c ∈ h, IsRaw c) (c : Call) (hc : IsRaw c) (ha : Allowed s c) :
    ∃ rc s', c.run junk s = some (rc, s') := by
  obtain ⟨rc, s', h1, _⟩ := step (junk := junk) (oom_rel hr hw) hc ha
  exact ⟨rc, s', h1⟩

/-- **C76** A call fails only for want of memory (`ENOMEM`), or if the array is not valid (`EINVAL`): after a failure, calls work again as soon as there is
memory. -/
theorem C76_codes (junk : Nat → Nat → Byte) (ty : TypeId) (b0 : Builder) (_h0 : builderInitFromType ty = .ok b0) (h : List Call) (rcs : List Code) (s : Sys)
    (hr : runs junk h (Sys.start b0) = some (rcs, s)) (hw : ∀ c ∈ h, IsRaw c) (c : Call) (hc : IsRaw c) (rc : Code) (s' : Sys)
    (hs : c.run junk s = some (rc, s')) :
    rc = 0 ∨ (rc = EINVAL ∧ ∃ mem, c = .finish mem false) ∨ (rc = ENOMEM ∧ Starved c) := by
  obtain ⟨rc', s'', h1, _, _, _, _, h2⟩ := step (junk := junk) (oom_rel hr hw) hc (allowed_of_run hc hs)
  rw [hs] at h1
  simp only [Option.some.injEq, Prod.mk.injEq] at h1
  rw [h1.1]; exact h2

/-- **C76** (part) A buffer for which no call failed shows exactly the bytes accepted for it, whatever failed elsewhere. Missing: the same for the other
buffers, which is false (`C76_lost`). -/
theorem C76_contents_partial (junk : Nat → Nat → Byte) (ty : TypeId) (b0 : Builder) (_h0 : builderInitFromType ty = .ok b0) (h : List Call)
    (rcs : List Code) (s : Sys) (hr : runs junk h (Sys.start b0) = some (rcs, s)) (hw : ∀ c ∈ h, IsRaw c) (i : Nat) (hi : i < s.n)
    (hh : (ledger h rcs).hurt i = false) : shows s i = some ((ledger h rcs).bytes i) := by
  have r := oom_rel hr hw
  unfold shows
  rw [readable_of (by rw [view_block r.inv hi]; exact r.fits i hi), r.bytes i hi hh]

/-- **C76** Every buffer, also one for which a call failed, has as many bytes as were accepted for it, and they can be read. -/
theorem C76_lengths (junk : Nat → Nat → Byte) (ty : TypeId) (b0 : Builder) (_h0 : builderInitFromType ty = .ok b0) (h : List Call)
    (rcs : List Code) (s : Sys) (hr : runs junk h (Sys.start b0) = some (rcs, s)) (hw : ∀ c ∈ h, IsRaw c) (i : Nat) (hi : i < s.n) :
    ∃ bs, shows s i = some bs ∧ bs.length = ((ledger h rcs).bytes i).length := by
  have r := oom_rel hr hw
  have hv := view_block r.inv hi
  have hf := r.fits i hi
  refine ⟨_, readable_of (by rw [hv]; exact hf), ?_⟩
  rw [List.length_take, hv, ← r.len i hi]
  omega

/-- **C76** (part) In every finished array that was not released, a buffer for which no call failed shows exactly the bytes accepted for it when that
array was built, whatever failed elsewhere or later. Missing: the same for the other buffers, which is false (`C76_finish_exposes`, `C76_overrun`). -/
theorem C76_finished_partial (junk : Nat → Nat → Byte) (ty : TypeId) (b0 : Builder) (_h0 : builderInitFromType ty = .ok b0) (h : List Call)
    (rcs : List Code) (s : Sys) (hr : runs junk h (Sys.start b0) = some (rcs, s)) (hw : ∀ c ∈ h, IsRaw c) (k : Nat) (f : Nat → NBuf)
    (hf : s.arrays[k]? = some (some f)) :
    ∃ d, (ledger h rcs).done[k]? = some d ∧ ∀ i, i < s.n → (f i).size = (d i).1.length ∧ ((d i).2 = false → arrayShows s k i = some (d i).1) := by
  have r := oom_rel hr hw
  obtain ⟨d, h1, h2⟩ := r.arr k f hf
  refine ⟨d, h1, fun i hi => ⟨(h2 i hi).1, fun hd => ?_⟩⟩
  obtain ⟨h3, h4⟩ := (h2 i hi).2 hd
  unfold arrayShows
  rw [hf]
  show readable s (f i).data (f i).size = _
  rw [readable_of (by rw [arr_block r.inv hi hf]; exact h3), h4]

/-- What calls that fail do -/
theorem failed_keeps {junk : Nat → Nat → Byte} {s : Sys} {l : Ledger} (r : Oom.Rel s l) {c : Call} (hc : IsRaw c) {rc : Code} {s' : Sys}
    (hs : c.run junk s = some (rc, s')) (hrc : rc ≠ 0) : s'.views = s.views ∧ s'.arrays = s.arrays ∧ s'.n = s.n ∧ (∀ a m, s.heap a = some m → s'.heap a = some m) ∧
      (∀ i, Touches i c → s' = { s with bufs := poke s.bufs i ⟨none, 0, 0⟩ }) := by
  have hal := allowed_of_run hc hs
  cases c with
  | coords mem cs => exact hc.elim
  | coordsReserve mem n => exact hc.elim
  | release k =>
    obtain ⟨f, hf⟩ := hal
    obtain ⟨s1, h1, _⟩ := release_ok r hf
    rw [show (Call.release k).run junk s = Oom.release k s from rfl, h1] at hs
    simp only [Option.some.injEq, Prod.mk.injEq] at hs
    exact absurd hs.1.symm hrc
  | reset =>
    obtain ⟨s1, h1, _⟩ := reset_ok r
    rw [show Call.reset.run junk s = Oom.reset s from rfl, h1] at hs
    simp only [Option.some.injEq, Prod.mk.injEq] at hs
    exact absurd hs.1.symm hrc
  | reserve mem i add =>
    obtain ⟨ha, hi⟩ := hal
    have hs' : Oom.reserve junk mem i add s = some (rc, s') := hs
    by_cases hm : mem = true ∨ (s.views i).size + add ≤ (s.bufs i).cap
    · obtain ⟨s1, h1, _⟩ := reserve_ok (junk := junk) r ha hi hm
      rw [h1] at hs'
      simp only [Option.some.injEq, Prod.mk.injEq] at hs'
      exact absurd hs'.1.symm hrc
    · have hmem : mem = false := by cases mem <;> simp_all
      subst hmem
      obtain ⟨h1, _⟩ := reserve_fail (junk := junk) (i := i) (add := add) r ha hi (fun h => hm (Or.inr h))
      rw [h1] at hs'
      simp only [Option.some.injEq, Prod.mk.injEq] at hs'
      obtain ⟨rfl, rfl⟩ := hs'
      refine ⟨rfl, rfl, rfl, fun _ _ h => h, fun j hj => ?_⟩
      have : i = j := hj
      subst this; rfl
  | append mem i bs =>
    obtain ⟨ha, hi⟩ := hal
    have hs' : Oom.append junk mem i bs s = some (rc, s') := hs
    simp only [Oom.append] at hs'
    rw [if_pos ⟨ha, hi⟩] at hs'
    by_cases hf : (s.views i).size + bs.length ≤ (s.views i).cap
    · obtain ⟨s1, h1, _⟩ := appendUnsafe_ok r ha hi hf
      rw [if_pos hf, h1] at hs'
      simp only [Option.map_some, Option.some.injEq, Prod.mk.injEq] at hs'
      exact absurd hs'.1.symm hrc
    · rw [if_neg hf] at hs'
      by_cases hm : mem = true ∨ (s.views i).size + bs.length ≤ (s.bufs i).cap
      · obtain ⟨s1, h1, h2, h3, h4, h5, h6, h7⟩ := reserve_ok (junk := junk) r ha hi hm
        obtain ⟨s2, g1, _⟩ := appendUnsafe_ok h2 (by rw [h3]; exact ha) (by rw [h4]; exact hi) h6
        rw [h1] at hs'
        simp only [if_true, g1, Option.map_some, Option.some.injEq, Prod.mk.injEq] at hs'
        exact absurd hs'.1.symm hrc
      · have hmem : mem = false := by cases mem <;> simp_all
        subst hmem
        obtain ⟨h1, _⟩ := reserve_fail (junk := junk) (i := i) (add := bs.length) r ha hi (fun h => hm (Or.inr h))
        rw [h1] at hs'
        have hne : ENOMEM ≠ 0 := by decide
        simp only [hne, if_false, Option.some.injEq, Prod.mk.injEq] at hs'
        obtain ⟨rfl, rfl⟩ := hs'
        refine ⟨rfl, rfl, rfl, fun _ _ h => h, fun j hj => ?_⟩
        have : i = j := hj
        subst this; rfl
  | finish mem valid =>
    have hs' : Oom.finish junk mem valid s = some (rc, s') := hs
    have ha : s.alive = true := hal
    unfold Oom.finish at hs'
    rw [if_pos ha, raiseSizes_eq r.coords] at hs'
    have hx : Ext (syncSizes s) (finalize junk mem (s.n - 1) 1 (syncSizes s)).2 := by
      by_cases h : s.n - 1 = 0
      · rw [h]; exact Ext.refl r.sync.inv
      · exact (finalize_spec junk mem (s.n - 1) 1 (syncSizes s) r.sync.inv (by show 1 + (s.n - 1) ≤ s.n; omega)).1
    generalize finalize junk mem (s.n - 1) 1 (syncSizes s) = q at hx hs'
    obtain ⟨ok, t⟩ := q
    have done : s' = t → s'.views = s.views ∧ s'.arrays = s.arrays ∧ s'.n = s.n ∧ (∀ a m, s.heap a = some m → s'.heap a = some m) ∧
        (∀ i, Touches i (Call.finish mem valid) → s' = { s with bufs := poke s.bufs i ⟨none, 0, 0⟩ }) := by
      rintro rfl
      exact ⟨hx.views, hx.arrays, hx.n, hx.heap, fun _ h => h.elim⟩
    cases ok with
    | false =>
      simp at hs'
      exact done hs'.2.symm
    | true =>
      cases valid with
      | false =>
        simp at hs'
        exact done hs'.2.symm
      | true =>
        simp at hs'
        exact absurd hs'.1.symm hrc

/-- **C76** A call that fails changes nothing that the builder's buffers or finished arrays show at that moment. -/
theorem C76_failure_shows_nothing_new (junk : Nat → Nat → Byte) (ty : TypeId) (b0 : Builder) (_h0 : builderInitFromType ty = .ok b0) (h : List Call)
    (rcs : List Code) (s : Sys) (hr : runs junk h (Sys.start b0) = some (rcs, s)) (hw : ∀ c ∈ h, IsRaw c) (c : Call) (hc : IsRaw c) (rc : Code) (s' : Sys)
    (hs : c.run junk s = some (rc, s')) (hrc : rc ≠ 0) :
    (∀ i, i < s.n → shows s' i = shows s i) ∧ ∀ k i bs, arrayShows s k i = some bs → arrayShows s' k i = some bs := by
  have r := oom_rel hr hw
  obtain ⟨h1, h2, h3, h4, _⟩ := failed_keeps r hc hs hrc
  have mono : ∀ d n bs, readable s d n = some bs → readable s' d n = some bs := by
    intro d n bs hd
    unfold readable at hd ⊢
    by_cases hn : n = 0
    · simpa [hn] using hd
    · rw [if_neg hn] at hd ⊢
      cases d with
      | none => simp at hd
      | some a =>
        cases e : s.heap a with
        | none => simp [e] at hd
        | some m =>
          simp only [e, Option.bind_some] at hd
          simp only [h4 a m e, Option.bind_some]
          exact hd
  refine ⟨fun i hi => ?_, fun k i bs hb => ?_⟩
  · have : shows s i = some _ := readable_of (by rw [view_block r.inv hi]; exact r.fits i hi)
    rw [this]
    unfold shows at this ⊢
    rw [h1]
    exact mono _ _ _ this
  · unfold arrayShows at hb ⊢
    rw [h2]
    cases e : s.arrays[k]? with
    | none => simp [e] at hb
    | some x =>
      cases x with
      | none => simp [e] at hb
      | some f =>
        simp only [e] at hb
        exact mono _ _ _ hb

/-- **C76** As long as no call failed for want of memory, every allocated block is held by the builder or by a finished array: nothing leaks, and blocks
are freed with what holds them. -/
theorem C76_held (junk : Nat → Nat → Byte) (ty : TypeId) (b0 : Builder) (_h0 : builderInitFromType ty = .ok b0) (h : List Call)
    (rcs : List Code) (s : Sys) (hr : runs junk h (Sys.start b0) = some (rcs, s)) (hw : ∀ c ∈ h, IsRaw c) (hn : ENOMEM ∉ rcs) (a : Nat)
    (ha : s.heap a ≠ none) :
    (∃ i, i < s.n ∧ (s.bufs i).data = some a) ∨ ∃ (k : Nat) (f : Nat → NBuf) (i : Nat), s.arrays[k]? = some (some f) ∧ i < s.n ∧ (f i).data = some a := by
  obtain ⟨_, _, h3, _, _⟩ := runs_rel h _ _ rcs s (rel_start b0) hw hr
  have hnl : ¬ Lost s a := fun hl => (h3 hn a hl).1 rfl
  by_cases h1 : ∃ i, addr s (.buf i) = some a
  · obtain ⟨i, hi⟩ := h1
    left
    by_cases hin : i < s.n
    · exact ⟨i, hin, by simpa [addr, hin] using hi⟩
    · simp [addr, hin] at hi
  · by_cases h2 : ∃ k i, addr s (.arr k i) = some a
    · obtain ⟨k, i, hi⟩ := h2
      right
      by_cases hin : i < s.n
      · simp only [addr, hin, if_true] at hi
        split at hi
        · rename_i f hf; exact ⟨k, f, i, hf, hin, hi⟩
        · simp at hi
      · simp [addr, hin] at hi
    · exact absurd ⟨ha, fun i hi => h1 ⟨i, hi⟩, fun k i hi => h2 ⟨k, i, hi⟩⟩ hnl

/-- **C76** refuted: a block is freed whatever fails. If adding to a buffer fails, the memory it has so far is never freed, whatever is done afterwards. -/
theorem C76_leak (junk : Nat → Nat → Byte) (ty : TypeId) (b0 : Builder) (_h0 : builderInitFromType ty = .ok b0) (h : List Call)
    (rcs : List Code) (s : Sys) (hr : runs junk h (Sys.start b0) = some (rcs, s)) (hw : ∀ c ∈ h, IsRaw c) (i a : Nat) (hi : i < s.n)
    (hh : (ledger h rcs).hurt i = false) (ha : (s.views i).data = some a) (c : Call) (hc : Touches i c) (rc : Code) (hrc : rc ≠ 0) (s1 : Sys)
    (hs : c.run junk s = some (rc, s1)) (h2 : List Call) (hw2 : ∀ c ∈ h2, IsRaw c) (rcs2 : List Code) (s2 : Sys)
    (hr2 : runs junk h2 s1 = some (rcs2, s2)) : s2.heap a ≠ none := by
  have r := oom_rel hr hw
  have hraw : IsRaw c := by cases c <;> first | trivial | exact hc.elim
  obtain ⟨rc', s1', g1, g2, _⟩ := step (junk := junk) r hraw (allowed_of_run hraw hs)
  rw [hs] at g1
  simp only [Option.some.injEq, Prod.mk.injEq] at g1
  obtain ⟨rfl, rfl⟩ := g1
  have e := (failed_keeps r hraw hs hrc).2.2.2.2 i hc
  have hb : addr s (.buf i) = some a := by
    rcases r.same i hi hh with h | h
    · rw [ha] at h; simp [addr, hi, ← h]
    · rw [ha] at h; simp at h
  obtain ⟨m, hm, _⟩ := r.inv.good _ _ hb
  have hl : Lost s1 a := by
    rw [e]
    refine ⟨by rw [show ({ s with bufs := poke s.bufs i ⟨none, 0, 0⟩ } : Sys).heap = s.heap from rfl, hm]; simp, fun j hj => ?_, fun k j hj => ?_⟩
    · by_cases hji : j = i
      · simp [addr, poke, hji] at hj
      · have : addr s (.buf j) = some a := by simpa [addr, poke, hji] using hj
        have := r.inv.uniq _ _ a this hb
        simp [Holder.key] at this
        exact hji this
    · have : addr s (.arr k j) = some a := hj
      have := r.inv.uniq _ _ a this hb
      simp [Holder.key] at this
  exact ((runs_rel h2 s1 _ rcs2 s2 g2 hw2 hr2).2.1 a hl).1

/-- **C76** refuted: what was accepted stays. If adding to a buffer fails and there is memory again, reserving some replaces everything in the buffer by
whatever the new memory contains, and says so by no error. -/
theorem C76_lost (junk : Nat → Nat → Byte) (ty : TypeId) (b0 : Builder) (_h0 : builderInitFromType ty = .ok b0) (h : List Call)
    (rcs : List Code) (s : Sys) (hr : runs junk h (Sys.start b0) = some (rcs, s)) (hw : ∀ c ∈ h, IsRaw c) (i : Nat) (c : Call) (hc : Touches i c) (rc : Code)
    (hrc : rc ≠ 0) (s1 : Sys) (hs : c.run junk s = some (rc, s1)) (n : Nat) (hn : 0 < n) :
    ∃ s2, (Call.reserve true i n).run junk s1 = some (0, s2) ∧ shows s2 i = some ((List.range ((ledger h rcs).bytes i).length).map (junk s.next)) := by
  have r := oom_rel hr hw
  have hraw : IsRaw c := by cases c <;> first | trivial | exact hc.elim
  have hal := allowed_of_run hraw hs
  have hal' : s.alive = true ∧ i < s.n := by
    cases c <;> first | exact hc.elim | (have : _ = i := hc; subst this; exact hal)
  have e := (failed_keeps r hraw hs hrc).2.2.2.2 i hc
  subst e
  rcases nReserve_cases junk true ⟨none, (s.views i).size, 0⟩ n s.heap s.next with ⟨h1, _⟩ | ⟨_, h2, _⟩ | ⟨_, _, c', hc1, _, h3⟩
  · have h1' : (s.views i).size + n ≤ 0 := h1
    omega
  · cases h2
  · simp only [block, free, Option.bind_none, Option.getD_none, List.nil_append, List.length_nil, Nat.sub_zero] at h3
    have hc1 : (s.views i).size + n ≤ c' := hc1
    refine ⟨{ s with bufs := poke (poke s.bufs i ⟨none, 0, 0⟩) i ⟨some s.next, (s.views i).size, c'⟩,
                     heap := poke s.heap s.next (some ((List.range c').map (junk s.next))), next := s.next + 1,
                     views := poke s.views i { s.views i with data := some s.next, cap := c' } }, ?_, ?_⟩
    · simp only [Call.run, Oom.reserve, poke_same]
      rw [if_pos hal', h3]
      simp only [if_true]
    · unfold shows
      simp only [poke_same]
      rw [readable_of]
      · rw [block_some (poke_same _ _ _), ← r.len i hal'.2, ← List.map_take, List.take_range]
        rw [Nat.min_eq_left (by omega)]
      · rw [block_some (poke_same _ _ _)]
        simp; omega

theorem finalize_fresh (junk : Nat → Nat → Byte) (mem : Nat → Bool) : ∀ (k i : Nat) (s : Sys), Inv s → i + k ≤ s.n →
    (finalize junk mem k i s).1 = true → ∀ j, i ≤ j → j < i + k → (s.bufs j).data = none →
    ∃ a c, (finalize junk mem k i s).2.bufs j = ⟨some a, (s.bufs j).size, c⟩ ∧ (s.bufs j).size ≤ c ∧
      (finalize junk mem k i s).2.heap a = some ((List.range c).map (junk a))
  | 0, i, s, _, _, _, j, h1, h2, _ => by omega
  | k + 1, i, s, v, hk, hok, j, h1, h2, hj => by
    -- one step
    have hstep : ∃ t, Ext s t ∧ finalize junk mem (k + 1) i s = finalize junk mem k (i + 1) t ∧ (∀ j, j ≠ i → t.bufs j = s.bufs j) ∧
        ((s.bufs i).data = none → ∃ a c, t.bufs i = ⟨some a, (s.bufs i).size, c⟩ ∧ (s.bufs i).size ≤ c ∧
          t.heap a = some ((List.range c).map (junk a))) := by
      by_cases hd : (s.bufs i).data = none
      · have h1s := finalize_spec junk mem 1 i s v (by omega)
        have hi : i < s.n := by omega
        have hcap : (s.bufs i).cap = 0 := by
          have := v.null (.buf i) (by simp [addr, hd]); simpa [capOf, hi] using this
        rcases nReserve_cases junk (mem i) (s.bufs i) 1 s.heap s.next with ⟨h1, _⟩ | ⟨_, h2, h3⟩ | ⟨_, h2, c, hc1, _, h3⟩
        · omega
        · exfalso
          simp only [finalize, hd, if_true, h3] at hok
          simp at hok
        · rw [hd] at h3
          simp only [block, free, Option.bind_none, Option.getD_none, List.nil_append, List.length_nil, Nat.sub_zero] at h3
          have e1 : finalize junk mem 1 i s = (true, { s with bufs := poke s.bufs i ⟨some s.next, (s.bufs i).size, c⟩, heap := poke s.heap s.next (some ((List.range c).map (junk s.next))), next := s.next + 1 }) := by
            simp only [finalize, hd, if_true, h3]
          rw [e1] at h1s
          refine ⟨_, h1s.1, ?_, fun j hj => ?_, fun _ => ⟨s.next, c, poke_same _ _ _, by omega, poke_same _ _ _⟩⟩
          · simp only [finalize, hd, if_true, h3]
          · exact poke_other _ _ hj
      · exact ⟨s, Ext.refl v, by simp only [finalize, hd, if_false], fun _ _ => rfl, fun h => absurd h hd⟩
    obtain ⟨t, x, e, ho, hf⟩ := hstep
    rw [e] at hok ⊢
    by_cases hji : j = i
    · subst hji
      obtain ⟨a, c, g1, g2, g3⟩ := hf hj
      have y := (finalize_spec junk mem k (j + 1) t x.inv (by rw [x.n]; omega)).1
      exact ⟨a, c, by rw [y.bufs j (by rw [g1]; simp), g1], g2, y.heap _ _ g3⟩
    · have := finalize_fresh junk mem k (i + 1) t x.inv (by rw [x.n]; omega) hok j (by omega) (by omega) (by rw [ho j hji]; exact hj)
      rw [ho j hji] at this
      exact this

/-- Finishing after a call failed, when there is memory again -/
theorem finish_after {junk : Nat → Nat → Byte} {s : Sys} {l : Ledger} (r : Oom.Rel s l) {i : Nat} {c : Call} (hc : Touches i c) {rc : Code}
    (hrc : rc ≠ 0) {s1 : Sys} (hs : c.run junk s = some (rc, s1)) :
    ∃ s2, (Call.finish (fun _ => true) true).run junk s1 = some (0, s2) ∧ ∃ f, s2.arrays[s.arrays.length]? = some (some f) ∧
      (i = 0 → (f 0).data = none) ∧ (0 < i → ∃ a, arrayShows s2 s.arrays.length i = some ((List.range (l.bytes i).length).map (junk a))) := by
  have hraw : IsRaw c := by cases c <;> first | trivial | exact hc.elim
  have hal := allowed_of_run hraw hs
  have hal' : s.alive = true ∧ i < s.n := by
    cases c <;> first | exact hc.elim | (have : _ = i := hc; subst this; exact hal)
  have e := (failed_keeps r hraw hs hrc).2.2.2.2 i hc
  obtain ⟨rc', s1', g1, g2, _⟩ := step (junk := junk) r hraw hal
  rw [hs] at g1
  simp only [Option.some.injEq, Prod.mk.injEq] at g1
  obtain ⟨rfl, rfl⟩ := g1
  have hlen := r.len i hal'.2
  have hn1 : s1.n = s.n := by rw [e]
  have hv1 : s1.views = s.views := by rw [e]
  have ha1 : s1.arrays = s.arrays := by rw [e]
  have hal1 : s1.alive = true := by rw [e]; exact hal'.1
  have hb1 : ((syncSizes s1).bufs i).data = none := by
    have : i < s1.n := by rw [hn1]; exact hal'.2
    simp only [syncSizes, this, if_true]
    rw [e]; simp [poke]
  have hsz1 : ((syncSizes s1).bufs i).size = (l.bytes i).length := by
    have : i < s1.n := by rw [hn1]; exact hal'.2
    simp only [syncSizes, this, if_true, hv1]
    exact hlen
  have hval : (Call.finish (fun _ => true) true).run junk s1 = Oom.finish junk (fun _ => true) true s1 := rfl
  rw [hval]
  unfold Oom.finish
  rw [if_pos hal1, raiseSizes_eq g2.coords]
  by_cases hz : s1.n - 1 = 0
  · rw [hz]
    have hi0 : i = 0 := by have := hal'.2; omega
    subst hi0
    refine ⟨_, by simp only [finalize, if_true]; rfl, (syncSizes s1).bufs, ?_, fun _ => hb1, fun h => by omega⟩
    rw [show (syncSizes s1).arrays = s.arrays from ha1]; simp
  · have hle : 1 + (s1.n - 1) ≤ (syncSizes s1).n := by show 1 + (s1.n - 1) ≤ s1.n; omega
    obtain ⟨x, k2, k3⟩ := finalize_spec junk (fun _ => true) (s1.n - 1) 1 (syncSizes s1) g2.sync.inv hle
    have hok : (finalize junk (fun _ => true) (s1.n - 1) 1 (syncSizes s1)).1 = true := by
      cases e : (finalize junk (fun _ => true) (s1.n - 1) 1 (syncSizes s1)).1 with
      | true => rfl
      | false => obtain ⟨j, hj⟩ := k3 e; cases hj
    have hfr := finalize_fresh junk (fun _ => true) (s1.n - 1) 1 (syncSizes s1) g2.sync.inv hle hok i
    obtain ⟨_, k5, _⟩ := k2 hok
    generalize finalize junk (fun _ => true) (s1.n - 1) 1 (syncSizes s1) = q at x hok hfr k5
    obtain ⟨ok, t⟩ := q
    dsimp only at x hok hfr k5
    subst hok
    have hta : t.arrays = s.arrays := x.arrays.trans ha1
    refine ⟨{ blank t with arrays := t.arrays ++ [some t.bufs] }, by simp, t.bufs, by simp [hta], fun hi => ?_, fun hi => ?_⟩
    · subst hi; rw [k5 0 (by omega)]; exact hb1
    · obtain ⟨a, c, f1, f2, f3⟩ := hfr (by omega) (by have := hal'.2; omega) hb1
      rw [hsz1] at f1 f2
      refine ⟨a, ?_⟩
      unfold arrayShows
      simp only [hta, List.getElem?_concat_length, f1]
      rw [readable_of]
      · show some ((block t.heap (some a)).take _) = _
        rw [block_some f3, ← List.map_take, List.take_range]
        congr 3
        omega
      · show _ ≤ (block t.heap (some a)).length
        rw [block_some f3]; simpa using f2

/-- **C76** refuted: finished arrays hold what was accepted. If adding to a buffer (other than the first) fails, finishing may well succeed, and then the array
shows whatever newly allocated memory contains. -/
theorem C76_finish_exposes (junk : Nat → Nat → Byte) (ty : TypeId) (b0 : Builder) (_h0 : builderInitFromType ty = .ok b0) (h : List Call)
    (rcs : List Code) (s : Sys) (hr : runs junk h (Sys.start b0) = some (rcs, s)) (hw : ∀ c ∈ h, IsRaw c) (i : Nat) (hi : 0 < i) (c : Call) (hc : Touches i c)
    (rc : Code) (hrc : rc ≠ 0) (s1 : Sys) (hs : c.run junk s = some (rc, s1)) :
    ∃ s2 a, (Call.finish (fun _ => true) true).run junk s1 = some (0, s2) ∧
      arrayShows s2 s.arrays.length i = some ((List.range ((ledger h rcs).bytes i).length).map (junk a)) := by
  obtain ⟨s2, h1, f, _, _, h4⟩ := finish_after (oom_rel hr hw) hc hrc hs
  obtain ⟨a, h5⟩ := h4 hi
  exact ⟨s2, a, h1, h5⟩

/-- **C76** refuted: finished arrays hold what was accepted. If adding to the validity bitmap fails, finishing may well succeed, and then the array has no
bitmap: null elements become valid ones. -/
theorem C76_validity_lost (junk : Nat → Nat → Byte) (ty : TypeId) (b0 : Builder) (_h0 : builderInitFromType ty = .ok b0) (h : List Call)
    (rcs : List Code) (s : Sys) (hr : runs junk h (Sys.start b0) = some (rcs, s)) (hw : ∀ c ∈ h, IsRaw c) (c : Call) (hc : Touches 0 c)
    (rc : Code) (hrc : rc ≠ 0) (s1 : Sys) (hs : c.run junk s = some (rc, s1)) :
    ∃ s2 f, (Call.finish (fun _ => true) true).run junk s1 = some (0, s2) ∧ s2.arrays[s.arrays.length]? = some (some f) ∧ (f 0).data = none := by
  obtain ⟨s2, h1, f, h2, h3, _⟩ := finish_after (oom_rel hr hw) hc hrc hs
  exact ⟨s2, f, h1, h2, h3 rfl⟩

/-- A builder that was reset has no buffers. -/
theorem run_dead {junk : Nat → Nat → Byte} {c : Call} {s s' : Sys} {rc : Code} (hc : IsRaw c) (h : c.run junk s = some (rc, s'))
    (hd : s.alive = false → ∀ i, (s.bufs i).data = none) : s'.alive = false → ∀ i, (s'.bufs i).data = none := by
  have hres : ∀ mem i n s s' rc, Oom.reserve junk mem i n s = some (rc, s') → s'.alive = s.alive := by
    intro mem i n s s' rc h
    simp only [Oom.reserve] at h
    split at h
    · split at h <;> (simp only [Option.some.injEq, Prod.mk.injEq] at h; rw [← h.2])
    · simp at h
  have hun : ∀ i bs s s', appendUnsafe i bs s = some s' → s'.alive = s.alive := by
    intro i bs s s' h
    simp only [appendUnsafe] at h
    split at h
    · simp only [Option.some.injEq] at h; rw [h]
    · split at h
      · simp at h
      · split at h
        · simp at h
        · split at h
          · simp at h
          · simp only [Option.some.injEq] at h; rw [← h]
  have hal := allowed_of_run hc h
  cases c with
  | coords mem cs => exact hc.elim
  | coordsReserve mem n => exact hc.elim
  | reserve mem i n =>
    intro hf
    rw [hres mem i n s s' rc h, hal.1] at hf; cases hf
  | append mem i bs =>
    intro hf
    have : s'.alive = s.alive := by
      simp only [Call.run, Oom.append] at h
      split at h
      · split at h
        · simp only [Option.map_eq_some_iff, Prod.mk.injEq] at h
          obtain ⟨s1, h1, _, rfl⟩ := h
          exact hun _ _ _ _ h1
        · split at h
          · simp at h
          · rename_i rc1 s1 h1
            split at h
            · simp only [Option.map_eq_some_iff, Prod.mk.injEq] at h
              obtain ⟨s2, h2, _, rfl⟩ := h
              rw [hun _ _ _ _ h2, hres _ _ _ _ _ _ h1]
            · simp only [Option.some.injEq, Prod.mk.injEq] at h
              rw [← h.2, hres _ _ _ _ _ _ h1]
      · simp at h
    rw [this, hal.1] at hf; cases hf
  | finish mem valid =>
    intro hf
    have hfin : ∀ k i (t : Sys), (finalize junk mem k i t).2.alive = t.alive := by
      intro k
      induction k with
      | zero => intro i t; rfl
      | succ k ih =>
        intro i t
        simp only [finalize]
        split
        · split
          · rw [ih]
          · rfl
        · rw [ih]
    have hra : (raiseSizes s).alive = s.alive := by unfold raiseSizes; split <;> rfl
    have : s'.alive = s.alive := by
      simp only [Call.run, Oom.finish] at h
      split at h
      · split at h
        · split at h <;> (simp only [Option.some.injEq, Prod.mk.injEq] at h; rw [← h.2])
          · show (finalize _ _ _ _ _).2.alive = _
            rw [hfin]; exact hra
          · rw [hfin]; exact hra
        · simp only [Option.some.injEq, Prod.mk.injEq] at h
          rw [← h.2, hfin]; exact hra
      · simp at h
    rw [this, hal] at hf; cases hf
  | release k =>
    simp only [Call.run, Oom.release] at h
    split at h
    · simp only [Option.some.injEq, Prod.mk.injEq] at h
      rw [← h.2]; exact hd
    · simp at h
  | reset =>
    simp only [Call.run, Oom.reset] at h
    split at h
    · simp only [Option.some.injEq, Prod.mk.injEq] at h
      rw [← h.2]; intro _ _; rfl
    · simp only [Option.some.injEq, Prod.mk.injEq] at h
      rw [← h.2]; exact hd

theorem runs_dead {junk : Nat → Nat → Byte} : ∀ (h : List Call) (s s' : Sys) (rcs : List Code), (∀ c ∈ h, IsRaw c) → runs junk h s = some (rcs, s') →
    (s.alive = false → ∀ i, (s.bufs i).data = none) → s'.alive = false → ∀ i, (s'.bufs i).data = none
  | [], s, s', rcs, _, hr, hd => by
    simp only [runs, Option.some.injEq, Prod.mk.injEq] at hr
    rw [← hr.2]; exact hd
  | c :: h, s, s', rcs, hw, hr, hd => by
    simp only [runs] at hr
    split at hr
    · simp at hr
    · rename_i rc s1 e
      split at hr
      · simp at hr
      · rename_i rcs' s2 e2
        simp only [Option.some.injEq, Prod.mk.injEq] at hr
        rw [← hr.2]
        exact runs_dead h s1 s2 rcs' (fun c' hc' => hw c' (by simp [hc'])) e2 (run_dead (hw c (by simp)) e hd)

/-- **C76** If no call failed for want of memory, then once the builder was reset and all arrays were released no memory is left allocated. -/
theorem C76_all_freed (junk : Nat → Nat → Byte) (ty : TypeId) (b0 : Builder) (h0 : builderInitFromType ty = .ok b0) (h : List Call)
    (rcs : List Code) (s : Sys) (hr : runs junk h (Sys.start b0) = some (rcs, s)) (hw : ∀ c ∈ h, IsRaw c) (hn : ENOMEM ∉ rcs) (hd : s.alive = false)
    (hf : ∀ (k : Nat) (f : Nat → NBuf), s.arrays[k]? ≠ some (some f)) (a : Nat) : s.heap a = none := by
  refine Classical.byContradiction fun hne => ?_
  rcases C76_held junk ty b0 h0 h rcs s hr hw hn a hne with ⟨i, _, hi⟩ | ⟨k, f, i, hk, _⟩
  · rw [runs_dead h _ s rcs hw hr (fun h => by simp [Sys.start] at h) hd i] at hi
    cases hi
  · exact hf k f hk

/-! ## Points in separate coordinates -/

/-- A new builder of points -/
def exOomStart : Sys where
  next := 0
  heap _ := none
  n := 3
  kind := some .separate
  nValues := 2
  bufs _ := ⟨none, 0, 0⟩
  views _ := ⟨none, 0, 0⟩
  sizeCoords := 0
  capCoords := 0
  values _ := none
  alive := true
  arrays := []

theorem exOomStart_eq : ∃ b0, builderInitFromType 1 = .ok b0 ∧ Sys.start b0 = exOomStart := by
  have e : (match builderInitFromType 1 with | .ok b => some (b.nBuffers, b.nValues, b.schema.coordType) | .error _ => none) = some (3, 2, 1) := by
    decide +kernel
  cases h : builderInitFromType 1 with
  | error rc => rw [h] at e; simp at e
  | ok b0 =>
    rw [h] at e
    simp at e
    exact ⟨b0, rfl, by simp [Sys.start, exOomStart, e]⟩

/-- Room for four coordinates; one coordinate; then `x` finds more room, but `y` does not. -/
def exOomCoords : List Call :=
  [.coordsReserve (fun _ => true) 4, .coords (fun _ => true) [[0x3ff0000000000000#64, 0x4000000000000000#64]], .coordsReserve (fun i => decide (i = 1)) 100]

/-- **C76** refuted: no call uses memory that is not there. If coordinates are reserved and there is memory for some of the dimensions only, the call
fails, and the next coordinate that is appended, for which there is room, is written to memory that was freed. -/
theorem C76_coords_use_after_free : ∃ junk b0 s, builderInitFromType 1 = .ok b0 ∧
    runs junk exOomCoords (Sys.start b0) = some ([0, 0, ENOMEM], s) ∧ s.sizeCoords + 1 ≤ s.capCoords ∧
    Allowed s (.coords (fun _ => true) [[0#64, 0#64]]) ∧ (Call.coords (fun _ => true) [[0#64, 0#64]]).run junk s = none := by
  obtain ⟨b0, h0, h1⟩ := exOomStart_eq
  obtain ⟨junk, hj⟩ : ∃ junk : Nat → Nat → Byte, junk = fun _ _ => 0#8 := ⟨_, rfl⟩
  have e1 : (runs junk exOomCoords exOomStart).map (fun x => (x.1, x.2.sizeCoords, x.2.capCoords, x.2.alive)) = some ([0, 0, ENOMEM], 1, 4, true) := by
    rw [hj]; decide +kernel
  have e2 : (runs junk (exOomCoords ++ [.coords (fun _ => true) [[0#64, 0#64]]]) exOomStart) = none := by
    have : (runs junk (exOomCoords ++ [.coords (fun _ => true) [[0#64, 0#64]]]) exOomStart).isNone = true := by rw [hj]; decide +kernel
    exact Option.isNone_iff_eq_none.mp this
  have app : ∀ (h : List Call) (c : Call) (s : Sys) (rcs : List Code) (s' : Sys), runs junk h s = some (rcs, s') → runs junk (h ++ [c]) s = none →
      c.run junk s' = none := by
    intro h
    induction h with
    | nil =>
      intro c s rcs s' hr hn
      simp only [runs, Option.some.injEq, Prod.mk.injEq] at hr
      rw [← hr.2]
      cases e : c.run junk s with
      | none => rfl
      | some x => simp [runs, e] at hn
    | cons d h ih =>
      intro c s rcs s' hr hn
      simp only [runs] at hr
      simp only [List.cons_append, runs] at hn
      cases e : d.run junk s with
      | none => simp [e] at hr
      | some x =>
        obtain ⟨rc, s1⟩ := x
        simp only [e] at hr hn
        cases e2 : runs junk h s1 with
        | none => simp [e2] at hr
        | some y =>
          simp only [e2, Option.some.injEq, Prod.mk.injEq] at hr
          rw [← hr.2]
          refine ih c s1 y.1 y.2 e2 ?_
          cases e3 : runs junk (h ++ [c]) s1 with
          | none => rfl
          | some z => simp [e3] at hn
  cases e : runs junk exOomCoords exOomStart with
  | none => rw [e] at e1; simp at e1
  | some x =>
    obtain ⟨rcs, s⟩ := x
    rw [e] at e1
    simp only [Option.map_some, Option.some.injEq, Prod.mk.injEq] at e1
    obtain ⟨r1, r2, r3, r4⟩ := e1
    subst r1
    exact ⟨junk, b0, s, h0, by rw [h1]; exact e, by omega, r4, app _ _ _ _ _ e e2⟩

/-- Room for 16 bytes of `x`, 8 of them used; no more room; the array is not valid yet; 8 more bytes; the array is finished. -/
def exOomOverrun : List Call :=
  [.reserve true 1 16, .append true 1 (List.replicate 8 1#8), .append true 2 (List.replicate 16 2#8), .reserve false 1 100, .finish (fun _ => true) false,
    .append true 1 (List.replicate 8 3#8), .finish (fun _ => true) true]

theorem exOomOverrun_raw : ∀ c ∈ exOomOverrun, IsRaw c := by
  intro c hc
  simp only [exOomOverrun, List.mem_cons, List.not_mem_nil, or_false] at hc
  rcases hc with rfl | rfl | rfl | rfl | rfl | rfl | rfl <;> trivial

/-- **C76** refuted: finished arrays can be read. After a failure, and finishing refused once, an array may be finished that has less memory than it
says. -/
theorem C76_overrun (junk : Nat → Nat → Byte) : ∃ b0 s f, builderInitFromType 1 = .ok b0 ∧ (∀ c ∈ exOomOverrun, IsRaw c) ∧
    runs junk exOomOverrun (Sys.start b0) = some ([0, 0, 0, ENOMEM, EINVAL, 0, 0], s) ∧ s.arrays[0]? = some (some f) ∧
    (f 1).size = 16 ∧ (f 2).size = 16 ∧ arrayShows s 0 1 = none := by
  obtain ⟨b0, h0, h1⟩ := exOomStart_eq
  have e1 : (runs junk exOomOverrun exOomStart).map (fun x => (x.1, (x.2.arrays[0]?.map fun f => f.map fun f => ((f 1).size, (f 2).size)), arrayShows x.2 0 1)) =
      some ([0, 0, 0, ENOMEM, EINVAL, 0, 0], some (some (16, 16)), none) := rfl
  cases e : runs junk exOomOverrun exOomStart with
  | none => rw [e] at e1; simp at e1
  | some x =>
    obtain ⟨rcs, s⟩ := x
    rw [e] at e1
    simp only [Option.map_some, Option.some.injEq, Prod.mk.injEq] at e1
    obtain ⟨r1, r2, r3⟩ := e1
    subst r1
    cases ef : s.arrays[0]? with
    | none => rw [ef] at r2; simp at r2
    | some o =>
      cases o with
      | none => rw [ef] at r2; simp at r2
      | some f =>
        rw [ef] at r2
        simp only [Option.map_some, Option.some.injEq, Prod.mk.injEq] at r2
        exact ⟨b0, s, f, h0, exOomOverrun_raw, by rw [h1]; exact e, ef, r2.1, r2.2, r3⟩

/-! ## The hypotheses are met -/

/-- One array is finished; in the next, `x` and the bitmap find no memory. -/
def exOomH : List Call :=
  [.append true 1 (List.replicate 8 1#8), .append true 2 (List.replicate 8 2#8), .finish (fun _ => true) true,
    .append true 0 [1#8], .append true 1 (List.replicate 8 3#8), .append true 2 (List.replicate 8 4#8), .append false 1 [5#8]]

theorem exOomH_raw : ∀ c ∈ exOomH, IsRaw c := by
  intro c hc
  simp only [exOomH, List.mem_cons, List.not_mem_nil, or_false] at hc
  rcases hc with rfl | rfl | rfl | rfl | rfl | rfl | rfl <;> trivial

/-- What is to be seen after a history: codes, views, arrays, and which of the first ten blocks are allocated. -/
def exOomSee (h : List Call) : Option (List Code × List (Option (List Byte)) × List (List (Option (List Byte))) × List Bool × Bool) :=
  (runs (fun a p => BitVec.ofNat 8 (100 + a + p)) h exOomStart).map fun x =>
    (x.1, (List.range 3).map (shows x.2), (List.range x.2.arrays.length).map fun k => (List.range 3).map (arrayShows x.2 k),
      (List.range 10).map fun a => (x.2.heap a).isSome, x.2.alive)

-- the ledger of the history: `x` is hurt, the others are not; the first array is whole
example : (List.range 3).map (ledger exOomH [0, 0, 0, 0, 0, 0, 12]).hurt = [false, true, false] := by decide
example : (List.range 3).map (ledger exOomH [0, 0, 0, 0, 0, 0, 12]).bytes = [[1#8], List.replicate 8 3#8, List.replicate 8 4#8] := by decide
-- C76_safe, C76_contents_partial, C76_lengths, C76_finished_partial: a failed call, after which the views and the finished array still show everything
example : (exOomSee exOomH).map (fun x => (x.1, x.2.1)) =
    some ([0, 0, 0, 0, 0, 0, 12], [some [1#8], some (List.replicate 8 3#8), some (List.replicate 8 4#8)]) := by decide +kernel
example : (exOomSee exOomH).map (fun x => (x.2.2.1, x.2.2.2)) = some ([[some [], some (List.replicate 8 1#8), some (List.replicate 8 2#8)]],
    [true, true, true, true, true, false, false, false, false, false], true) := by decide +kernel
-- C76_codes, C76_failure_shows_nothing_new: the last call above failed for want of memory; and an array that is not valid
example : (exOomSee [.append true 1 [1#8], .finish (fun _ => true) false, .finish (fun i => decide (i = 1)) true]).map (·.1) = some [0, 22, 0] := by decide +kernel
example : (exOomSee [.append true 1 [1#8], .finish (fun i => decide (i = 1)) true]).map (·.1) = some [0, 12] := by decide +kernel
-- C76_lost: reserving with success shows what the new memory contains, 105, 106, ... at address 5
example : (exOomSee (exOomH ++ [.reserve true 1 1])).map (fun x => (x.1, x.2.1)) = some ([0, 0, 0, 0, 0, 0, 12, 0],
    [some [1#8], some [105#8, 106#8, 107#8, 108#8, 109#8, 110#8, 111#8, 112#8], some (List.replicate 8 4#8)]) := by decide +kernel
-- C76_finish_exposes: the second array shows what the new memory contains; the others are whole
example : (exOomSee (exOomH ++ [.finish (fun _ => true) true])).map (fun x => (x.1, x.2.2.1)) = some ([0, 0, 0, 0, 0, 0, 12, 0],
    [[some [], some (List.replicate 8 1#8), some (List.replicate 8 2#8)],
     [some [1#8], some [105#8, 106#8, 107#8, 108#8, 109#8, 110#8, 111#8, 112#8], some (List.replicate 8 4#8)]]) := by decide +kernel
-- C76_validity_lost: the bitmap cannot grow, and is missing from the array
example : (exOomSee [.append true 0 [0#8], .append false 0 [1#8], .finish (fun _ => true) true]).map (fun x => (x.1, x.2.2.1)) =
    some ([0, 12, 0], [[none, some [], some []]]) := by decide +kernel
-- C76_leak: the block at address 3 is never freed
example : (exOomSee (exOomH ++ [.finish (fun _ => true) true, .release 0, .release 1, .reset])).map (fun x => (x.1, x.2.2.2)) =
    some ([0, 0, 0, 0, 0, 0, 12, 0, 0, 0, 0], [false, false, false, true, false, false, false, false, false, false], false) := by decide +kernel
-- C76_coords_use_after_free: with memory for both dimensions, all is well
example : (exOomSee [.coordsReserve (fun _ => true) 4, .coords (fun _ => true) [[0x3ff0000000000000#64, 0x4000000000000000#64]],
      .coordsReserve (fun _ => true) 100, .coords (fun _ => true) [[0#64, 0#64]], .finish (fun _ => true) true]).map (fun x => (x.1, x.2.2.1)) =
    some ([0, 0, 0, 0, 0], [[some [], some ([0, 0, 0, 0, 0, 0, 0xf0, 0x3f].map (BitVec.ofNat 8) ++ List.replicate 8 0#8),
      some ([0, 0, 0, 0, 0, 0, 0, 0x40].map (BitVec.ofNat 8) ++ List.replicate 8 0#8)]]) := by decide +kernel
-- C76_held, C76_all_freed: without a failure, all is freed
example : (exOomSee (exOomH.take 6 ++ [.finish (fun _ => true) true, .release 0, .release 1, .reset])).map (fun x => (x.1, x.2.2.2)) =
    some ([0, 0, 0, 0, 0, 0, 0, 0, 0, 0], List.replicate 10 false, false) := by decide +kernel

end Verif
