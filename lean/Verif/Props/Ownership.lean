import Verif.Proof.OwnershipRun
/-!
# C70: memory handed to a builder is given back exactly once
-/
namespace Verif
open Spec Own

/-- Two buffers are handed over, one for an index that does not exist, the first is replaced, one grows, the array is finished and released. -/
def exOwnH : List Call :=
  [.setOwned 1 (some 100) 8 0, .setOwned 9 (some 200) 8 1, .setOwned 2 (some 300) 16 2, .wrap 1 (some 400) 8 3, .wrap (-1) (some 500) 8 4,
    .reserve 3 16, .view 3 16, .finish false, .finish true, .reset, .release 0]

theorem start_inv {ty : TypeId} {b0 : Builder} (_ : builderInitFromType ty = .ok b0) {h : List Call} {rcs : List Code} {s : Sys}
    (hr : runs h (Sys.start b0) = some (rcs, s)) : Inv b0.tree b0.nBuffers s (given h) := by
  have := runs_inv h (Sys.start b0) [] (inv_start b0) rcs s hr
  simpa using this

/-- What is known of a buffer that was handed over in call `k`. -/
theorem own_facts {b0 : Builder} {h : List Call} {rcs : List Code} {s : Sys}
    (hr : runs h (Sys.start b0) = some (rcs, s)) (hn : (owners h).Nodup) {k : Nat} {c : Call} (hc : h[k]? = some c)
    {t n : Nat} {d : Option Nat} {i : Int} (hh : Call.hands c = some (t, d, n, i)) :
    (∃ rc, rcs[k]? = some rc) ∧
    (rcs[k]? = some 0 → births (.given t) s.log = 1 ∧ s.log.count (.deleted t) = 0) ∧
    (rcs[k]? ≠ some 0 → births (.given t) s.log = 0 ∧ s.log.count (.deleted t) = if wraps t c then 1 else 0) := by
  obtain ⟨hlen, h1, h2⟩ := runs_count t h (Sys.start b0) [] (inv_start b0) rcs s hr
  have hb0 : births (.given t) (Sys.start b0).log = 0 := rfl
  have hd0 : (Sys.start b0).log.count (.deleted t) = 0 := rfl
  rw [hb0, Nat.zero_add] at h1
  rw [hd0, Nat.zero_add] at h2
  obtain ⟨rc, hrc⟩ : ∃ rc, rcs[k]? = some rc := by
    have : k < rcs.length := by rw [hlen]; exact (List.getElem?_eq_some_iff.mp hc).1
    exact ⟨rcs[k], List.getElem?_eq_getElem this⟩
  have hw : ∀ c, wraps t c = true → (Call.hands c).map (·.1) = some t := by
    intro c hc
    cases c <;> simp [wraps] at hc
    rw [hc]; rfl
  -- counted together, there is at most one
  obtain ⟨hsum, -⟩ := countP_zip_le t h rcs hn (fun x => decide (x.2 = 0 ∧ (Call.hands x.1).map (·.1) = some t) || decide (x.2 ≠ 0 ∧ wraps t x.1))
    (by
      intro x hx
      rw [Bool.or_eq_true, decide_eq_true_eq, decide_eq_true_eq] at hx
      rcases hx with hx | hx
      · exact hx.2
      · exact hw _ hx.2)
  have hand : ∀ c' rc', (c', rc') ∈ h.zip rcs → (Call.hands c').map (·.1) = some t → c' = c ∧ rc' = rc := by
    intro c' rc' hm ht
    obtain ⟨k', hk'⟩ := List.getElem?_of_mem hm
    rw [List.getElem?_zip_eq_some] at hk'
    -- the two positions are the same, as owners differ
    have hpos := (countP_zip_le t h ((List.range h.length).map Int.ofNat) hn (fun x => decide ((Call.hands x.1).map (·.1) = some t))
      (fun x hx => by simpa using hx)).1
    by_cases hkk : k' = k
    · subst hkk
      rw [hc] at hk'
      rw [hrc] at hk'
      exact ⟨(Option.some.inj hk'.1).symm, (Option.some.inj hk'.2).symm⟩
    · exfalso
      have hsub : List.Sublist [(c', (k' : Int)), (c, (k : Int))] (h.zip ((List.range h.length).map Int.ofNat)) ∨
          List.Sublist [(c, (k : Int)), (c', (k' : Int))] (h.zip ((List.range h.length).map Int.ofNat)) := by
        have g : ∀ (j : Nat) (x : Call), h[j]? = some x → (h.zip ((List.range h.length).map Int.ofNat))[j]? = some (x, (j : Int)) := by
          intro j x hx
          have hj : j < h.length := (List.getElem?_eq_some_iff.mp hx).1
          rw [List.getElem?_zip_eq_some]
          refine ⟨hx, ?_⟩
          rw [List.getElem?_map, List.getElem?_range hj]
          rfl
        have two : ∀ (l : List (Call × Int)) (a b : Nat) (x y : Call × Int), a < b → l[a]? = some x → l[b]? = some y → List.Sublist [x, y] l := by
          intro l
          induction l with
          | nil => intro a b x y _ h1; cases h1
          | cons z l ih =>
            intro a b x y hab h1 h2
            cases b with
            | zero => omega
            | succ b =>
              rw [List.getElem?_cons_succ] at h2
              cases a with
              | zero =>
                rw [List.getElem?_cons_zero, Option.some.injEq] at h1
                subst h1
                exact List.Sublist.cons_cons _ (List.singleton_sublist.mpr (List.mem_of_getElem? h2))
              | succ a =>
                rw [List.getElem?_cons_succ] at h1
                exact (ih a b x y (by omega) h1 h2).cons _
        rcases Nat.lt_or_gt_of_ne hkk with hlt | hlt
        · exact Or.inl (two _ k' k _ _ hlt (g k' c' hk'.1) (g k c hc))
        · exact Or.inr (two _ k k' _ _ hlt (g k c hc) (g k' c' hk'.1))
      have ht2 : (Call.hands c).map (·.1) = some t := by rw [hh]; rfl
      rcases hsub with hs | hs
      · have := hs.countP_le (p := fun x => decide ((Call.hands x.1).map (·.1) = some t))
        simp [ht, ht2] at this
        exact absurd (Nat.le_trans this hpos) (by omega)
      · have := hs.countP_le (p := fun x => decide ((Call.hands x.1).map (·.1) = some t))
        simp [ht, ht2] at this
        exact absurd (Nat.le_trans this hpos) (by omega)
  refine ⟨⟨rc, hrc⟩, ?_, ?_⟩
  · intro h00
    have e : rc = 0 := by rw [hrc, Option.some.injEq] at h00; exact h00
    subst e
    have hp := countP_zip_pos hc hrc (fun x => decide (x.2 = 0 ∧ (Call.hands x.1).map (·.1) = some t)) (by simp [hh])
    have hle := (countP_zip_le t h rcs hn (fun x => decide (x.2 = 0 ∧ (Call.hands x.1).map (·.1) = some t)) (by
      intro x hx; rw [decide_eq_true_eq] at hx; exact hx.2)).1
    refine ⟨by omega, ?_⟩
    rw [h2]
    refine List.countP_eq_zero.mpr ?_
    rintro ⟨c', rc'⟩ hm hx
    rw [decide_eq_true_eq] at hx
    exact hx.1 (hand c' rc' hm (hw _ hx.2)).2
  · intro h00
    have hne : rc ≠ 0 := by rintro rfl; exact h00 hrc
    refine ⟨?_, ?_⟩
    · rw [h1]
      refine List.countP_eq_zero.mpr ?_
      rintro ⟨c', rc'⟩ hm hx
      rw [decide_eq_true_eq] at hx
      exact hne ((hand c' rc' hm hx.2).2 ▸ hx.1)
    · rw [h2]
      by_cases hwc : wraps t c = true
      · rw [if_pos hwc]
        have hp := countP_zip_pos hc hrc (fun x => decide (x.2 ≠ 0 ∧ wraps t x.1)) (by simp [hne, hwc])
        have hle := (countP_zip_le t h rcs hn (fun x => decide (x.2 ≠ 0 ∧ wraps t x.1)) (by
          intro x hx; rw [decide_eq_true_eq] at hx; exact hw _ hx.2)).1
        omega
      · rw [if_neg hwc]
        refine List.countP_eq_zero.mpr ?_
        rintro ⟨c', rc'⟩ hm hx
        rw [decide_eq_true_eq] at hx
        have := (hand c' rc' hm (hw _ hx.2)).1
        subst this
        exact hwc hx.2

/-- C70: in every history of a builder of any type (buffers handed over, grown and filled, arrays finished or refused, released in any order, the builder
reset), with `custom_free` called for distinct owners: once the builder was reset and the arrays were released, `custom_free` was called exactly
once, with the pointer and the size that were handed over, for every buffer that was accepted, and never for one that was refused. -/
theorem C70_exactly_once (ty : TypeId) (b0 : Builder) (h0 : builderInitFromType ty = .ok b0) (h : List Call) (rcs : List Code) (s : Sys)
    (hr : runs h (Sys.start b0) = some (rcs, s)) (hn : (owners h).Nodup) (k : Nat) (c : Call) (hc : h[k]? = some c)
    (t n : Nat) (d : Option Nat) (i : Int) (hh : Call.hands c = some (t, d, n, i)) :
    (rcs[k]? = some 0 → AllGone s → customFrees t s.log = [.custom t d n]) ∧
    (rcs[k]? ≠ some 0 → customFrees t s.log = []) := by
  have hi := start_inv h0 hr
  obtain ⟨-, f1, f2⟩ := own_facts hr hn hc hh
  have hb := hi.bal (.given t)
  constructor
  · intro hk hg
    rw [heldAll_gone hg, (f1 hk).1] at hb
    have hl : (customFrees t s.log).length = 1 := by rw [customFrees_length]; omega
    obtain ⟨e, he⟩ := List.length_eq_one_iff.mp hl
    obtain ⟨d', n', rfl, hm⟩ := customFrees_mem (t := t) (log := s.log) (e := e) (by rw [he]; exact List.mem_singleton.mpr rfl)
    obtain ⟨rfl, rfl⟩ := owners_given hn (hi.log t d' n' hm) (hands_given hc hh)
    exact he
  · intro hk
    rw [(f2 hk).1] at hb
    refine List.eq_nil_of_length_eq_zero ?_
    rw [customFrees_length]
    omega

/-- C70: at every time, memory that was accepted was either given back, once, and nobody holds it any more, or it was not and the builder or a finished
array holds it as it was handed over. -/
theorem C70_held_or_freed (ty : TypeId) (b0 : Builder) (h0 : builderInitFromType ty = .ok b0) (h : List Call) (rcs : List Code) (s : Sys)
    (hr : runs h (Sys.start b0) = some (rcs, s)) (hn : (owners h).Nodup) (k : Nat) (c : Call) (hc : h[k]? = some c)
    (t n : Nat) (d : Option Nat) (i : Int) (hh : Call.hands c = some (t, d, n, i)) (hk : rcs[k]? = some 0) :
    (customFrees t s.log = [.custom t d n] ∧ ∀ d' n', ¬ ((∃ i, BuilderHolds s t d' n' i) ∨ ∃ k, ArrayHolds s t d' n' k)) ∨
    (customFrees t s.log = [] ∧ ((∃ i, BuilderHolds s t d n i) ∨ ∃ k, ArrayHolds s t d n k)) := by
  have hi := start_inv h0 hr
  obtain ⟨-, f1, -⟩ := own_facts hr hn hc hh
  have hb := hi.bal (.given t)
  rw [(f1 hk).1] at hb
  rcases Nat.eq_zero_or_pos (heldAll (.given t) s) with hz | hp
  · left
    have hl : (customFrees t s.log).length = 1 := by rw [customFrees_length]; omega
    obtain ⟨e, he⟩ := List.length_eq_one_iff.mp hl
    obtain ⟨d', n', rfl, hm⟩ := customFrees_mem (t := t) (log := s.log) (e := e) (by rw [he]; exact List.mem_singleton.mpr rfl)
    obtain ⟨rfl, rfl⟩ := owners_given hn (hi.log t d' n' hm) (hands_given hc hh)
    refine ⟨he, ?_⟩
    intro d2 n2 hold
    have := held_pos hold
    omega
  · right
    obtain ⟨d', n', hg, hold⟩ := holder hi hp
    obtain ⟨rfl, rfl⟩ := owners_given hn hg (hands_given hc hh)
    refine ⟨?_, hold⟩
    refine List.eq_nil_of_length_eq_zero ?_
    rw [customFrees_length]
    omega

/-- C70: a call gives memory back only for one of the reasons listed (`MayFree`): as long as a buffer is neither replaced nor asked to grow and whoever holds
it is not reset or released, it stays. -/
theorem C70_reason (ty : TypeId) (b0 : Builder) (h0 : builderInitFromType ty = .ok b0) (h : List Call) (rcs : List Code) (s : Sys)
    (hr : runs h (Sys.start b0) = some (rcs, s)) (c : Call) (rc : Code) (s' : Sys) (hc : c.run s = some (rc, s')) :
    ∃ new, s'.log = s.log ++ new ∧ ∀ t d n, .custom t d n ∈ new → MayFree s t d n c := by
  have hi := start_inv h0 hr
  obtain ⟨es, st⟩ := step hi.placed hi.arrays hc
  exact ⟨es, st.log, st.why⟩

/-- C70: a buffer is accepted exactly if there is one with that index, and refused with `EINVAL` else, with nothing changed. -/
theorem C70_accepted (ty : TypeId) (b0 : Builder) (h0 : builderInitFromType ty = .ok b0) (h : List Call) (rcs : List Code) (s : Sys)
    (hr : runs h (Sys.start b0) = some (rcs, s)) (hb : s.builder ≠ none) (i : Int) (d : Option Nat) (n t : Nat) :
    (0 ≤ i ∧ i < b0.nBuffers → ∃ s', (Call.setOwned i d n t).run s = some (0, s') ∧ BuilderHolds s' t d n i.toNat) ∧
    (¬ (0 ≤ i ∧ i < b0.nBuffers) → (Call.setOwned i d n t).run s = some (EINVAL, s)) := by
  have hi := start_inv h0 hr
  cases hsb : s.builder with
  | none => exact absurd hsb hb
  | some b =>
    obtain ⟨hN, hT⟩ := hi.shape b hsb
    constructor
    · rintro ⟨h1, h2⟩
      obtain ⟨hnd, hlen⟩ := builder_numbers h0
      have hslot : ∃ p, b.slot i.toNat = some p := by
        rw [bld_slot_eq, hT]
        exact ⟨_, List.getElem?_eq_getElem (by rw [← hlen]; omega)⟩
      obtain ⟨p, hp⟩ := hslot
      have hrun : (Call.setOwned i d n t).run s = some (0, { (s.emit ((b.arr.bufs p).free ++ [.took t])) with
          builder := some (Bld.setView { b with arr := b.arr.set p ⟨d, n, n, some t⟩ } i.toNat ⟨d, n, n⟩) }) := by
        show Own.setOwned i d n t s = _
        unfold Own.setOwned
        rw [hsb]
        dsimp only
        rw [if_neg (by omega), hp]
      refine ⟨_, hrun, _, p, rfl, by dsimp only [Bld.setView]; omega, hp, ?_, ?_, ?_⟩ <;>
      · dsimp only [Bld.setView]
        rw [set_same]
    · intro hno
      show Own.setOwned i d n t s = _
      unfold Own.setOwned
      rw [hsb]
      dsimp only
      rw [if_pos (by omega)]

/-- C70: memory from `malloc` is given back exactly once too: no address is returned twice, none is freed more often than returned, and in the end all were freed. -/
theorem C70_heap (ty : TypeId) (b0 : Builder) (h0 : builderInitFromType ty = .ok b0) (h : List Call) (rcs : List Code) (s : Sys)
    (hr : runs h (Sys.start b0) = some (rcs, s)) (a : Nat) :
    s.log.count (.malloc a) ≤ 1 ∧ s.log.count (.free a) ≤ s.log.count (.malloc a) ∧
    (AllGone s → s.log.count (.free a) = s.log.count (.malloc a)) := by
  have hi := start_inv h0 hr
  have e1 : s.log.count (.malloc a) = births (.heap a) s.log := by
    unfold births
    rw [List.count]
    refine List.countP_congr fun e _ => ?_
    cases e <;> simp [MemEvent.birth]
  have e2 : s.log.count (.free a) = deaths (.heap a) s.log := by
    unfold deaths
    rw [List.count]
    refine List.countP_congr fun e _ => ?_
    cases e <;> simp [MemEvent.death]
  rw [e1, e2]
  have hb := hi.bal (.heap a)
  refine ⟨?_, by omega, ?_⟩
  · rw [hi.cnt]; split <;> omega
  · intro hg
    rw [heldAll_gone hg] at hb
    omega

/-- C70: an object wrapped as a buffer of a C++ `ArrayBuilder` is never destroyed twice and, in the end, exactly once, whether it was accepted or not. -/
theorem C70_wrapped (ty : TypeId) (b0 : Builder) (h0 : builderInitFromType ty = .ok b0) (h : List Call) (rcs : List Code) (s : Sys)
    (hr : runs h (Sys.start b0) = some (rcs, s)) (hn : (owners h).Nodup) (k : Nat) (i : Int) (d : Option Nat) (n t : Nat)
    (hc : h[k]? = some (.wrap i d n t)) :
    timesDestroyed t s.log ≤ 1 ∧ (AllGone s → timesDestroyed t s.log = 1) := by
  have hi := start_inv h0 hr
  obtain ⟨-, f1, f2⟩ := own_facts hr hn hc (t := t) (d := d) (n := n) (i := i) rfl
  have hb := hi.bal (.given t)
  unfold timesDestroyed
  rw [customFrees_length]
  by_cases hk : rcs[k]? = some 0
  · obtain ⟨h1, h2⟩ := f1 hk
    refine ⟨by omega, fun hg => ?_⟩
    rw [heldAll_gone hg] at hb
    omega
  · obtain ⟨h1, h2⟩ := f2 hk
    rw [if_pos (by simp [wraps])] at h2
    exact ⟨by omega, fun _ => by omega⟩

/-- What an accepted hand-over leaves. -/
theorem setOwned_shown {i : Int} {d : Option Nat} {n t : Nat} {s s' : Sys} (hrun : Own.setOwned i d n t s = some (0, s')) :
    ∃ b b', s.builder = some b ∧ s'.builder = some b' ∧ 0 ≤ i ∧ i.toNat < b.nBuffers ∧ b'.view i.toNat = ⟨d, n, n⟩ ∧ BuilderHolds s' t d n i.toNat := by
  unfold Own.setOwned at hrun
  split at hrun
  · cases hrun
  · rename_i b hb
    split at hrun
    · simp [EINVAL] at hrun
    · rename_i hi
      split at hrun
      · cases hrun
      · rename_i p hp
        simp only [Option.some.injEq, Prod.mk.injEq, true_and] at hrun
        subst hrun
        refine ⟨b, _, hb, rfl, by omega, by omega, by unfold Bld.setView; dsimp only; rw [if_pos rfl], _, p, rfl, ?_, ?_, ?_⟩
        · show i.toNat < b.nBuffers
          omega
        · exact hp
        · simp [Bld.setView, Arr.set]

/-- C70: memory that was accepted for a buffer is what the builder shows and holds for that buffer: its address, and its size in bytes as size and capacity. -/
theorem C70_shown (s s' : Sys) (c : Call) (t n : Nat) (d : Option Nat) (i : Int) (hh : Call.hands c = some (t, d, n, i)) (hrun : c.run s = some (0, s')) :
    ∃ b b', s.builder = some b ∧ s'.builder = some b' ∧ 0 ≤ i ∧ i.toNat < b.nBuffers ∧ b'.view i.toNat = ⟨d, n, n⟩ ∧ BuilderHolds s' t d n i.toNat := by
  cases c with
  | setOwned j e m u =>
    simp only [Call.hands, Option.some.injEq, Prod.mk.injEq] at hh
    obtain ⟨rfl, rfl, rfl, rfl⟩ := hh
    exact setOwned_shown hrun
  | wrap j e m u =>
    simp only [Call.hands, Option.some.injEq, Prod.mk.injEq] at hh
    obtain ⟨rfl, rfl, rfl, rfl⟩ := hh
    change Own.wrap j e m u s = _ at hrun
    unfold Own.wrap at hrun
    split at hrun
    · cases hrun
    · rename_i rc s1 h1
      split at hrun
      · rename_i hrc
        subst hrc
        simp only [Option.some.injEq, Prod.mk.injEq, true_and] at hrun
        subst hrun
        exact setOwned_shown h1
      · rename_i hrc
        simp only [Option.some.injEq, Prod.mk.injEq] at hrun
        exact absurd hrun.1 hrc
  | _ => simp [Call.hands] at hh

/-- Another buffer is written. -/
theorem other_kept {s s' : Sys} {b : Bld} {i j : Nat} {p : Slot} {x : Buf} {v : Nat → Own.View} (hb : s.builder = some b) (hp : b.slot i = some p) (hj : j ≠ i)
    (hv : v j = b.view j) (hs : s'.builder = some { b with arr := b.arr.set p x, view := v }) :
    ∃ b', s'.builder = some b' ∧ b'.view j = b.view j ∧ ∀ t d n, BuilderHolds s t d n j → BuilderHolds s' t d n j := by
  refine ⟨_, hs, hv, ?_⟩
  rintro t d n ⟨b1, q, hb1, hlt, hq, h1, h2, h3⟩
  rw [hb, Option.some.injEq] at hb1
  subst hb1
  refine ⟨_, q, hs, hlt, hq, ?_⟩
  have hne : q ≠ p := by
    rintro rfl
    exact hj (Own.slot_inj hq hp)
  simp only [Arr.set, if_neg hne]
  exact ⟨h1, h2, h3⟩

/-- C70: a call that names one buffer, accepted or not, changes neither what the builder shows nor what it holds for another. -/
theorem C70_other_buffers (s s' : Sys) (c : Call) (rc : Code) (i : Int) (hc : Call.buffer c = some i) (hrun : c.run s = some (rc, s')) (b : Bld)
    (hb : s.builder = some b) (j : Nat) (hj : (j : Int) ≠ i) :
    ∃ b', s'.builder = some b' ∧ b'.view j = b.view j ∧ ∀ t d n, BuilderHolds s t d n j → BuilderHolds s' t d n j := by
  have hown : ∀ d n t rc s', Own.setOwned i d n t s = some (rc, s') →
      ∃ b', s'.builder = some b' ∧ b'.view j = b.view j ∧ ∀ t d n, BuilderHolds s t d n j → BuilderHolds s' t d n j := by
    intro d n t rc s' h
    unfold Own.setOwned at h
    rw [hb] at h
    dsimp only at h
    split at h
    · simp only [Option.some.injEq, Prod.mk.injEq] at h
      obtain ⟨-, rfl⟩ := h
      exact ⟨b, hb, rfl, fun _ _ _ h => h⟩
    · split at h
      · cases h
      · rename_i hi p hp
        simp only [Option.some.injEq, Prod.mk.injEq] at h
        obtain ⟨-, rfl⟩ := h
        exact other_kept hb hp (by omega) (by rw [if_neg (by omega)]) rfl
  cases c with
  | setOwned k e m u =>
    simp only [Call.buffer, Option.some.injEq] at hc
    subst hc
    exact hown _ _ _ _ _ hrun
  | wrap k e m u =>
    simp only [Call.buffer, Option.some.injEq] at hc
    subst hc
    change Own.wrap k e m u s = _ at hrun
    unfold Own.wrap at hrun
    split at hrun
    · cases hrun
    · rename_i rc1 s1 h1
      have := hown _ _ _ _ _ h1
      split at hrun
      · simp only [Option.some.injEq, Prod.mk.injEq] at hrun
        obtain ⟨-, rfl⟩ := hrun
        exact this
      · simp only [Option.some.injEq, Prod.mk.injEq] at hrun
        obtain ⟨-, rfl⟩ := hrun
        obtain ⟨b', h1, h2, h3⟩ := this
        exact ⟨b', h1, h2, h3⟩
  | reserve k m =>
    simp only [Call.buffer, Option.some.injEq] at hc
    subst hc
    change Own.reserve k m s = _ at hrun
    unfold Own.reserve at hrun
    rw [hb] at hrun
    dsimp only at hrun
    split at hrun
    · cases hrun
    · rename_i p hp
      have hp' : b.slot k = some p := by
        split at hp
        · exact hp
        · cases hp
      split at hrun
      · simp only [Option.some.injEq, Prod.mk.injEq] at hrun
        obtain ⟨-, rfl⟩ := hrun
        exact other_kept hb hp' (by omega) (by rw [if_neg (by omega)]) rfl
      · simp only [Option.some.injEq, Prod.mk.injEq] at hrun
        obtain ⟨-, rfl⟩ := hrun
        exact other_kept hb hp' (by omega) rfl rfl
  | view k m =>
    simp only [Call.buffer, Option.some.injEq] at hc
    subst hc
    change Own.setViewSize k m s = _ at hrun
    unfold Own.setViewSize at hrun
    rw [hb] at hrun
    simp only [Option.some.injEq, Prod.mk.injEq] at hrun
    obtain ⟨-, rfl⟩ := hrun
    refine ⟨_, rfl, by unfold Bld.setView; dsimp only; rw [if_neg (by omega)], ?_⟩
    rintro t d n ⟨b1, q, hb1, h⟩
    rw [hb, Option.some.injEq] at hb1
    subst hb1
    exact ⟨_, q, rfl, h⟩
  | _ => simp [Call.buffer] at hc

/-- C70: when a builder is finished, memory it holds (at an address that is not `NULL`) is in the array handed out, with the size the builder shows for
that buffer. -/
theorem C70_finished (s s' : Sys) (valid : Bool) (b : Bld) (hb : s.builder = some b) (t a n i : Nat) (hh : BuilderHolds s t (some a) n i)
    (hrun : (Call.finish valid).run s = some (0, s')) :
    ∃ r p, s'.arrays = s.arrays ++ [some r] ∧ p ∈ slotsOf [] r.tree ∧ b.slot i = some p ∧ r.bufs p = ⟨some a, (b.view i).size, n, some t⟩ := by
  obtain ⟨b1, p, hb1, hlt, hp, h1, h2, h3⟩ := hh
  rw [hb, Option.some.injEq] at hb1
  subst hb1
  change Own.finish valid s = _ at hrun
  unfold Own.finish at hrun
  rw [hb] at hrun
  dsimp only at hrun
  split at hrun
  · simp [ENOMEM] at hrun
  · split at hrun
    · simp only [Option.some.injEq, Prod.mk.injEq, true_and] at hrun
      subst hrun
      obtain ⟨s1, s2, s3⟩ := syncSizes_buf b b.nBuffers b.arr p
      refine ⟨_, p, rfl, ?_, hp, ?_⟩
      · rw [finalize_tree, syncSizes_tree]
        exact slot_mem hp
      · rw [finalize_kept _ _ _ (by rw [s2, h2]; simp)]
        have hz := syncSizes_size b hp b.nBuffers b.arr hlt
        generalize (syncSizes b b.nBuffers b.arr).bufs p = x at *
        obtain ⟨x1, x2, x3, x4⟩ := x
        dsimp only at *
        rw [s2, hz, s3, s1, h1, h2, h3]
    · simp [EINVAL] at hrun

/-- C70 fails to help the client with empty memory: a builder that was handed `NULL` with size zero (an empty `std::vector`, say) for a buffer other than
the validity bitmap cannot be finished; the code is `ENOMEM`. -/
theorem C70_empty_not_finished (ty : TypeId) (b0 : Builder) (h0 : builderInitFromType ty = .ok b0) (h : List Call) (rcs : List Code) (s : Sys)
    (hr : runs h (Sys.start b0) = some (rcs, s)) (t i : Nat) (hb : BuilderHolds s t none 0 (i + 1)) (valid : Bool) :
    ∃ s', (Call.finish valid).run s = some (12, s') := by
  have _ := start_inv h0 hr
  obtain ⟨b, p, hsb, hin, hs, ho, hd, hcap⟩ := hb
  have hmem := slot_data hs
  obtain ⟨s1, s2, s3⟩ := syncSizes_buf b b.nBuffers b.arr p
  have hf := finalize_fails (q := p) (t := t) (dataSlots [] b.arr.tree) s.next (syncSizes b b.nBuffers b.arr) hmem (by rw [s1]; exact ho)
    (by rw [s2]; exact hd) (by rw [s3, hcap]; omega)
  show ∃ s', Own.finish valid s = _
  unfold Own.finish
  rw [hsb]
  dsimp only
  rw [if_pos hf]
  exact ⟨_, rfl⟩

/-- C70, what happens when a buffer that was handed over is asked to grow: it is given back and the call fails, but the builder's view still has its
address and size. -/
theorem C70_refused_growth (ty : TypeId) (b0 : Builder) (h0 : builderInitFromType ty = .ok b0) (h : List Call) (rcs : List Code) (s : Sys)
    (hr : runs h (Sys.start b0) = some (rcs, s)) (b : Bld) (hsb : s.builder = some b) (t n i m : Nat) (d : Option Nat) (hb : BuilderHolds s t d n i)
    (hm : n < (b.view i).size + m) :
    ∃ s' b', (Call.reserve i m).run s = some (12, s') ∧ s'.log = s.log ++ [.custom t d n] ∧ s'.builder = some b' ∧ b'.view i = b.view i := by
  have _ := start_inv h0 hr
  obtain ⟨b1, p, hsb', hin, hs, ho, hd, hcap⟩ := hb
  rw [hsb, Option.some.injEq] at hsb'
  subst hsb'
  have hres : Buf.reserve s.next m { b.arr.bufs p with size := (b.view i).size } = ([.custom t d n], false, ⟨none, 0, 0, none⟩) := by
    unfold Buf.reserve
    rw [if_neg (by dsimp only; omega)]
    unfold Buf.realloc Buf.free
    dsimp only
    rw [ho, hd, hcap]
  refine ⟨{ (s.emit [.custom t d n]) with builder := some { b with arr := b.arr.set p ⟨none, 0, 0, none⟩ } }, _, ?_, rfl, rfl, rfl⟩
  show Own.reserve i m s = _
  unfold Own.reserve
  rw [hsb]
  dsimp only
  rw [if_pos hin, hs]
  dsimp only
  rw [hres]
  rfl

/-- Runs a history on a new builder: the codes, the events and whether nothing is left. -/
def exOwn (ty : TypeId) (h : List Call) : Option (List Code × List MemEvent × Bool) :=
  match builderInitFromType ty with
  | .ok b0 =>
    match runs h (Sys.start b0) with
    | some (rcs, s) => some (rcs, s.log, s.builder.isNone && s.arrays.all (·.isNone))
    | none => none
  | .error _ => none

theorem exOwn_spec {ty : TypeId} {h : List Call} {rcs : List Code} {log : List MemEvent} {g : Bool} (e : exOwn ty h = some (rcs, log, g)) :
    ∃ b0 s, builderInitFromType ty = .ok b0 ∧ runs h (Sys.start b0) = some (rcs, s) ∧ s.log = log ∧ (g = true → AllGone s) := by
  unfold exOwn at e
  split at e
  · rename_i b0 hb
    split at e
    · rename_i rcs' s hs
      simp only [Option.some.injEq, Prod.mk.injEq] at e
      obtain ⟨rfl, rfl, rfl⟩ := e
      refine ⟨b0, s, hb, hs, rfl, ?_⟩
      intro hg
      rw [Bool.and_eq_true, Option.isNone_iff_eq_none, List.all_eq_true] at hg
      exact ⟨hg.1, fun a ha => Option.isNone_iff_eq_none.mp (hg.2 a ha)⟩
    · cases e
  · cases e

/-! Linestrings with separate coordinates (type 2; buffers 0 to 3). Memory is handed over for an index that exists and for ones that do not, replaced and wrapped; a buffer
grows and is filled; an array is refused, then one is finished; the builder is reset and the array released. The owners differ, nothing is left, and
each owner was called as the theorems say: 0, 2 and 3 once, 1 never (refused), 4 destroyed by its maker. -/

example : (owners exOwnH).Nodup := by decide
example : ∃ b0 s, builderInitFromType 2 = .ok b0 ∧ runs exOwnH (Sys.start b0) = some ([0, 22, 0, 0, 22, 0, 0, 22, 0, 0, 0], s) ∧
    s.log = [.took 0, .took 2, .custom 0 (some 100) 8, .took 3, .deleted 4, .malloc 0, .custom 3 (some 400) 8, .custom 2 (some 300) 16, .free 0] ∧
    (true = true → AllGone s) := exOwn_spec (by decide +kernel)

/-! Before the reset, the array holds what was accepted (`C70_held_or_freed`). -/

example : ∃ b0 s, builderInitFromType 2 = .ok b0 ∧ runs (exOwnH.take 9) (Sys.start b0) = some ([0, 22, 0, 0, 22, 0, 0, 22, 0], s) ∧
    s.log = [.took 0, .took 2, .custom 0 (some 100) 8, .took 3, .deleted 4, .malloc 0] ∧ (false = true → AllGone s) := exOwn_spec (by decide +kernel)

/-! An empty buffer that was handed over is not finished (`C70_empty_not_finished`): -/

example : ∃ b0 s, builderInitFromType 2 = .ok b0 ∧ runs [.setOwned 2 none 0 0, .finish true] (Sys.start b0) = some ([0, 12], s) ∧
    s.log = [.took 0, .malloc 0, .custom 0 none 0] ∧ (false = true → AllGone s) := exOwn_spec (by decide +kernel)

/-- The buffers of the last array that was finished: address and size -/
def exOwnLast (ty : TypeId) (h : List Call) : Option (List (Option Nat × Nat)) :=
  match builderInitFromType ty with
  | .ok b0 =>
    match runs h (Sys.start b0) with
    | some (_, s) =>
      match s.arrays.getLast? with
      | some (some a) => some ((slotsOf [] a.tree).map fun p => ((a.bufs p).data, (a.bufs p).size))
      | _ => none
    | none => none
  | .error _ => none

/-! A buffer of 16 bytes is handed over and asked to grow, which is refused with `ENOMEM`; the builder can then be finished, and the array has 16 bytes of
fresh memory nobody wrote, at address 1 of the heap, in place of the coordinates (`C70_refused_growth`). -/

example : ∃ b0 s, builderInitFromType 2 = .ok b0 ∧ runs [.setOwned 2 (some 300) 16 2, .reserve 2 8, .finish true] (Sys.start b0) = some ([0, 12, 0], s) ∧
    s.log = [.took 2, .custom 2 (some 300) 16, .malloc 0, .malloc 1, .malloc 2] ∧ (false = true → AllGone s) := exOwn_spec (by decide +kernel)
example : (exOwnLast 2 [.setOwned 2 (some 300) 16 2, .reserve 2 8, .finish true]).map (fun l => l.filter (fun x => x.1 = some 1)) = some [(some 1, 16)] := by
  decide +kernel

/-! What the array of linestrings above has, from the two buffers handed over: the offsets of the second hand-over and the coordinates, each with its
size (`C70_shown`, `C70_other_buffers`, `C70_finished`). -/

example : (exOwnLast 2 (exOwnH.take 9)).map (fun l => l.filter (fun x => x.1 = some 300 ∨ x.1 = some 400)) = some [(some 400, 8), (some 300, 16)] := by
  decide +kernel

end Verif
