import Verif.Proof.BuilderOom
/-!
# Builders when memory runs out: histories
-/
namespace Verif.Oom
open Verif.Spec

/-- `t` is `s` with more memory and with blocks for buffers that had none. -/
structure Ext (s t : Sys) : Prop where
  views : t.views = s.views
  n : t.n = s.n
  alive : t.alive = s.alive
  arrays : t.arrays = s.arrays
  coords : t.sizeCoords = s.sizeCoords
  inv : Inv t
  lost : ∀ a, Lost t a ↔ Lost s a
  heap : ∀ a m, s.heap a = some m → t.heap a = some m
  bufs : ∀ j, (s.bufs j).data ≠ none → t.bufs j = s.bufs j

theorem Ext.refl {s : Sys} (v : Inv s) : Ext s s := ⟨rfl, rfl, rfl, rfl, rfl, v, fun _ => Iff.rfl, fun _ _ h => h, fun _ _ => rfl⟩

theorem Ext.trans {s t u : Sys} (x : Ext s t) (y : Ext t u) : Ext s u where
  views := y.views.trans x.views
  n := y.n.trans x.n
  alive := y.alive.trans x.alive
  arrays := y.arrays.trans x.arrays
  coords := y.coords.trans x.coords
  inv := y.inv
  lost a := (y.lost a).trans (x.lost a)
  heap a m h := y.heap a m (x.heap a m h)
  bufs j h := by rw [y.bufs j (by rw [x.bufs j h]; exact h), x.bufs j h]

/-- What `ArrowArrayFinalizeBuffers` does -/
theorem finalize_spec (junk : Nat → Nat → Byte) (mem : Nat → Bool) : ∀ (k i : Nat) (s : Sys), Inv s → i + k ≤ s.n →
    Ext s (finalize junk mem k i s).2 ∧
    ((finalize junk mem k i s).1 = true → (∀ j, ((finalize junk mem k i s).2.bufs j).size = (s.bufs j).size) ∧
      (∀ j, j < i → (finalize junk mem k i s).2.bufs j = s.bufs j) ∧
      ∀ j, i ≤ j → j < i + k → ((finalize junk mem k i s).2.bufs j).data ≠ none) ∧
    ((finalize junk mem k i s).1 = false → ∃ j, mem j = false)
  | 0, i, s, v, _ => by
    refine ⟨Ext.refl v, fun _ => ⟨fun _ => rfl, fun _ _ => rfl, fun j h1 h2 => by omega⟩, fun h => by simp [finalize] at h⟩
  | k + 1, i, s, v, hk => by
    by_cases hd : (s.bufs i).data = none
    · have hi : i < s.n := by omega
      have hcap : (s.bufs i).cap = 0 := by
        have := v.null (.buf i) (by simp [addr, hd]); simpa [capOf, hi] using this
      rcases nReserve_cases junk (mem i) (s.bufs i) 1 s.heap s.next with ⟨h1, _⟩ | ⟨_, h2, h3⟩ | ⟨_, h2, c, hc1, _, h3⟩
      · omega
      · have e : finalize junk mem (k + 1) i s = (false, { s with bufs := poke s.bufs i ⟨none, 0, 0⟩ }) := by
          simp only [finalize, hd, if_true, h3]; rfl
        rw [e]
        have hA : addr { s with bufs := poke s.bufs i ⟨none, 0, 0⟩ } = addr s := by
          funext h
          cases h with
          | buf j => by_cases hj : j = i <;> simp [addr, poke, hj, hd]
          | view j => simp [addr]
          | arr k j => simp [addr]
        have hC : capOf { s with bufs := poke s.bufs i ⟨none, 0, 0⟩ } = capOf s := by
          funext h
          cases h with
          | buf j => by_cases hj : j = i <;> simp [capOf, poke, hj, hcap]
          | view j => simp [capOf]
          | arr k j => simp [capOf]
        refine ⟨⟨rfl, rfl, rfl, rfl, rfl, v.congr hA hC, fun a => by unfold Lost; rw [hA], fun _ _ h => h, fun j hj => ?_⟩, fun h => by simp at h, fun _ => ⟨i, h2⟩⟩
        by_cases hji : j = i
        · subst hji; exact absurd hd hj
        · simp [poke, hji]
      · rw [hd] at h3
        simp only [block, free, Option.bind_none, Option.getD_none, List.nil_append, List.length_nil, Nat.sub_zero] at h3
        generalize hM : (List.range c).map (junk s.next) = M at h3
        have hml : M.length = c := by rw [← hM]; simp
        obtain ⟨t, ht⟩ : ∃ t : Sys, t = { s with bufs := poke s.bufs i ⟨some s.next, (s.bufs i).size, c⟩, heap := poke s.heap s.next (some M), next := s.next + 1 } := ⟨_, rfl⟩
        have e : finalize junk mem (k + 1) i s = finalize junk mem k (i + 1) t := by
          rw [ht]
          simp only [finalize, hd, if_true, h3]
        have hA : addr t = fun h => if h = .buf i then some s.next else addr s h := by
          rw [ht]; funext h
          cases h with
          | buf j => by_cases hj : j = i <;> simp [addr, poke, hj, hi]
          | view j => simp [addr]
          | arr k j => simp [addr]
        have hC : capOf t = fun h => if h = .buf i then M.length else capOf s h := by
          rw [ht]; funext h
          cases h with
          | buf j => by_cases hj : j = i <;> simp [capOf, poke, hj, hi, hml]
          | view j => simp [capOf]
          | arr k j => simp [capOf]
        have hvt : Inv t := by
          have := (v.fresh (i := i) M).congr hA hC
          show HInv (addr t) (capOf t) t.heap t.next
          rw [show t.heap = poke s.heap s.next (some M) by rw [ht], show t.next = s.next + 1 by rw [ht]]
          exact this
        have hst : Ext s t := by
          refine ⟨by rw [ht], by rw [ht], by rw [ht], by rw [ht], by rw [ht], hvt, fun a => ?_, fun a m h => ?_, fun j hj => ?_⟩
          · unfold Lost
            rw [hA, show t.heap = poke s.heap s.next (some M) by rw [ht]]
            exact v.fresh_lost (by simp [addr, hd]) M a
          · have hl := v.lt a (by rw [h]; simp)
            rw [ht]; show poke s.heap s.next (some M) a = _
            rw [poke_other _ _ (by omega)]; exact h
          · by_cases hji : j = i
            · subst hji; exact absurd hd hj
            · rw [ht]; simp [poke, hji]
        obtain ⟨i1, i2, i3⟩ := finalize_spec junk mem k (i + 1) t hvt (by rw [hst.n]; omega)
        rw [e]
        refine ⟨hst.trans i1, fun h => ?_, i3⟩
        obtain ⟨g1, g2, g3⟩ := i2 h
        refine ⟨fun j => ?_, fun j hj => ?_, fun j h1 h2 => ?_⟩
        · rw [g1 j, ht]
          by_cases hji : j = i
          · subst hji; simp [poke]
          · simp [poke, hji]
        · rw [g2 j (by omega), ht]; simp [poke, show j ≠ i by omega]
        · by_cases hji : j = i
          · subst hji; rw [g2 j (by omega), ht]; simp [poke]
          · exact g3 j (by omega) (by omega)
    · have e : finalize junk mem (k + 1) i s = finalize junk mem k (i + 1) s := by simp only [finalize, hd, if_false]
      obtain ⟨i1, i2, i3⟩ := finalize_spec junk mem k (i + 1) s v (by omega)
      rw [e]
      refine ⟨i1, fun h => ?_, i3⟩
      obtain ⟨g1, g2, g3⟩ := i2 h
      refine ⟨g1, fun j hj => g2 j (by omega), fun j h1 h2 => ?_⟩
      by_cases hji : j = i
      · subst hji; rw [g2 j (by omega)]; exact hd
      · exact g3 j (by omega) (by omega)

theorem raiseSizes_eq {s : Sys} (h : s.sizeCoords = 0) : raiseSizes s = s := by
  unfold raiseSizes
  cases s with
  | mk a b c kind d e f g i j k l =>
    dsimp only at h
    subst h
    cases kind with
    | none => rfl
    | some kd =>
      cases kd with
      | separate => simp
      | interleaved =>
        simp only [Nat.zero_mul, Nat.not_lt_zero, gt_iff_lt, if_false, Sys.mk.injEq, true_and, and_true]
        funext q
        by_cases hq : q = c - 1 <;> simp [poke, hq]

theorem addr_sync (s : Sys) : addr (syncSizes s) = addr s := by
  funext h
  cases h with
  | buf j => by_cases hj : j < s.n <;> simp [addr, syncSizes, hj]
  | view j => simp [addr, syncSizes]
  | arr k j => simp [addr, syncSizes]

theorem capOf_sync (s : Sys) : capOf (syncSizes s) = capOf s := by
  funext h
  cases h with
  | buf j => by_cases hj : j < s.n <;> simp [capOf, syncSizes, hj]
  | view j => simp [capOf, syncSizes]
  | arr k j => simp [capOf, syncSizes]

theorem Rel.sync {s : Sys} {l : Ledger} (r : Rel s l) : Rel (syncSizes s) l where
  inv := r.inv.congr (addr_sync s) (capOf_sync s)
  coords := r.coords
  dead := r.dead
  len := r.len
  fits := r.fits
  same i hi hh := by
    have hi' : i < s.n := hi
    have := r.same i hi' hh
    simpa [syncSizes, hi'] using this
  bytes := r.bytes
  dn := r.dn
  arr := r.arr

/-- Blocks that are pointed to do not change when more memory is found. -/
theorem Ext.block {s t : Sys} (x : Ext s t) (v : Inv s) {h : Holder} {d : Option Nat} (e : addr s h = d) : block t.heap d = block s.heap d := by
  subst e
  cases e : addr s h with
  | none => rfl
  | some a =>
    obtain ⟨m, h1, _⟩ := v.good h a e
    rw [block_some h1, block_some (x.heap a m h1)]

theorem Rel.ext {s t : Sys} {l : Ledger} (r : Rel s l) (x : Ext s t) : Rel t l where
  inv := x.inv
  coords := by rw [x.coords]; exact r.coords
  dead h := by rw [x.views]; exact r.dead (by rw [← x.alive]; exact h)
  len i hi := by rw [x.views]; exact r.len i (by rw [← x.n]; exact hi)
  fits i hi := by rw [x.views]; exact r.fits i (by rw [← x.n]; exact hi)
  same i hi hh := by
    rw [x.views]
    rw [x.n] at hi
    by_cases hb : (s.bufs i).data = none
    · rcases r.same i hi hh with e | e
      · right; rw [e, hb]
      · exact Or.inr e
    · rw [x.bufs i hb]; exact r.same i hi hh
  bytes i hi hh := by
    rw [x.n] at hi
    rw [x.views, x.block r.inv (h := .view i) (by simp [addr, hi])]
    exact r.bytes i hi hh
  dn := by rw [x.arrays]; exact r.dn
  arr k f hf := by
    rw [x.arrays] at hf
    obtain ⟨d, h1, h2⟩ := r.arr k f hf
    refine ⟨d, h1, fun i hi => ?_⟩
    rw [x.n] at hi
    refine ⟨(h2 i hi).1, fun hd => ⟨((h2 i hi).2 hd).1, ?_⟩⟩
    rw [x.block r.inv (h := .arr k i) (by simp [addr, hi, hf])]
    exact ((h2 i hi).2 hd).2

/-- What is kept of a buffer when its array is finished -/
theorem Rel.kept {s : Sys} {l : Ledger} (r : Rel s l) {i : Nat} (hi : i < s.n) (hh : l.hurt i = false) :
    (s.views i).size ≤ (s.bufs i).cap ∧ (block s.heap (s.bufs i).data).take (s.views i).size = l.bytes i := by
  have hf := r.fits i hi
  have hv := view_block r.inv hi
  have hb := buf_block r.inv hi
  have hy := r.bytes i hi hh
  rcases r.same i hi hh with e | e
  · rw [e] at hv hy
    exact ⟨by omega, hy⟩
  · rw [e] at hv hy
    simp only [Verif.Oom.block, Option.bind_none, Option.getD_none, List.length_nil] at hv
    have hz : (s.views i).size = 0 := by omega
    rw [hz] at hy ⊢
    exact ⟨by omega, by simpa using hy⟩

theorem finish_ok {junk : Nat → Nat → Byte} {mem : Nat → Bool} {valid : Bool} {s : Sys} {l : Ledger} (r : Rel s l) (ha : s.alive = true) :
    ∃ rc s', finish junk mem valid s = some (rc, s') ∧ Rel s' (l.note (.finish mem valid) rc) ∧ (∀ a, Lost s' a ↔ Lost s a) ∧ s'.n = s.n ∧
      (rc = 0 ∨ (rc = EINVAL ∧ valid = false) ∨ (rc = ENOMEM ∧ ∃ j, mem j = false)) := by
  unfold finish
  rw [if_pos ha, raiseSizes_eq r.coords]
  have hb : (s.n - 1 = 0) ∨ 1 + (s.n - 1) ≤ (syncSizes s).n := by
    by_cases h : s.n - 1 = 0
    · exact Or.inl h
    · right; show 1 + (s.n - 1) ≤ s.n; omega
  have hls : ∀ a, Lost (syncSizes s) a ↔ Lost s a := by intro a; unfold Lost; rw [addr_sync]; rfl
  have hspec : Ext (syncSizes s) (finalize junk mem (s.n - 1) 1 (syncSizes s)).2 ∧
      ((finalize junk mem (s.n - 1) 1 (syncSizes s)).1 = true →
        ∀ j, ((finalize junk mem (s.n - 1) 1 (syncSizes s)).2.bufs j).size = ((syncSizes s).bufs j).size) ∧
      ((finalize junk mem (s.n - 1) 1 (syncSizes s)).1 = false → ∃ j, mem j = false) := by
    rcases hb with hb | hb
    · rw [hb]
      exact ⟨Ext.refl r.sync.inv, fun _ _ => rfl, fun h => by simp [finalize] at h⟩
    · obtain ⟨h1, h2, h3⟩ := finalize_spec junk mem (s.n - 1) 1 (syncSizes s) r.sync.inv hb
      exact ⟨h1, fun h => (h2 h).1, h3⟩
  obtain ⟨x, hsz, hno⟩ := hspec
  have hrt := r.sync.ext x
  generalize finalize junk mem (s.n - 1) 1 (syncSizes s) = q at x hsz hno hrt
  obtain ⟨ok, t⟩ := q
  cases ok with
  | false =>
    refine ⟨ENOMEM, t, by simp, ?_, fun a => (x.lost a).trans (hls a), x.n, Or.inr (Or.inr ⟨rfl, hno rfl⟩)⟩
    simp only [Ledger.note]
    rw [if_neg (by decide)]
    exact hrt
  | true =>
    have hsz := hsz rfl
    dsimp only at x hrt hsz
    cases valid with
    | false =>
      refine ⟨EINVAL, t, by simp, ?_, fun a => (x.lost a).trans (hls a), x.n, Or.inr (Or.inl ⟨rfl, rfl⟩)⟩
      simp only [Ledger.note]
      rw [if_neg (by decide)]
      exact hrt
    | true =>
      have hA : addr { blank t with arrays := t.arrays ++ [some t.bufs] } =
          fun h => match h with | .arr k' i => if k' = t.arrays.length then addr t (.buf i) else addr t (.arr k' i) | _ => none := by
        funext h
        cases h with
        | buf j => simp only [addr, blank]; exact ite_self _
        | view j => simp only [addr, blank]; exact ite_self _
        | arr k j =>
          simp only [addr, blank]
          by_cases hk : k = t.arrays.length
          · subst hk; simp
          · rw [if_neg hk]
            by_cases hlt : k < t.arrays.length
            · rw [List.getElem?_append_left hlt]; rfl
            · rw [List.getElem?_eq_none (by simp; omega), List.getElem?_eq_none (by omega)]; rfl
      have hC : capOf { blank t with arrays := t.arrays ++ [some t.bufs] } =
          fun h => match h with | .arr k' i => if k' = t.arrays.length then capOf t (.buf i) else capOf t (.arr k' i) | _ => 0 := by
        funext h
        cases h with
        | buf j => simp only [capOf, blank]; exact ite_self _
        | view j => simp only [capOf, blank]; exact ite_self _
        | arr k j =>
          simp only [capOf, blank]
          by_cases hk : k = t.arrays.length
          · subst hk; simp
          · rw [if_neg hk]
            by_cases hlt : k < t.arrays.length
            · rw [List.getElem?_append_left hlt]; rfl
            · rw [List.getElem?_eq_none (by simp; omega), List.getElem?_eq_none (by omega)]; rfl
      have hnone : ∀ i, addr t (.arr t.arrays.length i) = none := by intro i; simp [addr]
      refine ⟨0, { blank t with arrays := t.arrays ++ [some t.bufs] }, by simp, ?_, ?_, x.n, Or.inl rfl⟩
      · simp only [Ledger.note, if_true]
        constructor
        · exact (hrt.inv.hand t.arrays.length).congr hA hC
        · rfl
        · intro _ _; rfl
        · intro i _; rfl
        · intro i _; exact Nat.le_refl _
        · intro i _ _; right; rfl
        · intro i _ _; rfl
        · show (t.arrays ++ [some t.bufs]).length = _
          simp [hrt.dn]
        · intro k f hf
          have hf' : (t.arrays ++ [some t.bufs])[k]? = some (some f) := hf
          by_cases hlt : k < t.arrays.length
          · rw [List.getElem?_append_left hlt] at hf'
            obtain ⟨d, h1, h2⟩ := hrt.arr k f hf'
            exact ⟨d, by rw [List.getElem?_append_left (by rw [← hrt.dn]; exact hlt)]; exact h1, h2⟩
          · have hke : k = t.arrays.length := by
              refine Decidable.byContradiction fun hne => ?_
              rw [List.getElem?_eq_none (by simp; omega)] at hf'
              simp at hf'
            subst hke
            simp at hf'
            subst hf'
            refine ⟨fun i => (l.bytes i, l.hurt i), by rw [hrt.dn]; simp, fun i hi => ?_⟩
            have hi' : i < t.n := hi
            have hin : i < s.n := by have := x.n; change t.n = s.n at this; omega
            have hs : (t.bufs i).size = (t.views i).size := by
              rw [hsz i, x.views]
              simp [syncSizes, hin]
            rw [hs]
            refine ⟨hrt.len i hi', fun hd => ?_⟩
            exact hrt.kept hi' hd
      · intro a
        rw [← hls a, ← x.lost a]
        unfold Lost
        rw [hA]
        exact hand_lost (A := addr t) (H := t.heap) t.arrays.length hnone a

theorem freed_lost {A A' : Holder → Option Nat} {H H' : Heap} (p : Holder → Prop)
    (hA : ∀ h, ¬ p h → A' h = A h) (hA' : ∀ h, p h → A' h = none)
    (h1 : ∀ a, H' a = none ∨ H' a = H a)
    (h3 : ∀ i a, p (.buf i) → A (.buf i) = some a → H' a = none) (h4 : ∀ k i a, p (.arr k i) → A (.arr k i) = some a → H' a = none)
    (h5 : ∀ a, (∀ i, A (.buf i) ≠ some a) → (∀ k i, A (.arr k i) ≠ some a) → H' a = H a) (a : Nat) : LostIn A' H' a ↔ LostIn A H a := by
  constructor
  · rintro ⟨g1, g2, g3⟩
    refine ⟨?_, fun i hi => ?_, fun k i hi => ?_⟩
    · rcases h1 a with h | h
      · exact absurd h g1
      · rw [← h]; exact g1
    · by_cases hp : p (.buf i)
      · exact g1 (h3 i a hp hi)
      · exact g2 i (by rw [hA _ hp]; exact hi)
    · by_cases hp : p (.arr k i)
      · exact g1 (h4 k i a hp hi)
      · exact g3 k i (by rw [hA _ hp]; exact hi)
  · rintro ⟨g1, g2, g3⟩
    refine ⟨by rw [h5 a g2 g3]; exact g1, fun i => ?_, fun k i => ?_⟩
    · by_cases hp : p (.buf i)
      · rw [hA' _ hp]; simp
      · rw [hA _ hp]; exact g2 i
    · by_cases hp : p (.arr k i)
      · rw [hA' _ hp]; simp
      · rw [hA _ hp]; exact g3 k i

theorem block_freeAll {s : Sys} {f : Nat → NBuf} {d : Option Nat} (h : ∀ i a, i < s.n → (f i).data = some a → d ≠ some a) :
    block (freeAll f s.n s.heap) d = block s.heap d := by
  cases d with
  | none => rfl
  | some a =>
    simp only [block, Option.bind_some]
    rw [freeAll_eq, if_neg]
    rintro ⟨i, hi, e⟩
    exact h i a hi e rfl

theorem release_ok {k : Nat} {s : Sys} {l : Ledger} (r : Rel s l) {f : Nat → NBuf} (hf : s.arrays[k]? = some (some f)) :
    ∃ s', release k s = some (0, s') ∧ Rel s' l ∧ (∀ a, Lost s' a ↔ Lost s a) ∧ s'.n = s.n := by
  have haf : ∀ i, i < s.n → addr s (.arr k i) = (f i).data := by intro i hi; simp [addr, hi, hf]
  have hlt : k < s.arrays.length := (List.getElem?_eq_some_iff.mp hf).1
  have hget : ∀ k', k' ≠ k → (s.arrays.set k none)[k']? = s.arrays[k']? := by
    intro k' hk'; rw [List.getElem?_set_ne (Ne.symm hk')]
  have hgetk : (s.arrays.set k none)[k]? = some none := by rw [List.getElem?_set_self hlt]
  have hA : addr { s with heap := freeAll f s.n s.heap, arrays := s.arrays.set k none } = fun h => if h.key.1 = some k then none else addr s h := by
    funext h
    cases h with
    | buf j => simp [addr, Holder.key]
    | view j => simp [addr, Holder.key]
    | arr k' j =>
      by_cases hk : k' = k
      · subst hk; simp only [addr, Holder.key, if_true, hgetk]; split <;> rfl
      · simp only [addr, Holder.key, hget k' hk, Option.some.injEq, hk, if_false]
  have hC : capOf { s with heap := freeAll f s.n s.heap, arrays := s.arrays.set k none } = fun h => if h.key.1 = some k then 0 else capOf s h := by
    funext h
    cases h with
    | buf j => simp [capOf, Holder.key]
    | view j => simp [capOf, Holder.key]
    | arr k' j =>
      by_cases hk : k' = k
      · subst hk; simp only [capOf, Holder.key, if_true, hgetk]; split <;> rfl
      · simp only [capOf, Holder.key, hget k' hk, Option.some.injEq, hk, if_false]
  have apart : ∀ h : Holder, h.key.1 ≠ some k → ∀ i a, i < s.n → (f i).data = some a → addr s h ≠ some a := by
    intro h hk i a hi e he
    exact hk (by rw [r.inv.uniq h (.arr k i) a he (by rw [haf i hi]; exact e)]; rfl)
  have hinv : HInv _ _ (freeAll f s.n s.heap) s.next := r.inv.freed (fun h => h.key.1 = some k) (freeAll f s.n s.heap)
    (fun a h => by
      rw [freeAll_eq, if_neg]
      rintro ⟨i, hi, e⟩
      exact h (.arr k i) rfl (by rw [haf i hi]; exact e))
    (fun a h => by
      rw [freeAll_eq] at h
      split at h
      · exact absurd rfl h
      · exact h)
    (fun h h' e hp => by rw [← e]; exact hp)
  refine ⟨{ s with heap := freeAll f s.n s.heap, arrays := s.arrays.set k none }, by simp [release, hf], ?_, ?_, rfl⟩
  · constructor
    · exact hinv.congr hA hC
    · exact r.coords
    · exact r.dead
    · exact r.len
    · exact r.fits
    · exact r.same
    · intro i hi hh
      have hi' : i < s.n := hi
      have := block_freeAll (s := s) (f := f) (d := (s.views i).data) (fun j a hj e => by
        have := apart (.view i) (by simp [Holder.key]) j a hj e
        simpa [addr, hi'] using this)
      show (block (freeAll f s.n s.heap) (s.views i).data).take _ = _
      rw [this]; exact r.bytes i hi hh
    · simp [r.dn]
    · intro k' g hg
      have hk : k' ≠ k := by
        rintro rfl
        have hg' : (s.arrays.set k' none)[k']? = some (some g) := hg
        rw [hgetk] at hg'; simp at hg'
      have hg' : s.arrays[k']? = some (some g) := by rw [← hget k' hk]; exact hg
      obtain ⟨d, h1, h2⟩ := r.arr k' g hg'
      refine ⟨d, h1, fun i hi => ⟨(h2 i hi).1, fun hd => ⟨((h2 i hi).2 hd).1, ?_⟩⟩⟩
      have hi' : i < s.n := hi
      have := block_freeAll (s := s) (f := f) (d := (g i).data) (fun j a hj e => by
        have := apart (.arr k' i) (by simp [Holder.key, hk]) j a hj e
        simpa [addr, hi', hg'] using this)
      show (block (freeAll f s.n s.heap) (g i).data).take _ = _
      rw [this]; exact ((h2 i hi).2 hd).2
  · intro a
    unfold Lost
    rw [hA]
    refine freed_lost (fun h => h.key.1 = some k) (fun h hp => by simp [hp]) (fun h hp => by simp [hp]) ?_ ?_ ?_ ?_ a
    · intro b; show freeAll f s.n s.heap b = none ∨ freeAll f s.n s.heap b = s.heap b
      rw [freeAll_eq]; split
      · exact Or.inl rfl
      · exact Or.inr rfl
    · intro i b hp; simp [Holder.key] at hp
    · intro k' i b hp e
      have hk : k' = k := by simpa [Holder.key] using hp
      subst hk
      have hi : i < s.n := by
        refine Decidable.byContradiction fun h => ?_
        simp [addr, h] at e
      show freeAll f s.n s.heap b = none
      rw [freeAll_eq, if_pos ⟨i, hi, by rw [← haf i hi]; exact e⟩]
    · intro b _ h2
      show freeAll f s.n s.heap b = s.heap b
      rw [freeAll_eq, if_neg]
      rintro ⟨i, hi, e⟩
      exact h2 k i (by rw [haf i hi]; exact e)

theorem reset_ok {s : Sys} {l : Ledger} (r : Rel s l) :
    ∃ s', reset s = some (0, s') ∧ Rel s' (l.note .reset 0) ∧ (∀ a, Lost s' a ↔ Lost s a) ∧ s'.n = s.n := by
  cases ha : s.alive with
  | false =>
    refine ⟨s, by simp [reset, ha], ?_, fun _ => Iff.rfl, rfl⟩
    have hv := r.dead ha
    constructor
    · exact r.inv
    · exact r.coords
    · exact r.dead
    · intro i _; simp [hv, Ledger.note]
    · exact r.fits
    · intro i _ _; right; simp [hv]
    · intro i _ _; simp [hv, Ledger.note]
    · exact r.dn
    · exact r.arr
  | true =>
    have hab : ∀ i, i < s.n → addr s (.buf i) = (s.bufs i).data := by intro i hi; simp [addr, hi]
    have hA : addr { blank s with heap := freeAll s.bufs s.n s.heap, alive := false } = fun h => if h.key.1 = none then none else addr s h := by
      funext h
      cases h with
      | buf j => simp only [addr, Holder.key, blank, if_true]; exact ite_self _
      | view j => simp only [addr, Holder.key, blank, if_true]; exact ite_self _
      | arr k j => simp only [addr, Holder.key, blank]; rfl
    have hC : capOf { blank s with heap := freeAll s.bufs s.n s.heap, alive := false } = fun h => if h.key.1 = none then 0 else capOf s h := by
      funext h
      cases h with
      | buf j => simp only [capOf, Holder.key, blank, if_true]; exact ite_self _
      | view j => simp only [capOf, Holder.key, blank, if_true]; exact ite_self _
      | arr k j => simp only [capOf, Holder.key, blank]; rfl
    have hinv : HInv _ _ (freeAll s.bufs s.n s.heap) s.next := r.inv.freed (fun h => h.key.1 = none) (freeAll s.bufs s.n s.heap)
      (fun a h => by
        rw [freeAll_eq, if_neg]
        rintro ⟨i, hi, e⟩
        exact h (.buf i) rfl (by rw [hab i hi]; exact e))
      (fun a h => by
        rw [freeAll_eq] at h
        split at h
        · exact absurd rfl h
        · exact h)
      (fun h h' e hp => by rw [← e]; exact hp)
    refine ⟨{ blank s with heap := freeAll s.bufs s.n s.heap, alive := false }, by simp [reset, ha], ?_, ?_, rfl⟩
    · constructor
      · exact hinv.congr hA hC
      · rfl
      · intro _ _; rfl
      · intro i _; rfl
      · intro i _; exact Nat.le_refl _
      · intro i _ _; right; rfl
      · intro i _ _; rfl
      · exact r.dn
      · intro k g hg
        have hg' : s.arrays[k]? = some (some g) := hg
        obtain ⟨d, h1, h2⟩ := r.arr k g hg'
        refine ⟨d, h1, fun i hi => ⟨(h2 i hi).1, fun hd => ⟨((h2 i hi).2 hd).1, ?_⟩⟩⟩
        have hi' : i < s.n := hi
        have := block_freeAll (s := s) (f := s.bufs) (d := (g i).data) (fun j a hj e he => by
          have h1 : addr s (.arr k i) = some a := by simp [addr, hi', hg', he]
          have := r.inv.uniq (.arr k i) (.buf j) a h1 (by rw [hab j hj]; exact e)
          simp [Holder.key] at this)
        show (block (freeAll s.bufs s.n s.heap) (g i).data).take _ = _
        rw [this]; exact ((h2 i hi).2 hd).2
    · intro a
      unfold Lost
      rw [hA]
      refine freed_lost (fun h => h.key.1 = none) (fun h hp => by simp only [hp, if_false]) (fun h hp => by simp only [hp, if_true]) ?_ ?_ ?_ ?_ a
      · intro b; show freeAll s.bufs s.n s.heap b = none ∨ freeAll s.bufs s.n s.heap b = s.heap b
        rw [freeAll_eq]; split
        · exact Or.inl rfl
        · exact Or.inr rfl
      · intro i b _ e
        have hi : i < s.n := by
          refine Decidable.byContradiction fun h => ?_
          simp [addr, h] at e
        show freeAll s.bufs s.n s.heap b = none
        rw [freeAll_eq, if_pos ⟨i, hi, by rw [← hab i hi]; exact e⟩]
      · intro k' i b hp; simp [Holder.key] at hp
      · intro b h2 _
        show freeAll s.bufs s.n s.heap b = s.heap b
        rw [freeAll_eq, if_neg]
        rintro ⟨i, hi, e⟩
        exact h2 i (by rw [hab i hi]; exact e)

/-- Every allowed call on buffers runs, and keeps what the ledger says. -/
theorem step {junk : Nat → Nat → Byte} {c : Call} {s : Sys} {l : Ledger} (r : Rel s l) (hc : IsRaw c) (hal : Allowed s c) :
    ∃ rc s', c.run junk s = some (rc, s') ∧ Rel s' (l.note c rc) ∧ (∀ a, Lost s a → Lost s' a) ∧ (rc ≠ ENOMEM → ∀ a, Lost s' a → Lost s a) ∧
      s'.n = s.n ∧ (rc = 0 ∨ (rc = EINVAL ∧ ∃ mem, c = .finish mem false) ∨ (rc = ENOMEM ∧ Starved c)) := by
  cases c with
  | coords mem cs => exact hc.elim
  | coordsReserve mem n => exact hc.elim
  | reserve mem i add =>
    obtain ⟨ha, hi⟩ := hal
    by_cases hm : mem = true ∨ (s.views i).size + add ≤ (s.bufs i).cap
    · obtain ⟨s', h1, h2, _, h4, _, _, h6⟩ := reserve_ok (junk := junk) r ha hi hm
      exact ⟨0, s', h1, by simpa [Ledger.note] using h2, fun a => (h6 a).mpr, fun _ a => (h6 a).mp, h4, Or.inl rfl⟩
    · have hmem : mem = false := by cases mem <;> simp_all
      subst hmem
      obtain ⟨h1, h2, h3⟩ := reserve_fail (junk := junk) (i := i) (add := add) r ha hi (fun h => hm (Or.inr h))
      refine ⟨ENOMEM, _, h1, ?_, h3, fun h => absurd rfl h, rfl, Or.inr (Or.inr ⟨rfl, rfl⟩)⟩
      simp only [Ledger.note]
      rw [if_neg (by decide)]
      exact h2
  | append mem i bs =>
    obtain ⟨ha, hi⟩ := hal
    simp only [Call.run, append]
    rw [if_pos ⟨ha, hi⟩]
    by_cases hf : (s.views i).size + bs.length ≤ (s.views i).cap
    · obtain ⟨s', h1, h2, _, h4, _, h6⟩ := appendUnsafe_ok r ha hi hf
      exact ⟨0, s', by simp [hf, h1], by simpa [Ledger.note] using h2, fun a => (h6 a).mpr, fun _ a => (h6 a).mp, h4, Or.inl rfl⟩
    · by_cases hm : mem = true ∨ (s.views i).size + bs.length ≤ (s.bufs i).cap
      · obtain ⟨s', h1, h2, h3, h4, h5, h6, h7⟩ := reserve_ok (junk := junk) r ha hi hm
        obtain ⟨s'', g1, g2, _, g4, _, g6⟩ := appendUnsafe_ok h2 (by rw [h3]; exact ha) (by rw [h4]; exact hi) h6
        refine ⟨0, s'', by simp [hf, h1, g1], by simpa [Ledger.note] using g2, fun a h => (g6 a).mpr ((h7 a).mpr h), fun _ a h => (h7 a).mp ((g6 a).mp h),
          by rw [g4, h4], Or.inl rfl⟩
      · have hmem : mem = false := by cases mem <;> simp_all
        subst hmem
        obtain ⟨h1, h2, h3⟩ := reserve_fail (junk := junk) (i := i) (add := bs.length) r ha hi (fun h => hm (Or.inr h))
        refine ⟨ENOMEM, { s with bufs := poke s.bufs i ⟨none, 0, 0⟩ }, ?_, ?_, h3, fun h => absurd rfl h, rfl, Or.inr (Or.inr ⟨rfl, rfl⟩)⟩
        · rw [if_neg hf, h1]
          show (if ENOMEM = 0 then _ else _) = _
          rw [if_neg (by decide)]
        · simp only [Ledger.note]
          rw [if_neg (by decide)]
          exact h2
  | finish mem valid =>
    obtain ⟨rc, s', h1, h2, h3, h4, h5⟩ := finish_ok (junk := junk) (mem := mem) (valid := valid) r hal
    refine ⟨rc, s', h1, h2, fun a => (h3 a).mpr, fun _ a => (h3 a).mp, h4, ?_⟩
    rcases h5 with h | ⟨h, h'⟩ | ⟨h, h'⟩
    · exact Or.inl h
    · exact Or.inr (Or.inl ⟨h, mem, by rw [h']⟩)
    · exact Or.inr (Or.inr ⟨h, h'⟩)
  | release k =>
    obtain ⟨f, hf⟩ := hal
    obtain ⟨s', h1, h2, h3, h4⟩ := release_ok r hf
    exact ⟨0, s', h1, h2, fun a => (h3 a).mpr, fun _ a => (h3 a).mp, h4, Or.inl rfl⟩
  | reset =>
    obtain ⟨s', h1, h2, h3, h4⟩ := reset_ok r
    exact ⟨0, s', h1, h2, fun a => (h3 a).mpr, fun _ a => (h3 a).mp, h4, Or.inl rfl⟩

/-- Calls that run are allowed. -/
theorem allowed_of_run {junk : Nat → Nat → Byte} {c : Call} {s : Sys} (hc : IsRaw c) {x : Code × Sys} (h : c.run junk s = some x) : Allowed s c := by
  cases c with
  | coords mem cs => exact hc.elim
  | coordsReserve mem n => exact hc.elim
  | reserve mem i add =>
    simp only [Call.run, reserve] at h
    by_cases hp : s.alive = true ∧ i < s.n
    · exact hp
    · simp [hp] at h
  | append mem i bs =>
    simp only [Call.run, append] at h
    by_cases hp : s.alive = true ∧ i < s.n
    · exact hp
    · simp [hp] at h
  | finish mem valid =>
    simp only [Call.run, finish] at h
    by_cases hp : s.alive = true
    · exact hp
    · simp [hp] at h
  | release k =>
    simp only [Call.run, release] at h
    split at h
    · rename_i a ha; exact ⟨a, ha⟩
    · simp at h
  | reset => trivial

theorem runs_rel {junk : Nat → Nat → Byte} : ∀ (h : List Call) (s : Sys) (l : Ledger) (rcs : List Code) (s' : Sys), Rel s l → (∀ c ∈ h, IsRaw c) →
    runs junk h s = some (rcs, s') → Rel s' (l.notes (h.zip rcs)) ∧ (∀ a, Lost s a → Lost s' a) ∧ (ENOMEM ∉ rcs → ∀ a, Lost s' a → Lost s a) ∧
      s'.n = s.n ∧ rcs.length = h.length
  | [], s, l, rcs, s', r, _, hr => by
    simp only [runs, Option.some.injEq, Prod.mk.injEq] at hr
    obtain ⟨rfl, rfl⟩ := hr
    exact ⟨r, fun _ h => h, fun _ _ h => h, rfl, rfl⟩
  | c :: h, s, l, rcs, s', r, hc, hr => by
    simp only [runs] at hr
    cases e : c.run junk s with
    | none => simp [e] at hr
    | some x =>
      obtain ⟨rc, s1⟩ := x
      simp only [e] at hr
      cases e2 : runs junk h s1 with
      | none => simp [e2] at hr
      | some y =>
        obtain ⟨rcs', s2⟩ := y
        simp only [e2, Option.some.injEq, Prod.mk.injEq] at hr
        obtain ⟨rfl, rfl⟩ := hr
        have hraw := hc c (by simp)
        obtain ⟨rc', s1', g1, g2, g3, g4, g5, _⟩ := step (junk := junk) r hraw (allowed_of_run hraw e)
        rw [e] at g1
        simp only [Option.some.injEq, Prod.mk.injEq] at g1
        obtain ⟨rfl, rfl⟩ := g1
        obtain ⟨k1, k2, k3, k4, k5⟩ := runs_rel h s1 _ rcs' s2 g2 (fun c' hc' => hc c' (by simp [hc'])) e2
        refine ⟨k1, fun a ha => k2 a (g3 a ha), fun hn a ha => ?_, by rw [k4, g5], by simp [k5]⟩
        simp only [List.mem_cons, not_or] at hn
        exact g4 (fun h => hn.1 h.symm) a (k3 hn.2 a ha)

theorem addr_start (b : Builder) (h : Holder) : addr (Sys.start b) h = none := by
  cases h with
  | buf j => exact ite_self _
  | view j => exact ite_self _
  | arr k j => exact ite_self _

theorem capOf_start (b : Builder) (h : Holder) : capOf (Sys.start b) h = 0 := by
  cases h with
  | buf j => exact ite_self _
  | view j => exact ite_self _
  | arr k j => exact ite_self _

theorem rel_start (b : Builder) : Rel (Sys.start b) Ledger.empty where
  inv :=
    { lt := fun a h => absurd rfl h
      good := fun h a e => by rw [addr_start] at e; cases e
      null := fun h _ => capOf_start b h
      uniq := fun h h' a e => by rw [addr_start] at e; cases e }
  coords := rfl
  dead h := by simp [Sys.start] at h
  len i _ := rfl
  fits i _ := Nat.le_refl _
  same i _ _ := Or.inr rfl
  bytes i _ _ := rfl
  dn := rfl
  arr k f h := by simp [Sys.start] at h

end Verif.Oom
