import Verif.Proof.Ownership
/-!
# Memory of builders: what each call does to it
-/
namespace Verif.Own
open Spec

/-- The arrays that are not released, the builder's own among them -/
def Sys.live (s : Sys) : List Arr := (s.builder.map (·.arr)).toList ++ s.arrays.filterMap id

def heldAll (b : Block) (s : Sys) : Nat := (s.live.map (held b)).sum

def wraps (t : Nat) : Call → Bool
  | .wrap _ _ _ t' => decide (t' = t)
  | _ => false

/-- In the builder, only buffers with a flat index have owners. -/
def Placed (s : Sys) : Prop :=
  ∀ b, s.builder = some b → ∀ p t, (b.arr.bufs p).owner = some t → p ∈ slotsOf [] b.arr.tree ∧ ∃ i, i < b.nBuffers ∧ b.slot i = some p

/-- In finished arrays, only buffers that are released. -/
def PlacedArrays (s : Sys) : Prop :=
  ∀ a, some a ∈ s.arrays → ∀ p t, (a.bufs p).owner = some t → p ∈ slotsOf [] a.tree

/-- What a call does: its events, and what they have to do with what is held before and after it. -/
structure Step (c : Call) (s : Sys) (rc : Code) (s' : Sys) (es : List MemEvent) : Prop where
  log : s'.log = s.log ++ es
  next : s'.next = s.next + es.countP MemEvent.isMalloc
  fresh : Fresh s.next es
  bal : ∀ b, births b es + heldAll b s = deaths b es + heldAll b s'
  own : ∀ a ∈ s'.live, ∀ p t, (a.bufs p).owner = some t →
    (∃ a0 ∈ s.live, ∃ p0, (a0.bufs p0).owner = some t ∧ (a0.bufs p0).data = (a.bufs p).data ∧ (a0.bufs p0).cap = (a.bufs p).cap) ∨
    ∃ i, Call.hands c = some (t, (a.bufs p).data, (a.bufs p).cap, i)
  why : ∀ t d n, .custom t d n ∈ es → MayFree s t d n c
  took : ∀ t, births (.given t) es = if rc = 0 ∧ (Call.hands c).map (·.1) = some t then 1 else 0
  del : ∀ t, es.count (.deleted t) = if rc ≠ 0 ∧ wraps t c then 1 else 0
  placed : Placed s'
  arrays : PlacedArrays s'

theorem free_deleted (x : Buf) (t : Nat) : x.free.count (.deleted t) = 0 := by
  unfold Buf.free
  cases x.owner with
  | some t' => simp
  | none => cases x.data <;> simp

theorem release_deleted (a : Arr) (t : Nat) : a.release.count (.deleted t) = 0 := by
  refine List.count_eq_zero.mpr fun h => ?_
  unfold Arr.release at h
  obtain ⟨p, -, h⟩ := List.mem_flatMap.mp h
  exact List.count_eq_zero.mp (free_deleted (a.bufs p) t) h

theorem reserve_deleted (next n : Nat) (x : Buf) (t : Nat) : (x.reserve next n).1.count (.deleted t) = 0 := by
  unfold Buf.reserve
  split
  · rfl
  · unfold Buf.realloc
    split
    · exact free_deleted x t
    · dsimp only
      rw [List.count_append, free_deleted]
      simp

theorem reserve_took (next n : Nat) (x : Buf) (t : Nat) : births (.given t) (x.reserve next n).1 = 0 := by
  unfold Buf.reserve
  split
  · rfl
  · unfold Buf.realloc
    split
    · exact free_births x _
    · dsimp only
      rw [births_append, free_births]
      simp [births, MemEvent.birth]

theorem finalize_took (t : Nat) : (ps : List Slot) → (next : Nat) → (a : Arr) → births (.given t) (finalize ps next a).1 = 0
  | [], _, _ => rfl
  | p :: ps, next, a => by
    unfold finalize
    split
    · dsimp only
      split
      · dsimp only
        rw [births_append, reserve_took, finalize_took t ps]
      · exact reserve_took _ _ _ _
    · exact finalize_took t ps next a

theorem finalize_deleted (t : Nat) : (ps : List Slot) → (next : Nat) → (a : Arr) → (finalize ps next a).1.count (.deleted t) = 0
  | [], _, _ => rfl
  | p :: ps, next, a => by
    unfold finalize
    split
    · dsimp only
      split
      · dsimp only
        rw [List.count_append, reserve_deleted, finalize_deleted t ps]
      · exact reserve_deleted _ _ _ _
    · exact finalize_deleted t ps next a

theorem live_builder {s : Sys} {b : Bld} (h : s.builder = some b) : s.live = b.arr :: s.arrays.filterMap id := by
  unfold Sys.live; rw [h]; rfl

theorem heldAll_builder {s : Sys} {b : Bld} (h : s.builder = some b) (k : Block) :
    heldAll k s = held k b.arr + ((s.arrays.filterMap id).map (held k)).sum := by
  unfold heldAll; rw [live_builder h]; rfl

theorem heldAll_none {s : Sys} (h : s.builder = none) (k : Block) : heldAll k s = ((s.arrays.filterMap id).map (held k)).sum := by
  unfold heldAll Sys.live; rw [h]; rfl

theorem setView_slot (b : Bld) (i : Nat) (v : View) (j : Nat) : (b.setView i v).slot j = b.slot j := rfl

theorem set_same {a : Arr} {p : Slot} {x : Buf} : (a.set p x).bufs p = x := by unfold Arr.set; dsimp only; rw [if_pos rfl]

theorem set_other {a : Arr} {p q : Slot} {x : Buf} (h : q ≠ p) : (a.set p x).bufs q = a.bufs q := by unfold Arr.set; dsimp only; rw [if_neg h]

theorem step_setOwned {i : Int} {d : Option Nat} {n t : Nat} {s s' : Sys} {rc : Code} (hp : Placed s) (ha : PlacedArrays s)
    (h : setOwned i d n t s = some (rc, s')) : ∃ es, Step (.setOwned i d n t) s rc s' es := by
  unfold setOwned at h
  cases hb : s.builder with
  | none => rw [hb] at h; cases h
  | some b =>
    rw [hb] at h
    dsimp only at h
    split at h
    · rw [Option.some.injEq, Prod.mk.injEq] at h
      obtain ⟨rfl, rfl⟩ := h
      refine ⟨[], ⟨(List.append_nil _).symm, rfl, fresh_none (fun _ h => by cases h), fun _ => rfl, ?_, ?_, ?_, ?_, hp, ha⟩⟩
      · intro a hm p t' ho
        exact Or.inl ⟨a, hm, p, ho, rfl, rfl⟩
      · intro t' d' n' hc; cases hc
      · intro t'
        rw [if_neg (by rintro ⟨h, -⟩; exact absurd h (by decide))]
        rfl
      · intro t'
        simp [wraps]
    · rename_i hi
      cases hs : b.slot i.toNat with
      | none => rw [hs] at h; cases h
      | some p =>
        rw [hs] at h
        dsimp only at h
        rw [Option.some.injEq, Prod.mk.injEq] at h
        obtain ⟨rfl, rfl⟩ := h
        have hpm := slot_mem hs
        refine ⟨(b.arr.bufs p).free ++ [.took t], ⟨rfl, rfl, ?_, ?_, ?_, ?_, ?_, ?_, ?_, ha⟩⟩
        · refine fresh_none ?_
          intro e he
          rcases List.mem_append.mp he with he | he
          · exact free_noMalloc _ e he
          · rw [List.mem_singleton] at he; rw [he]; rfl
        · intro k
          rw [heldAll_builder hb, heldAll_builder rfl, births_append, deaths_append, free_births, free_deaths]
          have h1 := held_set hpm ⟨d, n, n, some t⟩ k
          have h2 : births k [.took t] = is k ⟨d, n, n, some t⟩ := by
            simp [births, is, Buf.block, MemEvent.birth, List.countP_cons]
          have h3 : deaths k [.took t] = 0 := rfl
          dsimp only [Bld.setView, Sys.emit]
          omega
        · intro a hm q t' ho
          rw [live_builder rfl] at hm
          rw [live_builder hb]
          rcases List.mem_cons.mp hm with rfl | hm
          · dsimp only [Bld.setView] at ho ⊢
            by_cases hq : q = p
            · subst hq
              rw [set_same] at ho ⊢
              refine Or.inr ⟨i, ?_⟩
              rw [Option.some.injEq] at ho
              rw [← ho]
              rfl
            · rw [set_other hq] at ho ⊢
              exact Or.inl ⟨_, List.mem_cons_self, q, ho, rfl, rfl⟩
          · exact Or.inl ⟨a, List.mem_cons_of_mem _ hm, q, ho, rfl, rfl⟩
        · intro t' d' n' hc
          have hc : .custom t' d' n' ∈ (b.arr.bufs p).free := by
            rcases List.mem_append.mp hc with hc | hc
            · exact hc
            · rw [List.mem_singleton] at hc; cases hc
          obtain ⟨h1, h2, h3⟩ := free_custom hc
          have hi' : (i.toNat : Int) = i := by omega
          have := MayFree.replaced (s := s) (t := t') (d := d') (n := n') i.toNat d n t ⟨b, p, hb, by omega, hs, h1, h2, h3⟩
          rwa [hi'] at this
        · intro t'
          rw [births_append, free_births]
          simp [births, MemEvent.birth, Call.hands, List.countP_cons]
        · intro t'
          rw [List.count_append, free_deleted]
          simp
        · intro b' hb' q t' ho
          rw [Option.some.injEq] at hb'
          subst hb'
          dsimp only [Bld.setView] at ho
          by_cases hq : q = p
          · subst hq
            exact ⟨hpm, i.toNat, by dsimp only [Bld.setView]; omega, hs⟩
          · rw [set_other hq] at ho
            exact hp b hb q t' ho

theorem step_wrap {i : Int} {d : Option Nat} {n t : Nat} {s s' : Sys} {rc : Code} (hp : Placed s) (ha : PlacedArrays s)
    (h : wrap i d n t s = some (rc, s')) : ∃ es, Step (.wrap i d n t) s rc s' es := by
  unfold wrap at h
  cases hs : setOwned i d n t s with
  | none => rw [hs] at h; cases h
  | some r =>
    obtain ⟨rc0, s0⟩ := r
    rw [hs] at h
    dsimp only at h
    obtain ⟨es, st⟩ := step_setOwned hp ha hs
    have hwhy : ∀ t' d' n', .custom t' d' n' ∈ es → MayFree s t' d' n' (.wrap i d n t) := by
      intro t' d' n' hc
      cases st.why t' d' n' hc with
      | replaced i' _ _ _ hh => exact .rewrapped i' d n t hh
    split at h
    · rename_i h0
      rw [Option.some.injEq, Prod.mk.injEq] at h
      obtain ⟨rfl, rfl⟩ := h
      refine ⟨es, ⟨st.log, st.next, st.fresh, st.bal, st.own, hwhy, st.took, ?_, st.placed, st.arrays⟩⟩
      intro t'
      rw [st.del, if_neg (by simp [wraps]), if_neg (by rintro ⟨h, -⟩; exact h h0)]
    · rename_i h0
      rw [Option.some.injEq, Prod.mk.injEq] at h
      obtain ⟨rfl, rfl⟩ := h
      refine ⟨es ++ [.deleted t], ⟨?_, ?_, ?_, ?_, st.own, ?_, ?_, ?_, st.placed, st.arrays⟩⟩
      · unfold Sys.emit; dsimp only; rw [st.log, List.append_assoc]
      · unfold Sys.emit; dsimp only; rw [st.next, List.countP_append, Nat.add_assoc]
      · refine st.fresh.append (fresh_none ?_)
        intro e he
        rw [List.mem_singleton] at he; rw [he]; rfl
      · intro k
        rw [births_append, deaths_append]
        have h1 : births k [.deleted t] = 0 := rfl
        have h2 : deaths k [.deleted t] = 0 := rfl
        have h3 : heldAll k (s0.emit [.deleted t]) = heldAll k s0 := rfl
        have := st.bal k
        omega
      · intro t' d' n' hc
        rcases List.mem_append.mp hc with hc | hc
        · exact hwhy t' d' n' hc
        · rw [List.mem_singleton] at hc; cases hc
      · intro t'
        rw [births_append, st.took t', if_neg (by rintro ⟨h, -⟩; exact h0 h), if_neg (by rintro ⟨h, -⟩; exact h0 h)]
        rfl
      · intro t'
        rw [List.count_append, st.del, if_neg (by simp [wraps])]
        by_cases htt : t = t'
        · subst htt
          rw [if_pos ⟨h0, by simp [wraps]⟩]
          simp
        · rw [if_neg (by rintro ⟨-, h⟩; exact htt (by simpa [wraps] using h))]
          simp [htt]

theorem step_reserve {i m : Nat} {s s' : Sys} {rc : Code} (hp : Placed s) (ha : PlacedArrays s)
    (h : reserve i m s = some (rc, s')) : ∃ es, Step (.reserve i m) s rc s' es := by
  unfold reserve at h
  cases hb : s.builder with
  | none => rw [hb] at h; cases h
  | some b =>
    rw [hb] at h
    dsimp only at h
    split at h
    · cases h
    · rename_i p hs
      have hi : i < b.nBuffers := Decidable.byContradiction fun hc => by rw [if_neg hc] at hs; cases hs
      rw [if_pos hi] at hs
      have hpm := slot_mem hs
      have hrb := reserve_balance s.next m { b.arr.bufs p with size := (b.view i).size }
      have hrf := reserve_fresh s.next m { b.arr.bufs p with size := (b.view i).size }
      have hro := fun (t : Nat) => reserve_owner (t := t) (next := s.next) (n := m) (x := { b.arr.bufs p with size := (b.view i).size })
      have hrc := fun (t n : Nat) (d : Option Nat) => reserve_custom (t := t) (n := n) (d := d) (next := s.next) (m := m) (x := { b.arr.bufs p with size := (b.view i).size })
      have hrt := reserve_took s.next m { b.arr.bufs p with size := (b.view i).size }
      have hrd := reserve_deleted s.next m { b.arr.bufs p with size := (b.view i).size }
      generalize Buf.reserve s.next m { b.arr.bufs p with size := (b.view i).size } = r at *
      have key : ∀ (v : Nat → View) (s1 : Sys), s1 = { (s.emit r.1) with builder := some { b with arr := b.arr.set p r.2.2, view := v } } →
          Step (.reserve i m) s rc s1 r.1 := by
        rintro v s1 rfl
        refine ⟨rfl, rfl, hrf, ?_, ?_, ?_, ?_, ?_, ?_, ha⟩
        · intro k
          rw [heldAll_builder hb, heldAll_builder rfl]
          have h1 := held_set hpm r.2.2 k
          have h2 := hrb k
          rw [is_size] at h2
          dsimp only [Sys.emit]
          omega
        · intro a hm q t' ho
          rw [live_builder rfl] at hm
          rw [live_builder hb]
          rcases List.mem_cons.mp hm with rfl | hm
          · dsimp only at ho ⊢
            by_cases hq : q = p
            · subst hq
              rw [set_same] at ho ⊢
              have e := hro t' ho
              rw [e] at ho ⊢
              exact Or.inl ⟨_, List.mem_cons_self, q, ho, rfl, rfl⟩
            · rw [set_other hq] at ho ⊢
              exact Or.inl ⟨_, List.mem_cons_self, q, ho, rfl, rfl⟩
          · exact Or.inl ⟨a, List.mem_cons_of_mem _ hm, q, ho, rfl, rfl⟩
        · intro t' d' n' hc
          obtain ⟨h1, h2, h3, h4⟩ := hrc t' n' d' hc
          refine .grown i m b ⟨b, p, hb, hi, hs, h1, h2, h3⟩ hb ?_
          rw [← h3]
          exact h4
        · intro t'
          rw [hrt, if_neg (by rintro ⟨-, h⟩; cases h)]
        · intro t'
          rw [hrd, if_neg (by simp [wraps])]
        · intro b' hb' q t' ho
          rw [Option.some.injEq] at hb'
          subst hb'
          dsimp only at ho
          by_cases hq : q = p
          · subst hq
            exact ⟨hpm, i, hi, hs⟩
          · rw [set_other hq] at ho
            exact hp b hb q t' ho
      split at h
      · rw [Option.some.injEq, Prod.mk.injEq] at h
        exact ⟨r.1, key _ s' h.2.symm⟩
      · rw [Option.some.injEq, Prod.mk.injEq] at h
        exact ⟨r.1, key b.view s' h.2.symm⟩

theorem step_view {i m : Nat} {s s' : Sys} {rc : Code} (hp : Placed s) (ha : PlacedArrays s)
    (h : setViewSize i m s = some (rc, s')) : ∃ es, Step (.view i m) s rc s' es := by
  unfold setViewSize at h
  cases hb : s.builder with
  | none => rw [hb] at h; cases h
  | some b =>
    rw [hb] at h
    dsimp only at h
    rw [Option.some.injEq, Prod.mk.injEq] at h
    obtain ⟨rfl, rfl⟩ := h
    refine ⟨[], ⟨(List.append_nil _).symm, rfl, fresh_none (fun _ h => by cases h), ?_, ?_, fun _ _ _ h => (by cases h), ?_, ?_, ?_, ha⟩⟩
    · intro k
      rw [heldAll_builder hb, heldAll_builder rfl]
      rfl
    · intro a hm q t' ho
      rw [live_builder rfl] at hm
      rw [live_builder hb]
      exact Or.inl ⟨a, hm, q, ho, rfl, rfl⟩
    · intro t'
      rw [if_neg (by rintro ⟨-, h⟩; cases h)]; rfl
    · intro t'
      rw [if_neg (by simp [wraps])]; rfl
    · intro b' hb' q t' ho
      rw [Option.some.injEq] at hb'
      subst hb'
      exact hp b hb q t' ho

theorem step_finish {v : Bool} {s s' : Sys} {rc : Code} (hp : Placed s) (ha : PlacedArrays s)
    (h : finish v s = some (rc, s')) : ∃ es, Step (.finish v) s rc s' es := by
  unfold finish at h
  cases hb : s.builder with
  | none => rw [hb] at h; cases h
  | some b =>
    rw [hb] at h
    dsimp only at h
    have htree := syncSizes_tree b b.nBuffers b.arr
    have hsub : ∀ p ∈ dataSlots [] b.arr.tree, p ∈ slotsOf [] (syncSizes b b.nBuffers b.arr).tree := by
      rw [htree]; exact dataSlots_sub [] _
    have hbal := fun k => finalize_balance k (dataSlots [] b.arr.tree) s.next (syncSizes b b.nBuffers b.arr) hsub
    have hfr := finalize_fresh (dataSlots [] b.arr.tree) s.next (syncSizes b b.nBuffers b.arr)
    have hft := fun t => finalize_took t (dataSlots [] b.arr.tree) s.next (syncSizes b b.nBuffers b.arr)
    have hfd := fun t => finalize_deleted t (dataSlots [] b.arr.tree) s.next (syncSizes b b.nBuffers b.arr)
    have hfo := fun t q => finalize_owner (t := t) (dataSlots [] b.arr.tree) s.next (syncSizes b b.nBuffers b.arr) q
    have hfc := fun t n d => finalize_custom (t := t) (n := n) (d := d) (dataSlots [] b.arr.tree) s.next (syncSizes b b.nBuffers b.arr)
    have htr := finalize_tree (dataSlots [] b.arr.tree) s.next (syncSizes b b.nBuffers b.arr)
    generalize finalize (dataSlots [] b.arr.tree) s.next (syncSizes b b.nBuffers b.arr) = r at *
    rw [htree] at htr
    have hsy := syncSizes_buf b b.nBuffers b.arr
    have howner : ∀ q t, (r.2.2.bufs q).owner = some t → (b.arr.bufs q).owner = some t ∧ (b.arr.bufs q).data = (r.2.2.bufs q).data ∧
        (b.arr.bufs q).cap = (r.2.2.bufs q).cap := by
      intro q t ho
      have e := hfo t q ho
      obtain ⟨h1, h2, h3⟩ := hsy q
      rw [e] at ho ⊢
      rw [h1] at ho
      exact ⟨ho, h2.symm, h3.symm⟩
    have hwhy : ∀ t d n, .custom t d n ∈ r.1 → MayFree s t d n (.finish v) := by
      intro t d n hc
      obtain ⟨q, h1, h2, h3, h4⟩ := hfc t n d hc
      obtain ⟨e1, e2, e3⟩ := hsy q
      rw [e1] at h1
      rw [e2] at h2
      rw [e3] at h3
      obtain ⟨-, i, hi, hs⟩ := hp b hb q t h1
      exact .null i v ⟨b, q, hb, hi, hs, h1, h2, h3⟩ h4
    have htook : ∀ t, births (.given t) r.1 = if rc = 0 ∧ (Call.hands (.finish v)).map (·.1) = some t then 1 else 0 := by
      intro t
      rw [hft, if_neg (by rintro ⟨-, h⟩; cases h)]
    have hdel : ∀ t, r.1.count (.deleted t) = if rc ≠ 0 ∧ wraps t (.finish v) then 1 else 0 := by
      intro t
      rw [hfd, if_neg (by simp [wraps])]
    have hown1 : ∀ q t, (r.2.2.bufs q).owner = some t →
        (∃ a0 ∈ s.live, ∃ p0, (a0.bufs p0).owner = some t ∧ (a0.bufs p0).data = (r.2.2.bufs q).data ∧ (a0.bufs p0).cap = (r.2.2.bufs q).cap) := by
      intro q t ho
      obtain ⟨h1, h2, h3⟩ := howner q t ho
      exact ⟨b.arr, by rw [live_builder hb]; exact List.mem_cons_self, q, h1, h2, h3⟩
    have key : ∀ s1 : Sys, s1 = { (s.emit r.1) with builder := some { b with arr := r.2.2 } } → Step (.finish v) s rc s1 r.1 := by
      rintro s1 rfl
      refine ⟨rfl, rfl, hfr, ?_, ?_, hwhy, htook, hdel, ?_, ha⟩
      · intro k
        rw [heldAll_builder hb, heldAll_builder rfl]
        have := hbal k
        rw [held_sync] at this
        dsimp only [Sys.emit]
        omega
      · intro a hm q t ho
        rw [live_builder rfl] at hm
        rcases List.mem_cons.mp hm with rfl | hm
        · exact Or.inl (hown1 q t ho)
        · exact Or.inl ⟨a, by rw [live_builder hb]; exact List.mem_cons_of_mem _ hm, q, ho, rfl, rfl⟩
      · intro b' hb' q t ho
        rw [Option.some.injEq] at hb'
        subst hb'
        obtain ⟨h0, i, hi, hs⟩ := hp b hb q t (howner q t ho).1
        refine ⟨by rw [htr]; exact h0, i, hi, ?_⟩
        unfold Bld.slot at hs ⊢
        dsimp only
        rw [htr]
        exact hs
    split at h
    · rw [Option.some.injEq, Prod.mk.injEq] at h
      exact ⟨r.1, key s' h.2.symm⟩
    · split at h
      · rw [Option.some.injEq, Prod.mk.injEq] at h
        obtain ⟨-, rfl⟩ := h
        refine ⟨r.1, ⟨rfl, rfl, hfr, ?_, ?_, hwhy, htook, hdel, ?_, ?_⟩⟩
        · intro k
          rw [heldAll_builder hb, heldAll_builder rfl]
          have := hbal k
          rw [held_sync] at this
          have h0 : held k (Bld.init b.arr.tree b.nBuffers).arr = 0 := by
            unfold held
            exact List.countP_eq_zero.mpr fun p _ => by simp [Bld.init, Arr.init, Buf.init, Buf.block]
          rw [h0]
          dsimp only [Sys.emit]
          simp only [List.filterMap_append, List.filterMap_cons, List.filterMap_nil, id_eq, List.map_append, List.map_cons, List.map_nil, List.sum_append, List.sum_cons, List.sum_nil]
          omega
        · intro a hm q t ho
          rw [live_builder rfl] at hm
          rcases List.mem_cons.mp hm with rfl | hm
          · cases ho
          · simp only [List.filterMap_append, List.mem_append] at hm
            rcases hm with hm | hm
            · exact Or.inl ⟨a, by rw [live_builder hb]; exact List.mem_cons_of_mem _ hm, q, ho, rfl, rfl⟩
            · simp only [List.filterMap_cons, List.filterMap_nil, id_eq, List.mem_singleton] at hm
              subst hm
              exact Or.inl (hown1 q t ho)
        · intro b' hb' q t ho
          rw [Option.some.injEq] at hb'
          subst hb'
          cases ho
        · intro a hm q t ho
          rcases List.mem_append.mp hm with hm | hm
          · exact ha a hm q t ho
          · rw [List.mem_singleton, Option.some.injEq] at hm
            subst hm
            rw [htr]
            exact (hp b hb q t (howner q t ho).1).1
      · rw [Option.some.injEq, Prod.mk.injEq] at h
        exact ⟨r.1, key s' h.2.symm⟩

theorem sum_filter_set (k : Block) : (l : List (Option Arr)) → (i : Nat) → (a : Arr) → l[i]? = some (some a) →
    ((l.filterMap id).map (held k)).sum = held k a + (((l.set i none).filterMap id).map (held k)).sum
  | [], i, a, h => by cases h
  | x :: l, 0, a, h => by
    simp only [List.getElem?_cons_zero, Option.some.injEq] at h
    subst h
    simp
  | x :: l, i + 1, a, h => by
    rw [List.getElem?_cons_succ] at h
    have ih := sum_filter_set k l i a h
    rw [List.set_cons_succ]
    cases x with
    | none => simpa using ih
    | some y =>
      simp only [List.filterMap_cons, id_eq, List.map_cons, List.sum_cons]
      omega

theorem release_custom {a : Arr} {t n : Nat} {d : Option Nat} (h : .custom t d n ∈ a.release) :
    ∃ p ∈ slotsOf [] a.tree, (a.bufs p).owner = some t ∧ (a.bufs p).data = d ∧ (a.bufs p).cap = n := by
  unfold Arr.release at h
  obtain ⟨p, hp, h⟩ := List.mem_flatMap.mp h
  exact ⟨p, hp, free_custom h⟩

theorem step_release {k : Nat} {s s' : Sys} {rc : Code} (hp : Placed s) (ha : PlacedArrays s)
    (h : releaseArray k s = some (rc, s')) : ∃ es, Step (.release k) s rc s' es := by
  unfold releaseArray at h
  split at h
  · rename_i a hk
    rw [Option.some.injEq, Prod.mk.injEq] at h
    obtain ⟨rfl, rfl⟩ := h
    refine ⟨a.release, ⟨rfl, rfl, fresh_none (release_noMalloc a), ?_, ?_, ?_, ?_, ?_, hp, ?_⟩⟩
    · intro b
      rw [release_births, release_deaths]
      have := sum_filter_set b s.arrays k a hk
      cases hb : s.builder with
      | none =>
        rw [heldAll_none hb, heldAll_none (s := { (s.emit a.release) with arrays := s.arrays.set k none }) hb]
        dsimp only
        omega
      | some bl =>
        rw [heldAll_builder hb, heldAll_builder (s := { (s.emit a.release) with arrays := s.arrays.set k none }) hb]
        dsimp only
        omega
    · intro a' hm q t ho
      refine Or.inl ⟨a', ?_, q, ho, rfl, rfl⟩
      unfold Sys.live at hm ⊢
      rcases List.mem_append.mp hm with hm | hm
      · exact List.mem_append_left _ hm
      · refine List.mem_append_right _ ?_
        obtain ⟨o, ho1, ho2⟩ := List.mem_filterMap.mp hm
        refine List.mem_filterMap.mpr ⟨o, ?_, ho2⟩
        rcases List.mem_or_eq_of_mem_set ho1 with h | h
        · exact h
        · rw [h] at ho2; cases ho2
    · intro t d n hc
      obtain ⟨p, h0, h1, h2, h3⟩ := release_custom hc
      exact .release k ⟨a, p, hk, h0, h1, h2, h3⟩
    · intro t
      rw [release_births, if_neg (by rintro ⟨-, h⟩; cases h)]
    · intro t
      rw [release_deleted, if_neg (by simp [wraps])]
    · intro a' hm q t ho
      rcases List.mem_or_eq_of_mem_set hm with h | h
      · exact ha a' h q t ho
      · cases h
  · cases h

theorem step_reset {s s' : Sys} {rc : Code} (hp : Placed s) (ha : PlacedArrays s)
    (h : reset s = some (rc, s')) : ∃ es, Step .reset s rc s' es := by
  unfold reset at h
  cases hb : s.builder with
  | none =>
    rw [hb] at h
    dsimp only at h
    rw [Option.some.injEq, Prod.mk.injEq] at h
    obtain ⟨rfl, rfl⟩ := h
    refine ⟨[], ⟨(List.append_nil _).symm, rfl, fresh_none (fun _ h => by cases h), fun _ => rfl, ?_, fun _ _ _ h => (by cases h), ?_, ?_, hp, ha⟩⟩
    · intro a hm q t ho
      exact Or.inl ⟨a, hm, q, ho, rfl, rfl⟩
    · intro t
      rw [if_neg (by rintro ⟨-, h⟩; cases h)]; rfl
    · intro t
      rw [if_neg (by simp [wraps])]; rfl
  | some b =>
    rw [hb] at h
    dsimp only at h
    rw [Option.some.injEq, Prod.mk.injEq] at h
    obtain ⟨rfl, rfl⟩ := h
    refine ⟨b.arr.release, ⟨rfl, rfl, fresh_none (release_noMalloc _), ?_, ?_, ?_, ?_, ?_, ?_, ha⟩⟩
    · intro k
      rw [release_births, release_deaths, heldAll_builder hb, heldAll_none rfl]
      dsimp only [Sys.emit]
      omega
    · intro a hm q t ho
      refine Or.inl ⟨a, ?_, q, ho, rfl, rfl⟩
      rw [live_builder hb]
      unfold Sys.live at hm
      exact List.mem_cons_of_mem _ hm
    · intro t d n hc
      obtain ⟨p, h0, h1, h2, h3⟩ := release_custom hc
      obtain ⟨-, i, hi, hs⟩ := hp b hb p t h1
      exact .reset i ⟨b, p, hb, hi, hs, h1, h2, h3⟩
    · intro t
      rw [release_births, if_neg (by rintro ⟨-, h⟩; cases h)]
    · intro t
      rw [release_deleted, if_neg (by simp [wraps])]
    · intro b' hb'; cases hb'

theorem step {c : Call} {s s' : Sys} {rc : Code} (hp : Placed s) (ha : PlacedArrays s) (h : c.run s = some (rc, s')) :
    ∃ es, Step c s rc s' es := by
  cases c with
  | setOwned i d n t => exact step_setOwned hp ha h
  | wrap i d n t => exact step_wrap hp ha h
  | reserve i m => exact step_reserve hp ha h
  | view i m => exact step_view hp ha h
  | finish v => exact step_finish hp ha h
  | release k => exact step_release hp ha h
  | reset => exact step_reset hp ha h

end Verif.Own
