import Verif.Proof.OwnershipStep
/-!
# Memory of builders: histories
-/
namespace Verif.Own
open Spec

def given (h : List Call) : List (Nat × Option Nat × Nat) := (h.filterMap Call.hands).map fun x => (x.1, x.2.1, x.2.2.1)

structure Inv (T : ATree BKind) (N : Nat) (s : Sys) (G : List (Nat × Option Nat × Nat)) : Prop where
  bal : ∀ b, births b s.log = deaths b s.log + heldAll b s
  cnt : ∀ a, births (.heap a) s.log = if a < s.next then 1 else 0
  own : ∀ a ∈ s.live, ∀ p t, (a.bufs p).owner = some t → (t, (a.bufs p).data, (a.bufs p).cap) ∈ G
  log : ∀ t d n, .custom t d n ∈ s.log → (t, d, n) ∈ G
  placed : Placed s
  arrays : PlacedArrays s
  shape : ∀ b, s.builder = some b → b.nBuffers = N ∧ b.arr.tree = T

theorem inv_start (b0 : Builder) : Inv b0.tree b0.nBuffers (Sys.start b0) [] := by
  refine ⟨?_, ?_, ?_, ?_, ?_, ?_, ?_⟩
  · intro k
    have h0 : held k (Bld.init b0.tree b0.nBuffers).arr = 0 := by
      unfold held
      exact List.countP_eq_zero.mpr fun p _ => by simp [Bld.init, Arr.init, Buf.init, Buf.block]
    rw [heldAll_builder rfl, h0]
    rfl
  · intro a
    rw [if_neg (by unfold Sys.start; dsimp only; omega)]
    rfl
  · intro a ha p t ho
    unfold Sys.live Sys.start at ha
    simp only [Option.map_some, Option.toList_some, List.filterMap_nil, List.append_nil, List.mem_singleton] at ha
    subst ha
    cases ho
  · intro t d n h; cases h
  · intro b hb p t ho
    unfold Sys.start at hb
    rw [Option.some.injEq] at hb
    subst hb
    cases ho
  · intro a ha; cases ha
  · intro b hb
    unfold Sys.start at hb
    rw [Option.some.injEq] at hb
    subst hb
    exact ⟨rfl, rfl⟩

theorem shape_step {c : Call} {s s' : Sys} {rc : Code} (h : c.run s = some (rc, s')) (b' : Bld) (hb' : s'.builder = some b') :
    ∃ b, s.builder = some b ∧ b'.nBuffers = b.nBuffers ∧ b'.arr.tree = b.arr.tree := by
  have hset : ∀ {i d n t} {s s' : Sys} {rc : Code}, setOwned i d n t s = some (rc, s') → s'.builder = some b' →
      ∃ b, s.builder = some b ∧ b'.nBuffers = b.nBuffers ∧ b'.arr.tree = b.arr.tree := by
    intro i d n t s s' rc h hb'
    unfold setOwned at h
    cases hb : s.builder with
    | none => rw [hb] at h; cases h
    | some b =>
      rw [hb] at h
      dsimp only at h
      split at h
      · rw [Option.some.injEq, Prod.mk.injEq] at h
        obtain ⟨-, rfl⟩ := h
        rw [hb, Option.some.injEq] at hb'
        exact ⟨b, rfl, by rw [hb'], by rw [hb']⟩
      · split at h
        · cases h
        · rw [Option.some.injEq, Prod.mk.injEq] at h
          obtain ⟨-, rfl⟩ := h
          rw [Option.some.injEq] at hb'
          subst hb'
          exact ⟨b, rfl, rfl, rfl⟩
  cases c with
  | setOwned i d n t => exact hset h hb'
  | wrap i d n t =>
    unfold Call.run at h
    dsimp only at h
    unfold wrap at h
    split at h
    · cases h
    · rename_i rc0 s0 hs
      split at h
      · rw [Option.some.injEq, Prod.mk.injEq] at h
        obtain ⟨-, rfl⟩ := h
        exact hset hs hb'
      · rw [Option.some.injEq, Prod.mk.injEq] at h
        obtain ⟨-, rfl⟩ := h
        exact hset hs hb'
  | reserve i m =>
    unfold Call.run at h
    dsimp only at h
    unfold reserve at h
    cases hb : s.builder with
    | none => rw [hb] at h; cases h
    | some b =>
      rw [hb] at h
      dsimp only at h
      split at h
      · cases h
      · split at h
        · rw [Option.some.injEq, Prod.mk.injEq] at h
          obtain ⟨-, rfl⟩ := h
          rw [Option.some.injEq] at hb'
          subst hb'
          exact ⟨b, rfl, rfl, rfl⟩
        · rw [Option.some.injEq, Prod.mk.injEq] at h
          obtain ⟨-, rfl⟩ := h
          rw [Option.some.injEq] at hb'
          subst hb'
          exact ⟨b, rfl, rfl, rfl⟩
  | view i m =>
    unfold Call.run at h
    dsimp only at h
    unfold setViewSize at h
    cases hb : s.builder with
    | none => rw [hb] at h; cases h
    | some b =>
      rw [hb] at h
      dsimp only at h
      rw [Option.some.injEq, Prod.mk.injEq] at h
      obtain ⟨-, rfl⟩ := h
      rw [Option.some.injEq] at hb'
      subst hb'
      exact ⟨b, rfl, rfl, rfl⟩
  | finish v =>
    unfold Call.run at h
    dsimp only at h
    unfold finish at h
    cases hb : s.builder with
    | none => rw [hb] at h; cases h
    | some b =>
      rw [hb] at h
      dsimp only at h
      have htr := finalize_tree (dataSlots [] b.arr.tree) s.next (syncSizes b b.nBuffers b.arr)
      rw [syncSizes_tree] at htr
      refine ⟨b, rfl, ?_⟩
      split at h
      · rw [Option.some.injEq, Prod.mk.injEq] at h
        obtain ⟨-, rfl⟩ := h
        rw [Option.some.injEq] at hb'
        subst hb'
        exact ⟨rfl, htr⟩
      · split at h
        · rw [Option.some.injEq, Prod.mk.injEq] at h
          obtain ⟨-, rfl⟩ := h
          rw [Option.some.injEq] at hb'
          subst hb'
          exact ⟨rfl, rfl⟩
        · rw [Option.some.injEq, Prod.mk.injEq] at h
          obtain ⟨-, rfl⟩ := h
          rw [Option.some.injEq] at hb'
          subst hb'
          exact ⟨rfl, htr⟩
  | release k =>
    unfold Call.run at h
    dsimp only at h
    unfold releaseArray at h
    split at h
    · rw [Option.some.injEq, Prod.mk.injEq] at h
      obtain ⟨-, rfl⟩ := h
      exact ⟨b', hb', rfl, rfl⟩
    · cases h
  | reset =>
    unfold Call.run at h
    dsimp only at h
    unfold reset at h
    split at h
    · rw [Option.some.injEq, Prod.mk.injEq] at h
      obtain ⟨-, rfl⟩ := h
      exact ⟨b', hb', rfl, rfl⟩
    · rw [Option.some.injEq, Prod.mk.injEq] at h
      obtain ⟨-, rfl⟩ := h
      cases hb'

theorem holds_given {T : ATree BKind} {N : Nat} {s : Sys} {G : List (Nat × Option Nat × Nat)} (hi : Inv T N s G) {t n : Nat} {d : Option Nat} {c : Call}
    (h : MayFree s t d n c) : (t, d, n) ∈ G := by
  have hB : ∀ i, BuilderHolds s t d n i → (t, d, n) ∈ G := by
    rintro i ⟨b, p, hb, -, -, h1, h2, h3⟩
    have := hi.own b.arr (by rw [live_builder hb]; exact List.mem_cons_self) p t h1
    rwa [h2, h3] at this
  cases h with
  | reset i h => exact hB i h
  | release k h =>
    obtain ⟨a, p, hk, -, h1, h2, h3⟩ := h
    have := hi.own a (by
      unfold Sys.live
      exact List.mem_append_right _ (List.mem_filterMap.mpr ⟨some a, List.mem_of_getElem? hk, rfl⟩)) p t h1
    rwa [h2, h3] at this
  | replaced i _ _ _ h => exact hB i h
  | rewrapped i _ _ _ h => exact hB i h
  | grown i _ _ h _ _ => exact hB i h
  | null i _ h _ => exact hB i h

theorem inv_step {T : ATree BKind} {N : Nat} {c : Call} {s s' : Sys} {rc : Code} {G : List (Nat × Option Nat × Nat)} (hi : Inv T N s G)
    (h : c.run s = some (rc, s')) : Inv T N s' (G ++ given [c]) := by
  obtain ⟨es, st⟩ := step hi.placed hi.arrays h
  refine ⟨?_, ?_, ?_, ?_, st.placed, st.arrays, ?_⟩
  · intro b
    rw [st.log, births_append, deaths_append]
    have := hi.bal b
    have := st.bal b
    omega
  · intro a
    rw [st.log, births_append, st.next, hi.cnt a, st.fresh a]
    split <;> split <;> split <;> omega
  · intro a ha p t ho
    rcases st.own a ha p t ho with ⟨a0, h0, p0, h1, h2, h3⟩ | ⟨i, hh⟩
    · have := hi.own a0 h0 p0 t h1
      rw [h2, h3] at this
      exact List.mem_append_left _ this
    · refine List.mem_append_right _ ?_
      unfold given
      rw [List.filterMap_cons, hh]
      exact List.mem_cons_self
  · intro t d n hc
    rw [st.log] at hc
    rcases List.mem_append.mp hc with hc | hc
    · exact List.mem_append_left _ (hi.log t d n hc)
    · exact List.mem_append_left _ (holds_given hi (st.why t d n hc))
  · intro b' hb'
    obtain ⟨b, hb, h1, h2⟩ := shape_step h b' hb'
    obtain ⟨h3, h4⟩ := hi.shape b hb
    exact ⟨h1.trans h3, h2.trans h4⟩

theorem given_append (x y : List Call) : given (x ++ y) = given x ++ given y := by
  unfold given; rw [List.filterMap_append, List.map_append]

theorem runs_inv {T : ATree BKind} {N : Nat} : (h : List Call) → (s : Sys) → (G : List (Nat × Option Nat × Nat)) → Inv T N s G → ∀ rcs s',
    runs h s = some (rcs, s') → Inv T N s' (G ++ given h)
  | [], s, G, hi, rcs, s', hr => by
    unfold runs at hr
    rw [Option.some.injEq, Prod.mk.injEq] at hr
    rw [← hr.2]
    have : given [] = [] := rfl
    rw [this, List.append_nil]
    exact hi
  | c :: cs, s, G, hi, rcs, s', hr => by
    unfold runs at hr
    cases hc : c.run s with
    | none => rw [hc] at hr; cases hr
    | some r =>
      obtain ⟨rc, s1⟩ := r
      rw [hc] at hr
      dsimp only at hr
      cases hcs : runs cs s1 with
      | none => rw [hcs] at hr; cases hr
      | some r2 =>
        obtain ⟨rcs2, s2⟩ := r2
        rw [hcs] at hr
        dsimp only at hr
        rw [Option.some.injEq, Prod.mk.injEq] at hr
        obtain ⟨-, rfl⟩ := hr
        have := runs_inv cs s1 _ (inv_step hi hc) rcs2 s2 hcs
        rw [List.append_assoc, ← given_append] at this
        exact this

/-- How often `t` was taken and deleted by its maker, from the values returned -/
theorem runs_count {T : ATree BKind} {N : Nat} (t : Nat) : (h : List Call) → (s : Sys) → (G : List (Nat × Option Nat × Nat)) → Inv T N s G → ∀ rcs s',
    runs h s = some (rcs, s') → rcs.length = h.length ∧
      births (.given t) s'.log = births (.given t) s.log + (h.zip rcs).countP (fun x => decide (x.2 = 0 ∧ (Call.hands x.1).map (·.1) = some t)) ∧
      s'.log.count (.deleted t) = s.log.count (.deleted t) + (h.zip rcs).countP (fun x => decide (x.2 ≠ 0 ∧ wraps t x.1))
  | [], s, G, hi, rcs, s', hr => by
    unfold runs at hr
    rw [Option.some.injEq, Prod.mk.injEq] at hr
    obtain ⟨rfl, rfl⟩ := hr
    exact ⟨rfl, rfl, rfl⟩
  | c :: cs, s, G, hi, rcs, s', hr => by
    unfold runs at hr
    cases hc : c.run s with
    | none => rw [hc] at hr; cases hr
    | some r =>
      obtain ⟨rc, s1⟩ := r
      rw [hc] at hr
      dsimp only at hr
      cases hcs : runs cs s1 with
      | none => rw [hcs] at hr; cases hr
      | some r2 =>
        obtain ⟨rcs2, s2⟩ := r2
        rw [hcs] at hr
        dsimp only at hr
        rw [Option.some.injEq, Prod.mk.injEq] at hr
        obtain ⟨rfl, rfl⟩ := hr
        obtain ⟨h1, h2, h3⟩ := runs_count t cs s1 _ (inv_step hi hc) rcs2 s2 hcs
        obtain ⟨es, st⟩ := step hi.placed hi.arrays hc
        refine ⟨by simp [h1], ?_, ?_⟩
        · rw [h2, st.log, births_append, st.took t, List.zip_cons_cons, List.countP_cons]
          simp only [decide_eq_true_eq]
          omega
        · rw [h3, st.log, List.count_append, st.del t, List.zip_cons_cons, List.countP_cons]
          simp only [decide_eq_true_eq]
          omega

/-! ## Counting -/

theorem customFrees_length (t : Nat) (log : List MemEvent) : (customFrees t log).length = deaths (.given t) log := by
  unfold customFrees deaths
  rw [← List.countP_eq_length_filter]
  refine List.countP_congr fun e _ => ?_
  cases e <;> simp [MemEvent.death]

theorem customFrees_mem {t : Nat} {log : List MemEvent} {e : MemEvent} (h : e ∈ customFrees t log) : ∃ d n, e = .custom t d n ∧ e ∈ log := by
  unfold customFrees at h
  obtain ⟨h1, h2⟩ := List.mem_filter.mp h
  cases e with
  | custom t' d n =>
    simp only [decide_eq_true_eq] at h2
    subst h2
    exact ⟨d, n, rfl, h1⟩
  | _ => simp at h2

theorem countP_zip_le (t : Nat) : (h : List Call) → (rcs : List Code) → (owners h).Nodup → (q : Call × Code → Bool) →
    (∀ x, q x = true → (Call.hands x.1).map (·.1) = some t) → (h.zip rcs).countP q ≤ 1 ∧
    (0 < (h.zip rcs).countP q → t ∈ owners h) := by
  have hcons : ∀ c h, owners (c :: h) = ((Call.hands c).map (·.1)).toList ++ owners h := by
    intro c h
    unfold owners
    rw [List.filterMap_cons]
    cases Call.hands c <;> rfl
  intro h
  induction h with
  | nil => intro rcs _ q _; exact ⟨by simp, by simp⟩
  | cons c h ih =>
    intro rcs hn q hq
    cases rcs with
    | nil => exact ⟨by simp, by simp⟩
    | cons rc rcs =>
      rw [hcons] at hn ⊢
      obtain ⟨h1, h2⟩ := ih rcs (List.nodup_append.mp hn).2.1 q hq
      rw [List.zip_cons_cons, List.countP_cons]
      by_cases hx : q (c, rc) = true
      · rw [if_pos hx]
        have he := hq _ hx
        dsimp only at he
        rw [he] at hn ⊢
        have : (h.zip rcs).countP q = 0 := by
          rcases Nat.eq_zero_or_pos ((h.zip rcs).countP q) with h0 | h0
          · exact h0
          · exact absurd rfl ((List.nodup_append.mp hn).2.2 t (by simp) t (h2 h0))
        exact ⟨by omega, fun _ => by simp⟩
      · rw [if_neg hx]
        exact ⟨by omega, fun hp => List.mem_append_right _ (h2 (by omega))⟩

theorem countP_zip_pos {h : List Call} {rcs : List Code} {k : Nat} {c : Call} {rc : Code} (hc : h[k]? = some c) (hr : rcs[k]? = some rc)
    (q : Call × Code → Bool) (hq : q (c, rc) = true) : 0 < (h.zip rcs).countP q := by
  refine List.countP_pos_iff.mpr ⟨(c, rc), ?_, hq⟩
  refine List.mem_of_getElem? (i := k) ?_
  rw [List.getElem?_zip_eq_some]
  exact ⟨hc, hr⟩

theorem nodup_map_inj {α β : Type} (f : α → β) : (l : List α) → (l.map f).Nodup → ∀ {x y}, x ∈ l → y ∈ l → f x = f y → x = y
  | [], _, _, _, h, _, _ => by cases h
  | z :: l, hn, x, y, hx, hy, he => by
    rw [List.map_cons, List.nodup_cons] at hn
    rcases List.mem_cons.mp hx with rfl | hx' <;> rcases List.mem_cons.mp hy with rfl | hy'
    · rfl
    · exact absurd (List.mem_map.mpr ⟨y, hy', he.symm⟩) hn.1
    · exact absurd (List.mem_map.mpr ⟨x, hx', he⟩) hn.1
    · exact nodup_map_inj f l hn.2 hx' hy' he

theorem owners_given {h : List Call} {t n n' : Nat} {d d' : Option Nat} (hn : (owners h).Nodup) (h1 : (t, d, n) ∈ given h) (h2 : (t, d', n') ∈ given h) :
    d = d' ∧ n = n' := by
  unfold owners at hn
  unfold given at h1 h2
  obtain ⟨x, hx, ex⟩ := List.mem_map.mp h1
  obtain ⟨y, hy, ey⟩ := List.mem_map.mp h2
  simp only [Prod.mk.injEq] at ex ey
  have : x = y := by
    refine nodup_map_inj _ _ hn hx hy ?_
    rw [ex.1, ey.1]
  subst this
  exact ⟨ex.2.1.symm.trans ey.2.1, ex.2.2.symm.trans ey.2.2⟩

theorem hands_given {h : List Call} {k : Nat} {c : Call} {t n : Nat} {d : Option Nat} {i : Int} (hc : h[k]? = some c)
    (hh : Call.hands c = some (t, d, n, i)) : (t, d, n) ∈ given h := by
  unfold given
  exact List.mem_map.mpr ⟨(t, d, n, i), List.mem_filterMap.mpr ⟨c, List.mem_of_getElem? hc, hh⟩, rfl⟩

theorem heldAll_gone {s : Sys} (h : AllGone s) (b : Block) : heldAll b s = 0 := by
  rw [heldAll_none h.1]
  have : s.arrays.filterMap id = [] := List.filterMap_eq_nil_iff.mpr fun a ha => h.2 a ha
  rw [this]
  rfl

/-- Somebody holds what was taken and not given back. -/
theorem holder {T : ATree BKind} {N : Nat} {s : Sys} {G : List (Nat × Option Nat × Nat)} (hi : Inv T N s G) {t : Nat} (h : 0 < heldAll (.given t) s) :
    ∃ d n, (t, d, n) ∈ G ∧ ((∃ i, BuilderHolds s t d n i) ∨ ∃ k, ArrayHolds s t d n k) := by
  have hpos : ∃ a ∈ s.live, 0 < held (.given t) a := by
    unfold heldAll at h
    generalize s.live = l at h
    induction l with
    | nil => cases h
    | cons a l ih =>
      rw [List.map_cons, List.sum_cons] at h
      rcases Nat.eq_zero_or_pos (held (.given t) a) with h0 | h0
      · obtain ⟨a', ha', hh⟩ := ih (by omega)
        exact ⟨a', List.mem_cons_of_mem _ ha', hh⟩
      · exact ⟨a, List.mem_cons_self, h0⟩
  obtain ⟨a, ha, hp⟩ := hpos
  unfold held at hp
  obtain ⟨p, hpm, hpb⟩ := List.countP_pos_iff.mp hp
  rw [decide_eq_true_eq] at hpb
  have ho : (a.bufs p).owner = some t := by
    unfold Buf.block at hpb
    cases ho : (a.bufs p).owner with
    | none => rw [ho] at hpb; cases hd : (a.bufs p).data <;> simp [hd] at hpb
    | some t' => rw [ho] at hpb; simpa using hpb
  refine ⟨_, _, hi.own a ha p t ho, ?_⟩
  unfold Sys.live at ha
  rcases List.mem_append.mp ha with ha | ha
  · cases hb : s.builder with
    | none => rw [hb] at ha; cases ha
    | some b =>
      rw [hb] at ha
      simp only [Option.map_some, Option.toList_some, List.mem_singleton] at ha
      subst ha
      obtain ⟨-, i, h1, h2⟩ := hi.placed b hb p t ho
      exact Or.inl ⟨i, b, p, hb, h1, h2, ho, rfl, rfl⟩
  · obtain ⟨o, h1, h2⟩ := List.mem_filterMap.mp ha
    simp only [id_eq] at h2
    subst h2
    obtain ⟨k, hk⟩ := List.getElem?_of_mem h1
    exact Or.inr ⟨k, a, p, hk, hpm, ho, rfl, rfl⟩

/-- Who holds is counted. -/
theorem held_pos {s : Sys} {t n : Nat} {d : Option Nat} (h : (∃ i, BuilderHolds s t d n i) ∨ ∃ k, ArrayHolds s t d n k) : 0 < heldAll (.given t) s := by
  have key : ∀ a ∈ s.live, ∀ p ∈ slotsOf [] a.tree, (a.bufs p).owner = some t → 0 < heldAll (.given t) s := by
    intro a ha p hp ho
    have h1 : 0 < held (.given t) a := by
      unfold held
      exact List.countP_pos_iff.mpr ⟨p, hp, by simp [Buf.block, ho]⟩
    unfold heldAll
    generalize s.live = l at ha
    induction l with
    | nil => cases ha
    | cons x l ih =>
      rw [List.map_cons, List.sum_cons]
      rcases List.mem_cons.mp ha with rfl | ha
      · omega
      · have := ih ha
        omega
  rcases h with ⟨i, b, p, hb, -, hs, ho, -, -⟩ | ⟨k, a, p, hk, hp, ho, -, -⟩
  · exact key b.arr (by rw [live_builder hb]; exact List.mem_cons_self) p (slot_mem hs) ho
  · exact key a (by
      unfold Sys.live
      exact List.mem_append_right _ (List.mem_filterMap.mpr ⟨some a, List.mem_of_getElem? hk, rfl⟩)) p hp ho

end Verif.Own
