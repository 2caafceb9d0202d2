import Verif.Proof.KernelLife
/-!
# Histories of calls on kernels
-/
namespace Verif.Life
open Verif

/-- All blocks a client and its kernel have. -/
def World.blocks (w : World) : List Nat := optBlocks Kernel.blocks w.kernel ++ heldBlocks w.held

/-- What holds all along. -/
def World.Inv (w : World) : Prop :=
  ∀ k, w.kernel = some k → k.Good ∧ (k.visits = true → w.started = true) ∧ (w.ready = true → k.Writes) ∧ (w.started = false → k.Fresh)

theorem eqv_give (w : World) (k : Kernel) (o : Option Obj) (lost : List Nat) :
    Eqv (optBlocks Obj.blocks o ++ (k.blocks ++ lost) ++ heldBlocks w.held) ((w.give k o).blocks ++ lost) := by
  cases o with
  | none => unfold World.blocks World.give; simp only [optBlocks]; cnt
  | some o => unfold World.blocks World.give; simp only [optBlocks, Option.toList_some, List.cons_append, List.nil_append, heldBlocks]; cnt

theorem held_get : ∀ (os : List Obj) (i : Nat) (o : Obj), os[i]? = some o → Eqv (heldBlocks os) (o.blocks ++ heldBlocks (os.eraseIdx i))
  | [], _, _, h => by simp at h
  | x :: os, 0, o, h => by
    simp only [List.getElem?_cons_zero, Option.some.injEq] at h
    subst h
    exact fun _ => rfl
  | x :: os, i + 1, o, h => by
    rw [List.getElem?_cons_succ] at h
    have := held_get os i o h
    intro a
    have ha := this a
    simp only [List.eraseIdx_cons_succ, heldBlocks, List.count_append] at ha ⊢
    omega

/-- One call. -/
theorem does_call (c : Call) (w : World) (hi : w.Inv) (ha : c.Allowed w) :
    Does (c.run w) w.blocks fun r l => ∃ lost, l = r.2.blocks ++ lost ∧ r.2.Inv ∧
      (∀ cs, OneStart w.started (c :: cs) → OneStart r.2.started cs ∧ lost = []) := by
  cases c with
  | init k =>
    have hk : w.kernel = none := ha
    refine (does_kernelInit k).step (R := heldBlocks w.held) (by unfold World.blocks; rw [hk]; simp only [optBlocks]; cnt) fun x l hl => ?_
    obtain ⟨rfl, hg, _, hv, hn, _⟩ := hl
    refine Does.pure (l := (x.blocks ++ heldBlocks w.held) ++ []) (by cnt) ⟨[], rfl, ?_, fun cs h => ⟨h, rfl⟩⟩
    intro k' hk'
    cases hk'
    exact ⟨hg, (fun h => by rw [hv] at h; cases h), (fun h => by cases h), fun _ p hp => (hn p hp).1⟩
  | start o =>
    cases hk : w.kernel with
    | none => exact absurd hk ha
    | some k =>
      obtain ⟨hg, hv, hr, hf⟩ := hi k hk
      have e : w.on (Kernel.start o) = k.start o := by unfold World.on; rw [hk]
      show Does (w.on (Kernel.start o) >>= _) _ _
      rw [e]
      refine (does_start o k hg).step (R := heldBlocks w.held) (by unfold World.blocks; rw [hk]; simp only [optBlocks]; cnt) fun r l hl => ?_
      obtain ⟨lost, ⟨rfl, hg', hw'⟩, hl, hz, _⟩ := hl
      refine Does.pure (l := World.blocks { w.give r.2 r.1.2 with started := true, ready := w.ready || r.1.1 == 0 } ++ lost) (eqv_give w r.2 r.1.2 lost) ⟨lost, rfl, ?_, ?_⟩
      · intro k' hk'
        cases hk'
        refine ⟨hg', fun _ => rfl, fun h => ?_, fun h => by cases h⟩
        rcases (Bool.or_eq_true _ _).mp h with h | h
        · exact hw' (hr h)
        · exact hz (by simpa using h)
      · intro cs h
        exact ⟨h.2.2, hl (hf h.1) h.2.1⟩
  | push o =>
    obtain ⟨k, hk, ho, hs⟩ := ha
    obtain ⟨hg, hv, hr, hf⟩ := hi k hk
    have e : w.on (Kernel.push o) = k.push o := by unfold World.on; rw [hk]
    show Does (w.on (Kernel.push o) >>= _) _ _
    rw [e]
    refine (does_push o k hg ho fun h hf => hr (hs hf (hv h)) hf).step (R := heldBlocks w.held) (by unfold World.blocks; rw [hk]; simp only [optBlocks]; cnt) fun r l hl => ?_
    obtain ⟨⟨rfl, hg', hw'⟩, hsv, hsf⟩ := hl
    refine Does.pure (l := World.blocks (w.give r.2 r.1.2) ++ []) (eqv_give w r.2 r.1.2 []) ⟨[], rfl, ?_, fun cs h => ⟨h, rfl⟩⟩
    intro k' hk'
    cases hk'
    exact ⟨hg', fun h => hv (by rw [← hsv]; exact h), fun h => hw' (hr h), fun h => hsf (hf h)⟩
  | finish o =>
    obtain ⟨k, hk, ho⟩ := ha
    obtain ⟨hg, hv, hr, hf⟩ := hi k hk
    have e : w.on (Kernel.finish o) = k.finish o := by unfold World.on; rw [hk]
    show Does (w.on (Kernel.finish o) >>= _) _ _
    rw [e]
    refine (does_finish o k hg ho).step (R := heldBlocks w.held) (by unfold World.blocks; rw [hk]; simp only [optBlocks]; cnt) fun r l hl => ?_
    obtain ⟨⟨rfl, hg', hw'⟩, hsv, hsf⟩ := hl
    refine Does.pure (l := World.blocks (w.give r.2 r.1.2) ++ []) (eqv_give w r.2 r.1.2 []) ⟨[], rfl, ?_, fun cs h => ⟨h, rfl⟩⟩
    intro k' hk'
    cases hk'
    exact ⟨hg', fun h => hv (by rw [← hsv]; exact h), fun h => hw' (hr h), fun h => hsf (hf h)⟩
  | release =>
    cases hk : w.kernel with
    | none => exact absurd hk ha
    | some k =>
      have e : w.on Kernel.release = k.release := by unfold World.on; rw [hk]
      show Does (w.on Kernel.release >>= _) _ _
      rw [e]
      refine (does_release k).step (R := heldBlocks w.held) (by unfold World.blocks; rw [hk]; simp only [optBlocks]; cnt) fun _ l hl => ?_
      subst hl
      exact Does.pure (l := (heldBlocks w.held) ++ []) (by cnt) ⟨[], rfl, (fun k' hk' => by cases hk'), fun cs h => ⟨h, rfl⟩⟩
  | drop i =>
    have hi' : i < w.held.length := ha
    have hg : w.held[i]? = some w.held[i] := List.getElem?_eq_getElem hi'
    have e : (Call.drop i).run w = (do w.held[i].release; pure (0, { w with held := w.held.eraseIdx i })) := by
      show (match w.held[i]? with | none => crash | some o => _) = _
      rw [hg]
    rw [e]
    refine (does_objRelease w.held[i]).step (R := optBlocks Kernel.blocks w.kernel ++ heldBlocks (w.held.eraseIdx i)) ?_ fun _ l hl => ?_
    · intro a
      have := held_get w.held i _ hg a
      unfold World.blocks
      simp only [List.count_append] at this ⊢
      omega
    · subst hl
      exact Does.pure (l := World.blocks { w with held := w.held.eraseIdx i } ++ []) (by unfold World.blocks; cnt) ⟨[], rfl, hi, fun cs h => ⟨h, rfl⟩⟩

/-- Many calls. -/
theorem runs_all : ∀ (cs : List Call) (w : World) (h : Heap) (rest : List Nat), w.Inv → Obeys cs w h → Own h (w.blocks ++ rest) →
    ∃ r h' lost, runCalls cs w h = some (r, h') ∧ Own h' (r.2.blocks ++ (lost ++ rest)) ∧ r.2.Inv ∧ (OneStart w.started cs → lost = [])
  | [], w, h, rest, hi, _, ho => ⟨([], w), h, [], rfl, ho, hi, fun _ => rfl⟩
  | c :: cs, w, h, rest, hi, hb, ho => by
    obtain ⟨r, h1, l, e1, o1, lost1, rfl, i1, s1⟩ := does_call c w hi hb.1 h rest ho
    obtain ⟨s, h2, lost2, e2, o2, i2, s2⟩ := runs_all cs r.2 h1 (lost1 ++ rest) i1 (hb.2 r h1 e1) (o1.eqv (by cnt))
    refine ⟨(r.1 :: s.1, s.2), h2, lost2 ++ lost1, ?_, o2.eqv (by cnt), i2, fun hs => ?_⟩
    · show (c.run w h).bind _ = _
      rw [e1]
      show (runCalls cs r.2 h1).bind _ = _
      rw [e2]
      rfl
    · obtain ⟨ha, hb'⟩ := s1 cs hs
      rw [s2 ha, hb']
      rfl

theorem own_of_exactly {h : Heap} {l : List Nat} (he : Exactly h l) (hs : h.Sound) : Own h l := by
  refine ⟨fun a => ?_, hs⟩
  by_cases ha : h.live a = true
  · rw [if_pos ha]
    have h1 := List.nodup_iff_count.mp he.2 a
    have h2 := List.count_pos_iff.mpr ((he.1 a).mp ha)
    omega
  · rw [if_neg ha]
    exact List.count_eq_zero.mpr fun hm => ha ((he.1 a).mpr hm)

theorem exactly_of_own {h : Heap} {l : List Nat} (ho : Own h l) : Exactly h l := by
  refine ⟨fun a => ?_, List.nodup_iff_count.mpr fun a => ?_⟩
  · rw [← List.count_pos_iff, ho.1 a]
    by_cases ha : h.live a = true
    · simp [ha]
    · simp [ha]
  · rw [ho.1 a]
    split <;> omega

theorem inv_empty : World.empty.Inv := fun _ h => by cases h

theorem leak_of {h h' : Heap} {others held lost : List Nat} (ho : Own h others) (ho' : Own h' (held ++ (lost ++ others))) (hl : lost ≠ []) :
    ∃ a, h.live a = false ∧ h'.live a = true ∧ a ∉ held := by
  obtain ⟨a, ha⟩ := List.exists_mem_of_ne_nil lost hl
  have h1 := ho'.1 a
  have h2 := ho.1 a
  have h3 := List.count_pos_iff.mpr ha
  simp only [List.count_append] at h1
  have h4 : h'.live a = true := by
    cases e : h'.live a with
    | true => rfl
    | false => rw [e] at h1; simp at h1; omega
  rw [h4] at h1
  simp only [if_true] at h1
  refine ⟨a, ?_, h4, fun hm => ?_⟩
  · cases e : h.live a with
    | false => rfl
    | true => rw [e] at h2; simp at h2; omega
  · have := List.count_pos_iff.mpr hm
    omega

theorem run_cons {c : Call} {cs : List Call} {w : World} {h h1 h2 : Heap} {r : Code × World} {s : List Code × World} (e1 : c.run w h = some (r, h1))
    (e2 : runCalls cs r.2 h1 = some (s, h2)) : runCalls (c :: cs) w h = some ((r.1 :: s.1, s.2), h2) := by
  show (c.run w h).bind _ = _
  rw [e1]
  show (runCalls cs r.2 h1).bind _ = _
  rw [e2]
  rfl

theorem run_cons_none {c : Call} {cs : List Call} {w : World} {h h1 : Heap} {r : Code × World} (e1 : c.run w h = some (r, h1))
    (e2 : runCalls cs r.2 h1 = none) : runCalls (c :: cs) w h = none := by
  show (c.run w h).bind _ = _
  rw [e1]
  show (runCalls cs r.2 h1).bind _ = _
  rw [e2]
  rfl

theorem run_init {k : Kind} {h h1 : Heap} {x : Kernel} (e : Kernel.init k h = some (x, h1)) (held : List Obj) :
    (Call.init k).run ⟨none, false, false, held⟩ h = some ((0, ⟨some x, false, false, held⟩), h1) := by
  show (Kernel.init k h).bind _ = _
  rw [e]
  rfl

theorem run_start {o : Start} {h h1 : Heap} {k : Kernel} {s r : Bool} {held : List Obj} {x : (Code × Option Obj) × Kernel} (e : k.start o h = some (x, h1)) :
    (Call.start o).run ⟨some k, s, r, held⟩ h = some ((x.1.1, ⟨some x.2, true, r || x.1.1 == 0, x.1.2.toList ++ held⟩), h1) := by
  show (k.start o h).bind _ = _
  rw [e]
  rfl

theorem run_release {h h1 : Heap} {k : Kernel} {s r : Bool} {held : List Obj} (e : k.release h = some ((), h1)) :
    Call.release.run ⟨some k, s, r, held⟩ h = some ((0, ⟨none, s, r, held⟩), h1) := by
  show (k.release h).bind _ = _
  rw [e]
  rfl

theorem held_opt (o : Option Obj) (held : List Obj) : heldBlocks (o.toList ++ held) = optBlocks Obj.blocks o ++ heldBlocks held := by
  cases o <;> rfl

/-- Starting twice loses the first reader. -/
theorem restart_leaks (k : Kind) (h1 : k ≠ .void) (h2 : k ≠ .voidAgg) (o1 o2 : Start) (a1 : o1.view = 0 ∧ o1.refused = 0) (a2 : o2.view = 0 ∧ o2.refused = 0)
    (h : Heap) (others : List Nat) (ho : Own h others) :
    ∃ r h', runCalls [.init k, .start o1, .start o2, .release] World.empty h = some (r, h') ∧ r.2.kernel = none ∧
      ∃ a, h.live a = false ∧ h'.live a = true ∧ a ∉ heldBlocks r.2.held := by
  obtain ⟨x, g0, l, e0, w0, rfl, good0, _, _, hn, hp⟩ := does_kernelInit k h others ho
  obtain ⟨y, g1, l, e1, w1, lost1, ⟨rfl, good1, _⟩, _, _, acc1⟩ := does_start o1 x good0 g0 others w0
  obtain ⟨⟨p1, hp1, hr1⟩, _, _⟩ := acc1 ⟨hp h1 h2, a1⟩
  obtain ⟨z, g2, l, e2, w2, lost2, ⟨rfl, good2, _⟩, _, _, acc2⟩ := does_start o2 y.2 good1 g1 (optBlocks Obj.blocks y.1.2 ++ (lost1 ++ others)) (w1.eqv (by cnt))
  obtain ⟨_, hl2, _⟩ := acc2 ⟨by rw [hp1]; rfl, a2⟩
  have hl2 := hl2 fun hf => by rw [hf p1 hp1] at hr1; cases hr1
  obtain ⟨u, g3, l, e3, w3, rfl⟩ := does_release z.2 g2 (optBlocks Obj.blocks z.1.2 ++ (lost2 ++ (optBlocks Obj.blocks y.1.2 ++ (lost1 ++ others)))) (w2.eqv (by cnt))
  refine ⟨_, g3, run_cons (run_init e0 []) (run_cons (run_start e1) (run_cons (run_start e2) (run_cons (run_release e3) rfl))), rfl, ?_⟩
  refine leak_of (lost := lost2 ++ lost1) ho (w3.eqv ?_) fun hl => hl2 (List.append_eq_nil_iff.mp hl).1
  intro a
  simp only [held_opt, List.count_append, List.nil_append, heldBlocks, List.count_nil]
  omega

/-- An unsupported type of output loses a block. -/
theorem unsupported_leaks (o : Start) (a : o.view = 0 ∧ o.refused = 0) (ha : o.args = 0) (hl : o.out = .large)
    (h : Heap) (others : List Nat) (ho : Own h others) :
    ∃ r h', runCalls [.init .asGeoarrow, .start o, .release] World.empty h = some (r, h') ∧ r.2.kernel = none ∧
      ∃ a, h.live a = false ∧ h'.live a = true ∧ a ∉ heldBlocks r.2.held := by
  obtain ⟨x, g0, l, e0, w0, rfl, good0, hk, _, hn, hp⟩ := does_kernelInit .asGeoarrow h others ho
  obtain ⟨y, g1, l, e1, w1, lost1, ⟨rfl, good1, _⟩, _, _, acc1⟩ := does_start o x good0 g0 others w0
  obtain ⟨_, _, hl1⟩ := acc1 ⟨hp (by decide) (by decide), a⟩
  have hl1 := hl1 hl ha (fun p hp => (hn p hp).2) hk
  obtain ⟨u, g3, l, e3, w3, rfl⟩ := does_release y.2 g1 (optBlocks Obj.blocks y.1.2 ++ (lost1 ++ others)) (w1.eqv (by cnt))
  refine ⟨_, g3, run_cons (run_init e0 []) (run_cons (run_start e1) (run_cons (run_release e3) rfl)), rfl, ?_⟩
  refine leak_of (lost := lost1) ho (w3.eqv ?_) hl1
  intro a
  simp only [held_opt, List.count_append, List.nil_append, heldBlocks, List.count_nil]
  omega

theorem bind_crash {α β : Type} (x : H α) (f : α → H β) (h : Heap) (hf : ∀ a h', x h = some (a, h') → f a h' = none) : (x >>= f) h = none := by
  show (x h).bind _ = none
  cases e : x h with
  | none => rfl
  | some p => exact hf p.1 p.2 e

/-- An `as_geoarrow` kernel that has a reader but no writer fails on the first batch that is visited. -/
theorem push_no_writer (o : Push) (p : Priv) (rd : Reader) (hr : p.reader = some rd) (hw : p.writer = none) (hs : o.set = 0) (hv : o.visit = 0) (h : Heap) :
    Kernel.push o ⟨.asGeoarrow, some p, true⟩ h = none := by
  rw [push_priv o _ p rfl (fun h => by cases h), if_pos rfl, hr]
  show (if o.set ≠ 0 then _ else _ : H _) h = none
  rw [if_neg (by rw [hs]; decide)]
  refine bind_crash _ _ _ fun rd' h' _ => bind_crash _ _ _ fun p' h'' e => ?_
  have : p'.writer = none := by
    unfold visitInto at e
    simp only [hw] at e
    cases e
    rfl
  rw [if_neg (by rw [hv]; decide)]
  refine bind_crash _ _ _ fun r h3 e3 => ?_
  unfold finishPush at e3
  simp only [this] at e3
  cases e3

/-- Pushing after an options error of `start`. -/
theorem push_after_failed (o1 : Start) (a1 : o1.view = 0 ∧ o1.refused = 0) (ha : o1.args ≠ 0) (o2 : Push) (hs : o2.set = 0) (hv : o2.visit = 0) (h : Heap)
    (others : List Nat) (ho : Own h others) : runCalls [.init .asGeoarrow, .start o1, .push o2] World.empty h = none := by
  obtain ⟨x, g0, l, e0, w0, rfl, good0, hk, _, hn, hp⟩ := does_kernelInit .asGeoarrow h others ho
  refine run_cons_none (run_init e0 []) ?_
  obtain ⟨kind, priv, vis⟩ := x
  cases hk
  cases priv with
  | none => cases hp (by decide) (by decide)
  | some p =>
    obtain ⟨r, g1, l, e1, w1, rfl, _, hok⟩ := does_readerInit o1.parser o1.refused g0 _ w0
    obtain ⟨rd, rfl⟩ := hok a1.2
    have es : Kernel.start o1 ⟨.asGeoarrow, some p, vis⟩ g0 = some (((o1.args, none), ⟨.asGeoarrow, some { p with reader := some rd }, true⟩), g1) := by
      show (if o1.view ≠ 0 then _ else _ : H _) g0 = _
      rw [if_neg (by rw [a1.1]; decide)]
      show (Reader.init o1.parser o1.refused g0).bind _ = _
      rw [e1]
      show ((if o1.args ≠ 0 then _ else _ : H _) g1).bind _ = _
      rw [if_pos ha]
      rfl
    refine run_cons_none (run_start es) ?_
    have hc := push_no_writer o2 { p with reader := some rd } rd rfl (hn p rfl).2 hs hv g1
    have : ∀ s r held, (Call.push o2).run ⟨some ⟨.asGeoarrow, some { p with reader := some rd }, true⟩, s, r, held⟩ g1 = none := by
      intro s r held
      refine bind_crash _ _ _ fun a h' e => ?_
      have e : Kernel.push o2 ⟨.asGeoarrow, some { p with reader := some rd }, true⟩ g1 = some (a, h') := e
      rw [hc] at e
      cases e
    refine bind_crash _ _ _ fun a h' e => ?_
    have e := (this _ _ _).symm.trans e
    cases e

end Verif.Life
