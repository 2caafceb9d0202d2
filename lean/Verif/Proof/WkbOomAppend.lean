import Verif.Spec.WkbOomAppend
import Verif.Proof.WkbOomRun
import Verif.Proof.WkbAppend
/-!
# Appending views whose requests for memory may be refused
-/
namespace Verif.WOom
open Verif Spec
open Verif.Oom (ENOMEM)

variable {mem : Nat → Bool} {junk : Nat → Nat → Bool}

theorem wkbAppend_bind (a b : List Byte) : (wkbAppend a >>= fun _ => wkbAppend b) = wkbAppend (a ++ b) := by
  funext s
  rw [M.bind_run]
  simp only [wkbAppend, M.modify_run, List.append_assoc]

theorem Sim.then {x y : M OWkb Unit} {a b : List Byte} (h : Sim mem x (wkbAppend a)) (h' : Sim mem y (wkbAppend b)) :
    Sim mem (x >>= fun _ => y) (wkbAppend (a ++ b)) := by
  rw [← wkbAppend_bind]
  exact Sim.bind h fun _ => h'

/-- The two attempts do what reserving and appending does. -/
theorem sequence_eq {m : Mem} {node : Node} {d : Dims} {cs : List Coord} (h : SeqDenotes m node d cs) (hw : d.n * cs.length < 2 ^ 32)
    {s : OWkb} (hi : Inv s) : sequence mem m node s = valuesAppend mem (wkbCoords false cs) s := by
  have hlen : (wkbCoords false cs).length = 8 * d.n * cs.length := by rw [← interleaved_eq]; exact length_interleaved h.2.2.2.1
  have big : ∀ k, 8 * d.n * cs.length ≤ k → ∃ dst, nodeWriteSequence m node (List.replicate k 0) = some (8 * d.n * cs.length, dst) ∧
      dst.take (8 * d.n * cs.length) = wkbCoords false cs := by
    intro k hk
    refine ⟨_, nodeWriteSequence_eq h hw _ (by simpa using hk), ?_⟩
    simp only [splice, List.take_zero, List.nil_append]
    rw [← length_interleaved h.2.2.2.1, List.take_left]
    rfl
  have small : ∀ k, k < 8 * d.n * cs.length → ∃ dst, nodeWriteSequence m node (List.replicate k 0) = some (8 * d.n * cs.length, dst) := by
    intro k hk
    refine ⟨List.replicate k 0, ?_⟩
    unfold nodeWriteSequence
    rw [h.1, nvals_code, h.2.1]
    have hreq : u32 (d.n * cs.length) * 8 = 8 * d.n * cs.length := by
      rw [u32_of_lt hw, Nat.mul_comm, ← Nat.mul_assoc]
    simp only []
    rw [hreq, if_pos (by simpa using hk)]
  have hf := hi.fits
  unfold valuesAppend
  rw [M.bind_run, hlen]
  unfold sequence
  by_cases hr : 8 * d.n * cs.length ≤ s.valuesCap - s.w.values.length
  · obtain ⟨dst, e, e'⟩ := big _ hr
    have hres : valuesReserve mem (8 * d.n * cs.length) s = .ok () s := by
      unfold valuesReserve; rw [if_pos (by omega)]
    rw [e, hres]
    simp only [hr, if_true, e']
    unfold valuesUnsafe
    rw [if_pos (by rw [hlen]; omega)]
  · obtain ⟨dst, e⟩ := small _ (Nat.lt_of_not_le hr)
    rw [e]
    simp only [hr, if_false]
    unfold valuesReserve
    rw [if_neg (by omega)]
    by_cases hm : mem s.asked = true
    · rw [if_pos hm]
      have hg := growByFactor_ge s.valuesCap (s.w.values.length + 8 * d.n * cs.length)
      simp only []
      obtain ⟨dst', e2, e3⟩ := big (growByFactor s.valuesCap (s.w.values.length + 8 * d.n * cs.length) - s.w.values.length) (by omega)
      rw [e2]
      simp only []
      rw [if_pos (by omega), e3]
      unfold valuesUnsafe
      rw [if_pos (by simp only [hlen]; omega)]
    · rw [if_neg hm]

theorem sim_sequence {m : Mem} {node : Node} {d : Dims} {cs : List Coord} (h : SeqDenotes m node d cs) (hw : d.n * cs.length < 2 ^ 32) :
    Sim mem (sequence mem m node) (wkbAppend (wkbCoords false cs)) := by
  intro ex s b hi hr
  rw [sequence_eq h hw hi]
  exact sim_values _ ex s b hi hr

theorem sim_header {node : Node} {k : Nat} {d : Dims} (hg : node.gt = k) (hd : node.dims = d.code) (hk : k ≤ 7) :
    Sim mem (nodeHeader mem node) (wkbAppend (isoHeader k d)) := by
  have := Sim.then (sim_values (mem := mem) [1]) (sim_values (mem := mem) (leBytes 4 (wkbTypeCode node.gt node.dims)))
  have h := header_eq [] hk d
  rw [List.nil_append, List.nil_append] at h
  rw [hg, hd, h] at this
  unfold nodeHeader
  rw [hg, hd]
  exact this

theorem sim_count (n : Nat) : Sim mem (valuesAppend mem (leBytes 4 n)) (wkbAppend (wkbU32 false n)) := sim_values _

theorem sim_rings {m : Mem} {d : Dims} {rest : List Node} {c : List Byte} (hc : Sim mem (appendNodes mem m rest 0) (wkbAppend c)) (rs : List (List Coord)) :
    ∀ (ns : List Node), RingsDenote m d rs ns → (∀ r ∈ rs, d.n * r.length < 2 ^ 32) →
    Sim mem (appendNodes mem m (ns ++ rest) rs.length) (wkbAppend (wkbRings false rs ++ c)) := by
  induction rs with
  | nil => intro ns h _; simp only [RingsDenote] at h; subst h; simpa [wkbRings] using hc
  | cons r rs ih =>
    intro ns h hs
    obtain ⟨n, ns', rfl, hg, hd, hr⟩ := h
    simp only [List.cons_append, appendNodes, List.length_cons, Nat.zero_lt_succ, if_true, Nat.add_sub_cancel]
    have := Sim.then (sim_count (mem := mem) n.size) (Sim.then (sim_sequence hd (hs r (by simp))) (ih ns' hr (fun r hr => hs r (by simp [hr]))))
    rw [hd.2.1] at this
    rw [hd.2.1]
    simpa [wkbRings] using this

mutual
theorem sim_geom {m : Mem} {rest : List Node} : ∀ (g : Geom) (ns : List Node) {c : List Byte}, Sim mem (appendNodes mem m rest 0) (wkbAppend c) →
    g.Denoted m ns → g.SmallSeqs → Sim mem (appendNodes mem m (ns ++ rest) 0) (wkbAppend (isoWkb g ++ c))
  | .point d cs, ns, c, hc, h, hs => by
    obtain ⟨n, rfl, hg, hd⟩ := h
    simp only [List.cons_append, List.nil_append, appendNodes, Nat.lt_irrefl, if_false, hg, if_true]
    have hh := sim_header (mem := mem) hg hd.1 (by omega)
    by_cases h0 : cs = []
    · subst h0
      rw [hd.2.1, hd.1]
      simp only [List.length_nil, if_true, nvals_code]
      have := Sim.then hh (Sim.then (sim_values (mem := mem) (emptyPointCoords.take (8 * d.n))) hc)
      simp only [isoWkb, if_true]
      rw [empty_eq] at *
      simpa using this
    · rw [if_neg (by rw [hd.2.1]; simpa using h0)]
      have := Sim.then hh (Sim.then (sim_sequence hd hs) hc)
      simpa [isoWkb, h0] using this
  | .linestring d cs, ns, c, hc, h, hs => by
    obtain ⟨n, rfl, hg, hd⟩ := h
    simp only [List.cons_append, List.nil_append, appendNodes, Nat.lt_irrefl, if_false, hg, if_true, Nat.reduceEqDiff]
    have := Sim.then (sim_header (mem := mem) hg hd.1 (by omega)) (Sim.then (sim_count n.size) (Sim.then (sim_sequence hd hs) hc))
    rw [hd.2.1] at this ⊢
    simpa [isoWkb] using this
  | .polygon d rs, ns, c, hc, h, hs => by
    obtain ⟨n, ns', rfl, hg, hdm, hsz, _, hr⟩ := h
    simp only [List.cons_append, appendNodes, Nat.lt_irrefl, if_false, hg, if_true, Nat.reduceEqDiff]
    have := Sim.then (sim_header (mem := mem) hg hdm (by omega)) (Sim.then (sim_count n.size) (sim_rings hc rs ns' hr hs))
    rw [hsz] at this ⊢
    simpa [isoWkb] using this
  | .multi k d ps, ns, c, hc, h, hs => by
    obtain ⟨n, ns', rfl, hg, hdm, hsz, _, hr⟩ := h
    have hk : 4 ≤ k.code ∧ k.code ≤ 7 := by cases k <;> simp [MultiKind.code]
    simp only [List.cons_append, appendNodes, Nat.lt_irrefl, if_false, hg]
    rw [if_neg (by omega), if_neg (by omega), if_neg (by omega), if_pos hk]
    have := Sim.then (sim_header (mem := mem) hg hdm hk.2) (Sim.then (sim_count n.size) (sim_geoms ps ns' hc hr hs))
    rw [hsz] at this ⊢
    simpa [isoWkb] using this
theorem sim_geoms {m : Mem} {rest : List Node} : ∀ (gs : List Geom) (ns : List Node) {c : List Byte}, Sim mem (appendNodes mem m rest 0) (wkbAppend c) →
    Geom.DenotedL m gs ns → Geom.SmallSeqsL gs → Sim mem (appendNodes mem m (ns ++ rest) 0) (wkbAppend (isoWkbL gs ++ c))
  | [], ns, c, hc, h, _ => by simp only [Geom.DenotedL] at h; subst h; simpa [isoWkbL] using hc
  | g :: gs, ns, c, hc, h, hs => by
    obtain ⟨n1, n2, rfl, h1, h2⟩ := h
    have := sim_geom (rest := n2 ++ rest) g n1 (sim_geoms gs n2 hc h2 hs.2) h1 hs.1
    simpa [isoWkbL] using this
end

/-- Appending a view, memory or not. -/
theorem good_view {m : Mem} {v : View} {g : Geom} (h : ViewDenotes m v g) (hs : g.SmallSeqs) {ex : Prop} {s : OWkb} {b : WkbW} (hi : Inv s) (hr : Rel ex s b) :
    Good mem ex s (appendView mem junk m v s)
      (.ok () { b with offsets := b.offsets ++ [toI32 b.values.length], values := b.values ++ isoWkb g, length := b.length + 1,
                       validity := bitsAppendValid b.validity }) := by
  have hn : Sim mem (appendNodes mem m v.nodes 0) (wkbAppend (isoWkb g)) := by
    have := sim_geom (mem := mem) (rest := []) g v.nodes (c := []) (by
      intro ex s b hi hr
      have := Sim.pure (mem := mem) () ex s b hi hr
      have e : wkbAppend [] b = (pure () : M WkbW Unit) b := by simp only [wkbAppend, M.modify_run, List.append_nil]; rfl
      rw [e]
      exact this) h hs
    simpa using this
  have hv := rel_validity hr
  have h1 : Sim mem (offsetsAppend mem (toI32 s.w.values.length) >>= fun _ => appendNodes mem m v.nodes 0 >>= fun _ =>
      lift (M.modify fun w => { w with length := w.length + 1 }) >>= fun _ => bitsValid mem junk)
      ((M.modify fun w => { w with offsets := w.offsets ++ [toI32 s.w.values.length] }) >>= fun _ => wkbAppend (isoWkb g) >>= fun _ =>
        (M.modify fun w => { w with length := w.length + 1 }) >>= fun _ => M.modify fun b => { b with validity := bitsAppendValid b.validity }) :=
    Sim.bind (sim_offsets _) fun _ => Sim.bind hn fun _ => Sim.bind (Sim.lift (blind_modify (fun _ _ => rfl) (fun _ => ⟨rfl, rfl⟩))) fun _ =>
      sim_bitsValid
  have h2 := h1 ex s b hi hr
  have h3 : ((M.modify fun w => { w with offsets := w.offsets ++ [toI32 s.w.values.length] }) >>= fun _ => wkbAppend (isoWkb g) >>= fun _ =>
        (M.modify fun w => { w with length := w.length + 1 }) >>= fun _ => M.modify fun b => { b with validity := bitsAppendValid b.validity } : M WkbW Unit) b =
      .ok () { b with offsets := b.offsets ++ [toI32 b.values.length], values := b.values ++ isoWkb g, length := b.length + 1,
                       validity := bitsAppendValid b.validity } := by
    rw [M.bind_run]
    simp only [M.modify_run]
    rw [M.bind_run]
    simp only [wkbAppend, M.modify_run]
    rw [M.bind_run]
    simp only [M.modify_run, hv.1]
  rw [h3] at h2
  exact h2

/-- What a call does, of any kind. -/
structure StepV (mem : Nat → Bool) (ex : Prop) (o : Option Geom) (s : OWkb) (b : WkbW) (rc : Code) (s' : OWkb) : Prop where
  inv : Inv s'
  asked : s.asked ≤ s'.asked
  code : (rc = 0 ∧ Granted mem s s' ∧ ∃ b', Rel ex s' b' ∧ Adds (wanted o) b b') ∨ (rc = ENOMEM ∧ Refused mem s s') ∨
    (rc = EOVERFLOW ∧ Granted mem s s' ∧ 2147483647 < b.values.length)

theorem says_stepV {c : WkbCallV} {o : Option Geom} (h : c.Says o) {ex : Prop} {s : OWkb} {b : WkbW} (hi : Inv s) (hr : Rel ex s b) :
    ∃ rc s', c.run mem junk s = some ((rc, none), s') ∧ StepV mem ex o s b rc s' := by
  cases h with
  | call h =>
    obtain ⟨rc, s', e, st⟩ := says_step (mem := mem) (junk := junk) h hi hr
    exact ⟨rc, s', e, st.inv, st.asked, st.code⟩
  | @append m v g h hs =>
    have hg := good_view (mem := mem) (junk := junk) h hs hi hr
    cases hx : appendView mem junk m v s with
    | ok a s' =>
      rw [hx] at hg
      obtain ⟨b', h1, h2, h3, h4⟩ := hg
      cases h1
      exact ⟨0, s', by simp only [WkbCallV.run, hx], h2, h4.1, Or.inl ⟨rfl, h4, _, h3, rfl, rfl, rfl, rfl, rfl⟩⟩
    | err rc s' =>
      rw [hx] at hg
      obtain ⟨h1, h2, h3⟩ := hg
      refine ⟨rc, s', by simp only [WkbCallV.run, hx], h1, h2, ?_⟩
      rcases h3 with h3 | ⟨_, b', e⟩
      · exact Or.inr (Or.inl h3)
      · cases e
    | ub => rw [hx] at hg; cases hg

theorem runsV_inv {c : WkbCallV} {cs s rs s'} (h : wkbRunsV mem junk (c :: cs) s = some (rs, s')) :
    ∃ r s1 rs1, c.run mem junk s = some (r, s1) ∧ wkbRunsV mem junk cs s1 = some (rs1, s') ∧ rs = r :: rs1 := by
  unfold wkbRunsV at h
  cases e : c.run mem junk s with
  | none => rw [e] at h; cases h
  | some p =>
    rw [e] at h
    simp only [Option.map_eq_some_iff, Prod.mk.injEq] at h
    obtain ⟨⟨rs1, s2⟩, e2, e3, e4⟩ := h
    simp only [] at e3 e4
    subst e3 e4
    exact ⟨p.1, p.2, rs1, rfl, e2, rfl⟩

theorem fine_runV : ∀ (cs : List WkbCallV) (gs : List (Option Geom)), SayAllV cs gs → ∀ {ex : Prop} {s : OWkb} {b : WkbW}, Inv s → Rel ex s b →
    ∀ {rs s'}, wkbRunsV mem junk cs s = some (rs, s') → AllFine rs →
    ∃ b', Rel ex s' b' ∧ Inv s' ∧ Granted mem s s' ∧ b'.values = b.values ++ elemBytes (gs.map wanted) ∧ b'.length = b.length + gs.length ∧
      b'.offsets.length = b.offsets.length + gs.length ∧
      (b'.values.length ≤ 2147483647 → b'.offsets = b.offsets ++ starts b.values.length (gs.map wanted) ∧
        ∀ els, b.Has els → b'.Has (els ++ gs.map wanted))
  | [], [], _, ex, s, b, hi, hr, rs, s', hw, _ => by
    cases hw
    exact ⟨b, hr, hi, Granted.refl s, by simp [elemBytes], rfl, rfl, fun _ => ⟨by simp [starts], fun els h => by simpa using h⟩⟩
  | c :: cs, g :: gs, h, ex, s, b, hi, hr, rs, s', hw, hf => by
    obtain ⟨rc, s1, e1, st⟩ := says_stepV (mem := mem) (junk := junk) h.1 hi hr
    obtain ⟨r, s1', rs1, e2, e3, e4⟩ := runsV_inv hw
    rw [e1] at e2
    cases e2
    subst e4
    have h0 : rc = 0 := hf (rc, none) (by simp)
    have hcode : rc = 0 ∧ Granted mem s s1 ∧ ∃ b', Rel ex s1 b' ∧ Adds (wanted g) b b' := by
      rcases st.code with h | ⟨h, _⟩ | ⟨h, _⟩
      · exact h
      · rw [h0] at h; exact absurd h (by decide)
      · rw [h0] at h; exact absurd h (by decide)
    obtain ⟨_, hg1, b1, hr1, ad⟩ := hcode
    obtain ⟨b2, r2, i2, g2, v2, l2, ol2, o2⟩ := fine_runV cs gs h.2 st.inv hr1 e3 (fun r hr => hf r (by simp [hr]))
    have hv : b2.values = b.values ++ elemBytes ((g :: gs).map wanted) := by
      rw [v2, ad.values, List.append_assoc]
      congr 1
    refine ⟨b2, r2, i2, hg1.trans g2, hv, by rw [l2, ad.length, List.length_cons]; omega,
      by rw [ol2, ad.offsets]; simp only [List.length_append, List.length_cons, List.length_nil]; omega, fun hl => ?_⟩
    obtain ⟨p1, p2⟩ := o2 hl
    have hb : b.values.length ≤ 2147483647 := by
      have : b2.values.length = b.values.length + (elemBytes ((g :: gs).map wanted)).length := by rw [hv, List.length_append]
      omega
    refine ⟨?_, fun els he => ?_⟩
    · rw [p1, ad.offsets, ad.values, toI32_of_le hb, List.length_append, List.append_assoc]
      rfl
    · have := p2 (els ++ [wanted g]) ?_
      · rw [List.append_assoc] at this; exact this
      · have ho : b1.offsets = b.offsets ++ [(b.values.length : Int)] := by rw [ad.offsets, toI32_of_le hb]
        cases hw : wanted g with
        | none =>
          rw [hw] at ad
          have hval : some b1.validity = (bitsAppendNull b.validity (b.length + 1)).map some := ad.validity
          exact has_null he (by rw [← he.length]; exact hval) ho (by simpa using ad.values) ad.length ad.nulls
        | some bs =>
          rw [hw] at ad
          exact has_some he (Option.some.inj ad.validity) ho ad.values ad.length ad.nulls
  | [], _ :: _, h, _, _, _, _, _, _, _, _, _ => h.elim
  | _ :: _, [], h, _, _, _, _, _, _, _, _, _ => h.elim

theorem enough_runV (hm : ∀ k, mem k = true) : ∀ (cs : List WkbCallV) (gs : List (Option Geom)), SayAllV cs gs → ∀ {s : OWkb} {b : WkbW}, Inv s →
    Rel True s b → b.values.length + (elemBytes (gs.map wanted)).length ≤ 2147483647 → ∃ rs s', wkbRunsV mem junk cs s = some (rs, s') ∧ AllFine rs
  | [], [], _, s, b, _, _, _ => ⟨[], s, rfl, fun r h => absurd h (by simp)⟩
  | c :: cs, g :: gs, h, s, b, hi, hr, hl => by
    obtain ⟨rc, s1, e1, st⟩ := says_stepV (mem := mem) (junk := junk) h.1 hi hr
    have hv : (elemBytes ((g :: gs).map wanted)).length = ((wanted g).getD []).length + (elemBytes (gs.map wanted)).length := by simp [elemBytes]
    rcases st.code with ⟨h0, _, b1, r1, ad⟩ | ⟨_, k, _, _, hk⟩ | ⟨_, _, h0⟩
    · obtain ⟨rs, s', e2, f2⟩ := enough_runV hm cs gs h.2 st.inv r1 (by rw [ad.values, List.length_append]; omega)
      refine ⟨(rc, none) :: rs, s', by unfold wkbRunsV; rw [e1]; simp only [e2, Option.map_some], ?_⟩
      intro r hr
      rcases List.mem_cons.1 hr with rfl | hr
      · exact h0
      · exact f2 r hr
    · rw [hm k] at hk; cases hk
    · omega
  | [], _ :: _, h, _, _, _, _, _ => h.elim
  | _ :: _, [], h, _, _, _, _, _ => h.elim

theorem proper_stepV {c : WkbCallV} (hp : c.Proper) {s : OWkb} (hi : Inv s) :
    (∃ r s', c.run mem junk s = some (r, s') ∧ Inv s') ∨
    (c = .call .finish ∧ ∃ k, s.asked ≤ k ∧ k ≤ s.asked + 1 ∧ mem k = true ∧ mem (k + 1) = false) := by
  cases c with
  | append m v =>
    obtain ⟨g, h, hs⟩ := hp
    obtain ⟨rc, s1, e1, st⟩ := says_stepV (mem := mem) (junk := junk) (.append h hs) hi (rel_self s)
    exact Or.inl ⟨_, s1, e1, st.inv⟩
  | call c =>
    rcases proper_run (mem := mem) (junk := junk) [c] (fun c' h => by rw [List.mem_singleton.1 h]; exact hp) hi with
      ⟨rs, s', e, i⟩ | ⟨pre, post, rs, s', e, e', h⟩
    · obtain ⟨r, s1, rs1, e1, e2, _⟩ := wkbRuns_inv e
      cases e2
      exact Or.inl ⟨r, _, e1, i⟩
    · cases pre with
      | nil =>
        cases e'
        have : c = .finish := (List.cons.inj e).1
        exact Or.inr ⟨by rw [this], h⟩
      | cons p pre =>
        have := congrArg List.length e
        simp at this

theorem proper_runV : ∀ (cs : List WkbCallV), (∀ c ∈ cs, c.Proper) → ∀ {s : OWkb}, Inv s →
    (∃ rs s', wkbRunsV mem junk cs s = some (rs, s') ∧ Inv s') ∨
    (∃ pre post rs s', cs = pre ++ .call .finish :: post ∧ wkbRunsV mem junk pre s = some (rs, s') ∧
      ∃ k, s'.asked ≤ k ∧ k ≤ s'.asked + 1 ∧ mem k = true ∧ mem (k + 1) = false)
  | [], _, s, hi => Or.inl ⟨[], s, rfl, hi⟩
  | c :: cs, hp, s, hi => by
    rcases proper_stepV (mem := mem) (junk := junk) (hp c (by simp)) hi with ⟨r, s1, e, i⟩ | ⟨rfl, k⟩
    · rcases proper_runV cs (fun c h => hp c (by simp [h])) i with ⟨rs, s', e', i'⟩ | ⟨pre, post, rs, s', e', e2, k⟩
      · exact Or.inl ⟨r :: rs, s', by unfold wkbRunsV; rw [e]; simp only [e', Option.map_some], i'⟩
      · exact Or.inr ⟨c :: pre, post, r :: rs, s', by rw [e']; rfl, by unfold wkbRunsV; rw [e]; simp only [e2, Option.map_some], k⟩
    · exact Or.inr ⟨[], cs, [], s, rfl, rfl, k⟩

theorem proper_invV {cs : List WkbCallV} (hp : ∀ c ∈ cs, c.Proper) {s : OWkb} (hi : Inv s) {rs s'} (h : wkbRunsV mem junk cs s = some (rs, s')) : Inv s' := by
  induction cs generalizing s rs with
  | nil => cases h; exact hi
  | cons c cs ih =>
    obtain ⟨r, s1, rs1, e1, e2, _⟩ := runsV_inv h
    rcases proper_stepV (mem := mem) (junk := junk) (hp c (by simp)) hi with ⟨r', s1', e, i⟩ | ⟨rfl, _⟩
    · rw [e1] at e
      cases e
      exact ih (fun c h => hp c (by simp [h])) i e2
    · exact ih (fun c h => hp c (by simp [h])) (step_inv (junk := junk) (c := .finish) hi e1) e2

theorem any_runV : ∀ (cs : List WkbCallV), (∀ c ∈ cs, c.Proper) → .call .finish ∉ cs → ∀ {s : OWkb}, Inv s → ∀ {rs s'},
    wkbRunsV mem junk cs s = some (rs, s') → NoViewRefused cs rs → Inv s' ∧ Short s s'
  | [], _, _, s, hi, rs, s', h, _ => by cases h; exact ⟨hi, fun x => x⟩
  | c :: cs, hp, hn, s, hi, rs, s', h, hv => by
    obtain ⟨r, s1, rs1, e1, e2, rfl⟩ := runsV_inv h
    have step : Inv s1 ∧ Short s s1 := by
      cases c with
      | call c =>
        exact any_run (mem := mem) (junk := junk) [c] (fun h => hn (by rw [List.mem_singleton.1 h]; simp)) hi (rs := [r]) (s' := s1) (by
          have e1 : c.run mem junk s = some (r, s1) := e1
          unfold wkbRuns; rw [e1]; rfl)
      | append m v =>
        obtain ⟨g, hd, hs⟩ := hp (.append m v) (by simp)
        obtain ⟨rc, s1', e, st⟩ := says_stepV (mem := mem) (junk := junk) (.append hd hs) hi (rel_self s)
        rw [e1] at e
        cases e
        refine ⟨st.inv, fun x => ?_⟩
        have h0 : rc = 0 := hv.1
        rcases st.code with ⟨_, _, b1, r1, ad⟩ | ⟨h, _⟩ | ⟨h, _⟩
        · have hq := r1.like
          have el : b1.length = s1.w.length := by rw [hq]
          have eo : b1.offsets = s1.w.offsets := by rw [hq]
          rw [← el, ← eo, ad.offsets, ad.length, List.length_append, List.length_singleton]
          omega
        · rw [h0] at h; cases h
        · rw [h0] at h; cases h
    obtain ⟨i2, sh2⟩ := any_runV cs (fun c h => hp c (by simp [h])) (fun h => hn (by simp [h])) step.1 e2 (by
      cases c with
      | call c => exact hv
      | append m v => exact hv.2)
    exact ⟨i2, step.2.trans sh2⟩

/-! ## No nulls -/

def Clean (s s' : OWkb) : Prop := NoNulls s → NoNulls s'

theorem clean_bind {α β : Type} {x : M OWkb α} {f : α → M OWkb β} (h : Keeps Clean x) (hf : ∀ a, Keeps Clean (f a)) : Keeps Clean (x >>= f) :=
  Keeps.bind (R := Clean) (fun _ _ _ h h' n => h' (h n)) h hf

theorem clean_reserve (n : Nat) : Keeps Clean (valuesReserve mem n) := by
  intro s
  unfold valuesReserve
  by_cases h : s.w.values.length + n ≤ s.valuesCap
  · rw [if_pos h]; exact id
  · rw [if_neg h]
    cases mem s.asked <;> exact id

theorem clean_values (bs : List Byte) : Keeps Clean (valuesAppend mem bs) := by
  refine clean_bind (clean_reserve _) fun _ s => ?_
  unfold valuesUnsafe
  by_cases h : s.w.values.length + bs.length ≤ s.valuesCap
  · rw [if_pos h]; exact id
  · rw [if_neg h]; trivial

theorem clean_offsets (o : Int) : Keeps Clean (offsetsAppend mem o) := by
  intro s
  unfold offsetsAppend
  simp only []
  by_cases h2 : 4 * s.w.offsets.length + 4 ≤ s.offsetsCap
  · rw [if_pos h2]; exact id
  · rw [if_neg h2]
    cases mem s.asked <;> exact id

theorem clean_sequence (m : Mem) (node : Node) : Keeps Clean (sequence mem m node) := by
  intro s
  unfold sequence
  cases nodeWriteSequence m node (List.replicate (s.valuesCap - s.w.values.length) 0) with
  | none => trivial
  | some p =>
    obtain ⟨required, dst⟩ := p
    simp only []
    by_cases h : required ≤ s.valuesCap - s.w.values.length
    · rw [if_pos h]; exact id
    · rw [if_neg h]
      have h1 := clean_reserve (mem := mem) required s
      revert h1
      cases valuesReserve mem required s with
      | ub => exact id
      | err rc s' => exact id
      | ok a s' =>
        intro h1
        show Out (Clean s) (match nodeWriteSequence m node (List.replicate (s'.valuesCap - s'.w.values.length) 0) with
          | none => .ub
          | some (required, dst) =>
            if required ≤ s'.valuesCap - s'.w.values.length then
              .ok () { s' with w := { s'.w with values := s'.w.values ++ dst.take required } }
            else .ub : Res OWkb Unit)
        cases nodeWriteSequence m node (List.replicate (s'.valuesCap - s'.w.values.length) 0) with
        | none => trivial
        | some q =>
          obtain ⟨r2, d2⟩ := q
          simp only []
          by_cases h2 : r2 ≤ s'.valuesCap - s'.w.values.length
          · rw [if_pos h2]; exact h1
          · rw [if_neg h2]; trivial

theorem clean_header (node : Node) : Keeps Clean (nodeHeader mem node) := clean_bind (clean_values _) fun _ => clean_values _

theorem clean_nodes (m : Mem) : ∀ (ns : List Node) (rings : Nat), Keeps Clean (appendNodes mem m ns rings)
  | [], _ => fun _ => id
  | node :: ns, rings => by
    unfold appendNodes
    split
    · exact clean_bind (clean_values _) fun _ => clean_bind (clean_sequence _ _) fun _ => clean_nodes m ns _
    split
    · refine clean_bind (clean_header _) fun _ => clean_bind ?_ fun _ => clean_nodes m ns _
      split
      · split
        · exact fun _ => trivial
        · exact clean_values _
      · exact clean_sequence _ _
    split
    · exact clean_bind (clean_header _) fun _ => clean_bind (clean_values _) fun _ => clean_bind (clean_sequence _ _) fun _ => clean_nodes m ns _
    split
    · exact clean_bind (clean_header _) fun _ => clean_bind (clean_values _) fun _ => clean_nodes m ns _
    split
    · exact clean_bind (clean_header _) fun _ => clean_bind (clean_values _) fun _ => clean_nodes m ns _
    · exact fun _ => id

theorem clean_view (m : Mem) (v : View) : Keeps Clean (appendView mem junk m v) := by
  refine clean_bind (fun _ => id) fun s0 => clean_bind (clean_offsets _) fun _ => clean_bind (clean_nodes m _ _) fun _ =>
    clean_bind (fun _ => id) fun _ s => ?_
  unfold bitsValid
  by_cases h : NoNulls s
  · rw [if_neg (by rw [h.1]; simp)]; exact id
  · cases hx : (if s.w.validity.isSome then _ else _ : Res OWkb Unit) with
    | ok _ s' => exact fun n => absurd n h
    | err _ s' => exact fun n => absurd n h
    | ub => trivial

theorem clean_runV : ∀ (cs : List WkbCallV), (∀ c ∈ cs, c.FeedsNoNull) → ∀ {s : OWkb}, NoNulls s →
    ∀ {rs s'}, wkbRunsV mem junk cs s = some (rs, s') → NoNulls s'
  | [], _, s, h, rs, s', hw => by cases hw; exact h
  | c :: cs, hc, s, h, rs, s', hw => by
    obtain ⟨r, s1, rs1, e, e', _⟩ := runsV_inv hw
    refine clean_runV cs (fun c h => hc c (List.mem_cons_of_mem _ h)) ?_ e'
    have hc := hc c (List.mem_cons_self ..)
    cases c with
    | call c =>
      exact clean_run (mem := mem) (junk := junk) [c] (fun c' h => by rw [List.mem_singleton.1 h]; exact hc) h (rs := [r]) (s' := s1) (by
        have e : c.run mem junk s = some (r, s1) := e
        unfold wkbRuns; rw [e]; rfl)
    | append m v =>
      have h1 := clean_view (mem := mem) (junk := junk) m v s
      unfold WkbCallV.run at e
      revert h1 e
      simp only []
      cases appendView mem junk m v s with
      | ok _ s2 => intro e h1; cases e; exact h1 h
      | err _ s2 => intro e h1; cases e; exact h1 h
      | ub => intro e h1; cases e

end Verif.WOom
