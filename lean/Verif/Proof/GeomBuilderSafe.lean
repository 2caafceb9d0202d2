import Verif.Proof.GeomBuilder
import Verif.Proof.Hoare
/-! The geometry builder is memory safe for callbacks with valid types and dimensions. -/
namespace Verif
open Spec

def OwnPtr (blk : Nat) (p : Ptr) : Prop := p = emptyPtr ∨ p.blk = blk

structure OwnNode (blk : Nat) (n : Node) : Prop where
  level : n.level ≤ 30
  dims : 1 ≤ n.dims ∧ n.dims ≤ 4
  pa : OwnPtr blk n.coords.a
  pb : OwnPtr blk n.coords.b
  pc : OwnPtr blk n.coords.c
  pd : OwnPtr blk n.coords.d
  seq : n.gt = 1 ∨ n.gt = 2 → n.coords.a.blk = blk ∧ n.stride.a ≠ 0

/-- What every accepted callback preserves. -/
structure OwnB (b : GeomB) : Prop where
  blk : b.blk ≠ 0
  next : b.next ≠ 0
  level : b.level ≤ 31
  nodes : ∀ n ∈ b.nodes, OwnNode b.blk n

theorem movePtr_own {old : Nat} (new : Nat) {p : Ptr} (h : OwnPtr old p) : ∃ p', movePtr old new p = some p' ∧ OwnPtr new p' ∧
    (p.blk = old → old ≠ 0 → p'.blk = new) := by
  unfold movePtr
  rcases h with rfl | h
  · exact ⟨emptyPtr, if_pos rfl, .inl rfl, fun h1 h2 => absurd h1.symm h2⟩
  · by_cases he : p = emptyPtr
    · exact ⟨p, if_pos he, .inl he, fun h1 h2 => absurd (by rw [he] at h1; exact h1.symm) h2⟩
    · exact ⟨⟨new, p.off⟩, by rw [if_neg he, if_pos h], .inr rfl, fun _ _ => rfl⟩

theorem moveNode_own {old : Nat} (new : Nat) (hz : old ≠ 0) {n : Node} (h : OwnNode old n) :
    ∃ n', moveNode old new n = some n' ∧ OwnNode new n' := by
  obtain ⟨a, a1, a2, a3⟩ := movePtr_own new h.pa
  obtain ⟨b, b1, b2, _⟩ := movePtr_own new h.pb
  obtain ⟨c, c1, c2, _⟩ := movePtr_own new h.pc
  obtain ⟨d, d1, d2, _⟩ := movePtr_own new h.pd
  refine ⟨{ n with coords := ⟨a, b, c, d⟩ }, by simp [moveNode, a1, b1, c1, d1], ⟨h.level, h.dims, a2, b2, c2, d2, fun hg => ?_⟩⟩
  exact ⟨a3 (h.seq hg).1 hz, (h.seq hg).2⟩

theorem moveNodes_own {old : Nat} (new : Nat) (hz : old ≠ 0) {ns : List Node} (h : ∀ n ∈ ns, OwnNode old n) :
    ∃ ns', moveNodes old new ns = some ns' ∧ ∀ n ∈ ns', OwnNode new n := by
  induction ns with
  | nil => exact ⟨[], rfl, by simp⟩
  | cons n ns ih =>
    obtain ⟨n', h1, h2⟩ := moveNode_own new hz (h n (by simp))
    obtain ⟨ns', h3, h4⟩ := ih (fun x hx => h x (by simp [hx]))
    refine ⟨n' :: ns', by simp [moveNodes, h1, h3], ?_⟩
    intro x hx
    rcases List.mem_cons.mp hx with rfl | hx
    · exact h2
    · exact h4 x hx

theorem gbReserve_move {k : Int} {b : GeomB} {ns : List Node} (hm : moveNodes b.blk b.next b.nodes = some ns) :
    ∃ b', gbReserve k b = .ok () b' ∧ b'.level = b.level ∧ b'.data = b.data ∧ (b.data.length : Int) + k * 8 ≤ b'.cap ∧
      ((b'.blk = b.blk ∧ b'.nodes = b.nodes ∧ b'.next = b.next) ∨ (b'.blk = b.next ∧ b'.nodes = ns ∧ b'.next = b.next + 1)) := by
  unfold gbReserve
  split
  · rename_i hc
    rw [hm]
    refine ⟨_, rfl, rfl, rfl, ?_, .inr ⟨rfl, rfl, rfl⟩⟩
    simp only []
    split <;> omega
  · rename_i hc
    exact ⟨b, rfl, rfl, rfl, by omega, .inl ⟨rfl, rfl, rfl⟩⟩

theorem numDimensions_of_range {d : Nat} (h : 1 ≤ d ∧ d ≤ 4) : ∃ nv : Int, numDimensions d = some nv ∧ 2 ≤ nv ∧ nv ≤ 4 := by
  obtain rfl | rfl | rfl | rfl : d = 1 ∨ d = 2 ∨ d = 3 ∨ d = 4 := by omega
  · exact ⟨2, rfl, by decide, by decide⟩
  · exact ⟨3, rfl, by decide, by decide⟩
  · exact ⟨3, rfl, by decide, by decide⟩
  · exact ⟨4, rfl, by decide, by decide⟩

theorem moveNodes_append_one {old new : Nat} {ns : List Node} {n : Node} {ns' : List Node} {n' : Node}
    (h : moveNodes old new ns = some ns') (hn : moveNode old new n = some n') :
    moveNodes old new (ns ++ [n]) = some (ns' ++ [n']) := by
  induction ns generalizing ns' with
  | nil => simp [moveNodes] at h; subst h; simp [moveNodes, hn]
  | cons x ns ih =>
    simp only [moveNodes] at h
    cases hx : moveNode old new x with
    | none => simp [hx] at h
    | some x' =>
      cases hr : moveNodes old new ns with
      | none => simp [hx, hr] at h
      | some r =>
        simp [hx, hr] at h
        subst h
        simp [moveNodes, hx, ih hr]

theorem gbGeomStart_own {b : GeomB} (h : OwnB b) {gt dims : Nat} (hg : gt ≤ 7) (hd : 1 ≤ dims ∧ dims ≤ 4) :
    (gbGeomStart gt dims b).Post (fun _ b' => OwnB b') (fun _ _ => True) := by
  unfold gbGeomStart
  rw [M.bind_run, M.modify_run]
  have hgs : gt % 256 = gt := by omega
  have hds : dims % 256 = dims := by omega
  have hlv : b.level % 256 = b.level := by have := h.level; omega
  simp only [hgs, hds, hlv]
  by_cases hs : gt = 1 ∨ gt = 2
  · rw [if_pos hs]
    obtain ⟨nv, hnv, h2, h4⟩ := numDimensions_of_range hd
    simp only [hnv]
    let n0 : Node := { blankNode with gt := gt, dims := dims, level := b.level }
    obtain ⟨ns', hm, ho⟩ := moveNodes_own b.next h.blk h.nodes
    have hm' : moveNodes b.blk b.next (b.nodes ++ [n0]) = some (ns' ++ [n0]) := moveNodes_append_one hm rfl
    obtain ⟨b2, hr, e1, e2, e3, e4⟩ := gbReserve_move (k := nv) (b := { b with nodes := b.nodes ++ [n0] }) hm'
    have key : ∃ init, b2.nodes = init ++ [n0] ∧ (∀ n ∈ init, OwnNode b2.blk n) ∧ b2.blk ≠ 0 ∧ b2.next ≠ 0 := by
      rcases e4 with ⟨k1, k2, k3⟩ | ⟨k1, k2, k3⟩
      · exact ⟨b.nodes, k2, by rw [k1]; exact h.nodes, by rw [k1]; exact h.blk, by rw [k3]; exact h.next⟩
      · exact ⟨ns', k2, by rw [k1]; exact ho, by rw [k1]; exact h.next, by rw [k3]; exact Nat.succ_ne_zero _⟩
    obtain ⟨init, i1, i2, i3, i4⟩ := key
    have hbind : ∀ {f : Unit → M GeomB Unit} {Q E}, (f () b2).Post Q E → ((gbReserve nv >>= f) { b with nodes := b.nodes ++ [n0] }).Post Q E := by
      intro f Q E hf
      rw [M.bind_ok hr]; exact hf
    apply hbind
    rw [M.bind_run, M.modify_run]
    simp only []
    rw [M.bind_run, M.get_run]
    simp only []
    rw [e1]
    by_cases hl : b.level = 31
    · rw [if_pos hl]; trivial
    · rw [if_neg hl]
      have hlev := h.level
      refine ⟨i3, i4, ?_, ?_⟩
      · show b.level + 1 ≤ 31
        omega
      · have hlast : (init ++ [n0]).getLastD blankNode = n0 := by simp
        simp only [i1, setLast_append, hlast]
        intro n hn
        rcases List.mem_append.mp hn with hn | hn
        · exact i2 n hn
        · simp only [List.mem_singleton] at hn
          subst hn
          refine ⟨?_, hd, ?_, ?_, ?_, ?_, fun _ => ⟨?_, ?_⟩⟩ <;>
            simp only [seqNode, Quad.ofFn, Quad.get, OwnPtr, n0]
          · omega
          · rw [if_pos (by omega)]; exact .inr rfl
          · rw [if_pos (by omega)]; exact .inr rfl
          · split
            · exact .inr rfl
            · exact .inl rfl
          · split
            · exact .inr rfl
            · exact .inl rfl
          · rw [if_pos (by omega)]
          · rw [if_pos (by omega)]; omega
  · rw [if_neg hs]
    rw [M.bind_run, M.get_run]
    simp only []
    by_cases hl : b.level = 31
    · rw [if_pos hl]; trivial
    · rw [if_neg hl]
      have hlev := h.level
      refine ⟨h.blk, h.next, ?_, ?_⟩
      · simp only []; omega
      · intro n hn
        rcases List.mem_append.mp hn with hn | hn
        · exact h.nodes n hn
        · simp only [List.mem_singleton] at hn
          subst hn
          exact ⟨by simp only []; omega, hd, .inl rfl, .inl rfl, .inl rfl, .inl rfl, fun h' => absurd h' hs⟩

theorem rollNode_own {blk : Nat} {n : Node} (h : OwnNode blk n) {st : RollSt} (hf : st.fin.blk = blk) :
    ∃ n' st', rollNode n st = some (n', st') ∧ OwnNode blk n' ∧ st'.fin.blk = blk := by
  have hl := h.level
  unfold rollNode
  rw [if_neg (by omega)]
  simp only []
  by_cases hg : n.gt = 1 ∨ n.gt = 2
  · obtain ⟨s1, s2⟩ := h.seq hg
    rw [if_pos hg, if_neg (by rw [hf, s1]; simp [s2])]
    exact ⟨_, _, rfl, ⟨h.level, h.dims, h.pa, h.pb, h.pc, h.pd, h.seq⟩, s1⟩
  · rw [if_neg hg]
    split
    · rw [if_neg (by omega)]
      exact ⟨_, _, rfl, ⟨h.level, h.dims, h.pa, h.pb, h.pc, h.pd, h.seq⟩, hf⟩
    · exact ⟨_, _, rfl, h, hf⟩

theorem rollNodes_own {blk : Nat} {ns : List Node} (h : ∀ n ∈ ns, OwnNode blk n) {st : RollSt} (hf : st.fin.blk = blk) :
    ∃ ns' st', rollNodes ns st = some (ns', st') ∧ (∀ n ∈ ns', OwnNode blk n) ∧ st'.fin.blk = blk := by
  induction ns with
  | nil => exact ⟨[], st, rfl, by simp, hf⟩
  | cons n ns ih =>
    obtain ⟨ns', st', h1, h2, h3⟩ := ih (fun x hx => h x (by simp [hx]))
    obtain ⟨n', st'', h4, h5, h6⟩ := rollNode_own (h n (by simp)) h3
    refine ⟨n' :: ns', st'', by simp [rollNodes, h1, h4], ?_, h6⟩
    intro x hx
    rcases List.mem_cons.mp hx with rfl | hx
    · exact h5
    · exact h2 x hx

theorem gbClose_own {b : GeomB} (h : OwnB b) : (gbClose b).Post (fun _ b' => OwnB b') (fun _ _ => True) := by
  unfold gbClose
  rw [M.bind_run, M.get_run]
  simp only []
  split
  · trivial
  · have := h.level
    exact ⟨h.blk, h.next, by simp only []; omega, h.nodes⟩

theorem gbCoords_own {b : GeomB} (h : OwnB b) {nv : Nat} {cs : List Coord} (hc : ∀ c ∈ cs, c.length = nv) :
    (gbCoords nv cs b).Post (fun _ b' => OwnB b') (fun _ _ => True) := by
  unfold gbCoords
  rw [M.bind_run, M.get_run]
  dsimp only
  cases hn : b.nodes with
  | nil => trivial
  | cons n ns =>
    dsimp only
    obtain ⟨ns', hm, ho⟩ := moveNodes_own b.next h.blk h.nodes
    obtain ⟨b2, hr, e1, e2, e3, e4⟩ := gbReserve_move (k := (cs.length : Int) * nv) (b := b) hm
    rw [M.bind_ok hr]
    have hlen : (cs.flatMap fun c => c.flatMap Dbl.bytes).length = cs.length * nv * 8 := by
      clear e3 hr
      induction cs with
      | nil => simp
      | cons c cs ih =>
        rw [List.flatMap_cons, List.length_append, ih (fun x hx => hc x (by simp [hx])), List.length_cons, Nat.succ_mul, Nat.add_mul]
        have : (c.flatMap Dbl.bytes).length = c.length * 8 := by
          clear ih hc
          induction c with
          | nil => rfl
          | cons v c ih => rw [List.flatMap_cons, List.length_append, ih, Dbl.length_bytes, List.length_cons]; omega
        rw [this, hc c (by simp)]
        omega
    rw [if_neg (by
      rw [hlen, e2]
      rw [show (cs.length : Int) * nv * 8 = ((cs.length * nv * 8 : Nat) : Int) by simp] at e3
      omega)]
    have hlev := h.level
    rcases e4 with ⟨k1, k2, k3⟩ | ⟨k1, k2, k3⟩
    · exact ⟨by simp only [k1]; exact h.blk, by simp only [k3]; exact h.next, by simp only [e1]; exact hlev,
        by simp only [k1, k2]; exact h.nodes⟩
    · exact ⟨by simp only [k1]; exact h.next, by simp only [k3]; exact Nat.succ_ne_zero _, by simp only [e1]; exact hlev,
        by simp only [k1, k2]; exact ho⟩

theorem geomBuilder_own {b : GeomB} (h : OwnB b) {e : Event} (he : BuilderEvent e) :
    (geomBuilder e b).Post (fun _ b' => OwnB b') (fun _ _ => True) := by
  cases e with
  | featStart => exact ⟨h.blk, h.next, Nat.zero_le _, by simp⟩
  | nullFeat => exact he.elim
  | geomStart gt dims => exact gbGeomStart_own h he.1 he.2
  | coords nv cs => exact gbCoords_own h he
  | ringEnd => exact gbClose_own h
  | geomEnd => exact gbClose_own h
  | ringStart =>
    show (gbRingStart b).Post _ _
    unfold gbRingStart
    rw [M.bind_run, M.get_run]
    dsimp only
    cases hl : b.nodes.getLast? with
    | none => trivial
    | some last =>
      exact gbGeomStart_own h (by omega) (h.nodes last (List.mem_of_getLast? hl)).dims
  | featEnd =>
    show (gbFeatEnd b).Post _ _
    unfold gbFeatEnd
    obtain ⟨ns', st', h1, h2, _⟩ := rollNodes_own h.nodes (st := ⟨⟨b.blk, b.data.length⟩, fun _ => 0⟩) rfl
    cases hn : b.nodes with
    | nil => trivial
    | cons n ns =>
      dsimp only
      rw [← hn]
      split
      · exact h
      · rw [h1]
        exact ⟨h.blk, h.next, h.level, h2⟩

end Verif
