import Verif.Proof.Visit
import Verif.Spec.Layout
/-! Structure of node arrays accepted by the visit; regularity; fuel irrelevance. -/
namespace Verif
open Spec

theorem regular_lastChunk (m node nv n cache) : Regular (fun _ h => visitLastChunk m h nv node n cache) := by
  cases hw : nodeWriteSequence m { node with size := n } cache with
  | none => exact ⟨[], .crash, fun σ h s => by simp only [visitLastChunk, hw]; rfl⟩
  | some p => exact ⟨_, _, fun σ h s => by simp only [visitLastChunk, hw]; exact Behaves.call _ σ h s⟩

theorem regular_loop (m nv chunk fuel) : ∀ node n cache,
    Regular (fun _ h => visitSequenceLoop m h nv chunk fuel node n cache) := by
  induction fuel with
  | zero => intro node n cache; exact regular_lastChunk m node nv n cache
  | succ fuel ih =>
    intro node n cache
    simp only [visitSequenceLoop]
    by_cases hlt : chunk < n
    · simp only [hlt, if_true]
      cases hw : nodeWriteSequence m { node with size := chunk } cache with
      | none => exact Regular.undef
      | some p => exact Regular.bind (Regular.call _) (f := fun _ _ _ => _) (fun _ => ih _ _ _)
    · simp only [hlt, if_false]
      exact regular_lastChunk m node nv n cache

theorem regular_sequence (m node) : Regular (fun _ h => visitSequence m h node) := by
  simp only [visitSequence]
  cases nvals node.dims with
  | none => exact Regular.undef
  | some nv => exact regular_loop _ _ _ _ _ _ _

theorem regular_rings (m nodes k) : ∀ idx, Regular (fun _ h => visitRings m h nodes k idx) := by
  induction k with
  | zero => intro idx; exact Regular.pure ()
  | succ k ih =>
    intro idx
    simp only [visitRings]
    refine Regular.bind (Regular.call _) (f := fun _ _ _ => _) (fun _ => ?_)
    cases nodes[idx]? with
    | none => exact Regular.bind (Regular.undef (α := Unit)) (f := fun _ _ _ => _) (fun _ =>
        Regular.bind (Regular.call _) (f := fun _ _ _ => _) (fun _ => ih _))
    | some r => exact Regular.bind (regular_sequence m r) (f := fun _ _ _ => _) (fun _ =>
        Regular.bind (Regular.call _) (f := fun _ _ _ => _) (fun _ => ih _))

theorem regular_children {vn : ∀ σ : Type, Handler σ → Nat → Int → M σ Int}
    (hvn : ∀ idx n, Regular (fun _ h => vn _ h idx n)) (k : Nat) : ∀ idx n,
    Regular (fun _ h => visitChildren (vn _ h) k idx n) := by
  induction k with
  | zero => intro idx n; exact Regular.pure n
  | succ k ih =>
    intro idx n
    simp only [visitChildren]
    exact Regular.bind (hvn idx n) (f := fun _ h n' => visitChildren (vn _ h) k (idx + (n - n').toNat) n')
      (fun n' => ih _ n')

theorem regular_node (m nodes fuel) : ∀ idx n, Regular (fun _ h => visitNode m h nodes fuel idx n) := by
  induction fuel with
  | zero => intro idx n; exact Regular.undef
  | succ fuel ih =>
    intro idx n
    simp only [visitNode]
    cases nodes[idx]? with
    | none => exact Regular.undef
    | some node =>
      simp only []
      refine Regular.bind (Regular.call _) (f := fun _ _ _ => _) (fun _ => ?_)
      by_cases h1 : node.gt = 1 ∨ node.gt = 2
      · simp only [h1, if_true]
        exact Regular.bind (regular_sequence m node) (f := fun _ _ _ => _) (fun _ =>
          Regular.bind (Regular.call _) (f := fun _ _ _ => pure (n - 1)) (fun _ => Regular.pure _))
      · simp only [h1, if_false]
        by_cases h3 : node.gt = 3
        · simp only [h3, if_true]
          by_cases hl : n - 1 < node.size
          · simp only [hl, if_true]; exact Regular.fail _
          · simp only [hl, if_false]
            exact Regular.bind (regular_rings m nodes _ _) (f := fun _ _ _ => _) (fun _ =>
              Regular.bind (Regular.call _) (f := fun _ _ _ => pure (n - 1 - (node.size : Int)))
                (fun _ => Regular.pure _))
        · simp only [h3, if_false]
          by_cases h4 : 4 ≤ node.gt ∧ node.gt ≤ 7
          · simp only [h4, and_self, if_true]
            refine Regular.bind (regular_children (vn := fun _ h => visitNode m h nodes fuel) ih _ _ _)
              (f := fun _ hh n' => do hh .geomEnd; pure n') (fun n' => ?_)
            exact Regular.bind (Regular.call _) (f := fun _ _ _ => pure n') (fun _ => Regular.pure _)
          · simp only [h4, if_false]; exact Regular.fail _

theorem regular_view (m v) : Regular (fun _ h => viewVisit m h v) := by
  simp only [viewVisit]
  refine Regular.bind (Regular.call _) (f := fun _ _ _ => _) (fun _ => ?_)
  refine Regular.bind (regular_node _ _ _ _ _) (f := fun _ hh n => if n ≠ 0 then M.fail EINVAL else hh .featEnd)
    (fun n => ?_)
  by_cases hn : n ≠ 0
  · simp only [hn, ne_eq, not_false_eq_true, if_true]; exact Regular.fail _
  · simp only [hn, if_false]; exact Regular.call _

/-! ## success implies a complete layout -/

theorem visitRings_ok {σ m} {h : Handler σ} {nodes k idx s s'} (hr : visitRings m h nodes k idx s = .ok () s') :
    k = 0 ∨ idx + k ≤ nodes.length := by
  induction k generalizing idx s with
  | zero => exact Or.inl rfl
  | succ k ih =>
    right
    simp only [visitRings] at hr
    obtain ⟨_, s1, _, hr⟩ := M.bind_eq_ok.mp hr
    cases hg : nodes[idx]? with
    | none => rw [hg] at hr; cases hr
    | some r =>
      rw [hg] at hr
      have hlt := (List.getElem?_eq_some_iff.mp hg).1
      obtain ⟨_, s2, h2, hr⟩ := M.bind_eq_ok.mp hr
      obtain ⟨_, s3, _, hr⟩ := M.bind_eq_ok.mp hr
      rcases ih hr with rfl | h
      · omega
      · omega

theorem take_drop_split {α} (l : List α) (i a b : Nat) :
    (l.drop i).take (a + b) = (l.drop i).take a ++ (l.drop (i + a)).take b := by
  rw [List.take_add, List.drop_drop]

theorem visitChildren_ok {σ} {nodes : List Node} {vn : Nat → Int → M σ Int}
    (hvn : ∀ idx n s n' s', vn idx n s = .ok n' s' →
      ∃ c : Nat, n' = n - c ∧ idx + c ≤ nodes.length ∧ Layout ((nodes.drop idx).take c)) (k : Nat) :
    ∀ idx n s n' s', idx ≤ nodes.length → visitChildren vn k idx n s = .ok n' s' →
      ∃ (c : Nat) (parts : List (List Node)), n' = n - c ∧ idx + c ≤ nodes.length ∧ parts.length = k ∧
        parts.flatten = (nodes.drop idx).take c ∧ ∀ p ∈ parts, Layout p := by
  induction k with
  | zero =>
    intro idx n s n' s' hidx h
    simp only [visitChildren, M.pure_run, Res.ok.injEq] at h
    exact ⟨0, [], by omega, by omega, rfl, by simp, by simp⟩
  | succ k ih =>
    intro idx n s n' s' _ h
    simp only [visitChildren] at h
    obtain ⟨n1, s1, h1, h2⟩ := M.bind_eq_ok.mp h
    obtain ⟨c1, e1, l1, lay1⟩ := hvn _ _ _ _ _ h1
    have hto : (n - n1).toNat = c1 := by omega
    rw [hto] at h2
    obtain ⟨c2, parts, e2, l2, len2, fl2, lay2⟩ := ih _ _ _ _ _ (by omega) h2
    refine ⟨c1 + c2, (nodes.drop idx).take c1 :: parts, by omega, by omega, by simp [len2], ?_, ?_⟩
    · simp only [List.flatten_cons, fl2]
      rw [take_drop_split]
    · intro p hp
      rcases List.mem_cons.mp hp with rfl | hp
      · exact lay1
      · exact lay2 p hp

theorem visitNode_ok {σ m} {h : Handler σ} {nodes : List Node} (fuel : Nat) : ∀ idx n s n' s',
    visitNode m h nodes fuel idx n s = .ok n' s' →
      ∃ c : Nat, n' = n - c ∧ idx + c ≤ nodes.length ∧ Layout ((nodes.drop idx).take c) := by
  induction fuel with
  | zero => intro idx n s n' s' hh; cases hh
  | succ fuel ih =>
    intro idx n s n' s' hh
    simp only [visitNode] at hh
    cases hg : nodes[idx]? with
    | none => rw [hg] at hh; cases hh
    | some node =>
      rw [hg] at hh
      simp only [] at hh
      obtain ⟨hlt, hnode⟩ := List.getElem?_eq_some_iff.mp hg
      have hdrop : nodes.drop idx = node :: nodes.drop (idx + 1) := by
        rw [List.drop_eq_getElem_cons hlt, hnode]
      obtain ⟨_, s1, _, hh⟩ := M.bind_eq_ok.mp hh
      by_cases h1 : node.gt = 1 ∨ node.gt = 2
      · simp only [h1, if_true] at hh
        obtain ⟨_, s2, _, hh⟩ := M.bind_eq_ok.mp hh
        obtain ⟨_, s3, _, hh⟩ := M.bind_eq_ok.mp hh
        simp only [M.pure_run, Res.ok.injEq] at hh
        refine ⟨1, by omega, by omega, ?_⟩
        rw [hdrop]
        simpa using Layout.seq node h1
      · simp only [h1, if_false] at hh
        by_cases h3 : node.gt = 3
        · simp only [h3, if_true] at hh
          by_cases hl : n - 1 < node.size
          · simp only [hl, if_true] at hh; cases hh
          · simp only [hl, if_false] at hh
            obtain ⟨_, s2, hr, hh⟩ := M.bind_eq_ok.mp hh
            obtain ⟨_, s3, _, hh⟩ := M.bind_eq_ok.mp hh
            simp only [M.pure_run, Res.ok.injEq] at hh
            have hr' := visitRings_ok hr
            refine ⟨1 + node.size, by omega, by omega, ?_⟩
            rw [hdrop, Nat.add_comm, List.take_succ_cons]
            refine Layout.polygon node _ h3 ?_
            simp; omega
        · simp only [h3, if_false] at hh
          by_cases h4 : 4 ≤ node.gt ∧ node.gt ≤ 7
          · simp only [h4, and_self, if_true] at hh
            obtain ⟨n1, s2, hc, hh⟩ := M.bind_eq_ok.mp hh
            obtain ⟨_, s3, _, hh⟩ := M.bind_eq_ok.mp hh
            simp only [M.pure_run, Res.ok.injEq] at hh
            obtain ⟨c, parts, e, l, len, fl, lay⟩ := visitChildren_ok (fun idx n s n' s' => ih idx n s n' s')
              _ _ _ _ _ _ (by omega) hc
            refine ⟨1 + c, by omega, by omega, ?_⟩
            rw [hdrop, Nat.add_comm, List.take_succ_cons, ← fl]
            exact Layout.multi node parts h4 len lay
          · simp only [h4, if_false] at hh; cases hh

theorem viewVisit_ok {σ m} {h : Handler σ} {v : View} {s s'} (hh : viewVisit m h v s = .ok () s') :
    Layout v.nodes := by
  simp only [viewVisit] at hh
  obtain ⟨_, s1, _, hh⟩ := M.bind_eq_ok.mp hh
  obtain ⟨n, s2, hn, hh⟩ := M.bind_eq_ok.mp hh
  obtain ⟨c, e, l, lay⟩ := visitNode_ok _ _ _ _ _ _ hn
  by_cases h0 : n ≠ 0
  · simp only [h0, ne_eq, not_false_eq_true, if_true] at hh; cases hh
  · have : c = v.nodes.length := by omega
    subst this
    simpa using lay

/-! ## fuel irrelevance -/

theorem visitChildren_congr {σ} {vn vn' : Nat → Int → M σ Int} {i0 : Nat}
    (hvn : ∀ idx n, i0 ≤ idx → vn idx n = vn' idx n) (k : Nat) :
    ∀ idx n, i0 ≤ idx → visitChildren vn k idx n = visitChildren vn' k idx n := by
  induction k with
  | zero => intro idx n _; rfl
  | succ k ih =>
    intro idx n hi
    simp only [visitChildren, hvn idx n hi]
    congr 1
    funext n'
    exact ih _ _ (by omega)

/-- The recursion bound of `visitNode` never matters once it exceeds the number of nodes left. -/
theorem visitNode_fuel {σ m} {h : Handler σ} {nodes : List Node} (f1 : Nat) : ∀ f2 idx n,
    nodes.length < f1 + idx → nodes.length < f2 + idx →
    visitNode m h nodes f1 idx n = visitNode m h nodes f2 idx n := by
  induction f1 with
  | zero =>
    intro f2 idx n h1 h2
    have hg : nodes[idx]? = none := List.getElem?_eq_none (by omega)
    cases f2 with
    | zero => rfl
    | succ f2 => simp only [visitNode, hg]
  | succ f1 ih =>
    intro f2 idx n h1 h2
    cases f2 with
    | zero =>
      have hg : nodes[idx]? = none := List.getElem?_eq_none (by omega)
      simp only [visitNode, hg]
    | succ f2 =>
      simp only [visitNode]
      cases hg : nodes[idx]? with
      | none => rfl
      | some node =>
        simp only []
        have := visitChildren_congr (vn := visitNode m h nodes f1) (vn' := visitNode m h nodes f2)
          (i0 := idx + 1) (fun i n hi => ih f2 i n (by omega) (by omega)) node.size (idx + 1) (n - 1) (Nat.le_refl _)
        rw [this]

end Verif
