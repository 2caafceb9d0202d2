import Verif.Proof.VisitShape
/-! Visiting a well-formed layout never reports an error of its own. -/
namespace Verif
open Spec

/-- The reader either completes with the value or runs into memory outside the input; it never returns an error code
that the visitor did not produce. -/
def Fine {α} (p : ∀ σ : Type, Handler σ → M σ α) (a : α) : Prop := ∃ t, Behaves p t (.done a) ∨ Behaves p t .crash

theorem Fine.pure {α} (a : α) : Fine (fun _ _ => (Pure.pure a : M _ α)) a := ⟨_, Or.inl (Behaves.pure a)⟩
theorem Fine.call (e : Event) : Fine (fun _ h => h e) () := ⟨_, Or.inl (Behaves.call e)⟩
theorem Fine.undef {α} (a : α) : Fine (fun _ _ => (M.undef : M _ α)) a := ⟨_, Or.inr Behaves.undef⟩
theorem Fine.bind {α β} {p : ∀ σ : Type, Handler σ → M σ α} {f : ∀ σ : Type, Handler σ → α → M σ β} {a b}
    (hp : Fine p a) (hf : Fine (fun _ h => f _ h a) b) : Fine (fun _ h => p _ h >>= f _ h) b := by
  obtain ⟨t, hp | hp⟩ := hp
  · obtain ⟨t2, hf | hf⟩ := hf
    · exact ⟨_, Or.inl (Behaves.bind hp hf)⟩
    · exact ⟨_, Or.inr (Behaves.bind hp hf)⟩
  · exact ⟨_, Or.inr (Behaves.bind_crash hp)⟩

theorem fine_loop (m nv chunk fuel) : ∀ node n cache,
    Fine (fun _ h => visitSequenceLoop m h nv chunk fuel node n cache) () := by
  have hlast : ∀ node n cache, Fine (fun _ h => visitLastChunk m h nv node n cache) () := by
    intro node n cache
    simp only [visitLastChunk]
    cases nodeWriteSequence m { node with size := n } cache with
    | none => exact Fine.undef ()
    | some p => exact Fine.call _
  induction fuel with
  | zero => intro node n cache; exact hlast _ _ _
  | succ fuel ih =>
    intro node n cache
    simp only [visitSequenceLoop]
    by_cases hlt : chunk < n
    · simp only [hlt, if_true]
      cases nodeWriteSequence m { node with size := chunk } cache with
      | none => exact Fine.undef ()
      | some p => exact Fine.bind (Fine.call _) (f := fun _ _ _ => _) (ih _ _ _)
    · simp only [hlt, if_false]
      exact hlast _ _ _

theorem fine_sequence (m node) : Fine (fun _ h => visitSequence m h node) () := by
  simp only [visitSequence]
  cases nvals node.dims with
  | none => exact Fine.undef ()
  | some nv => exact fine_loop _ _ _ _ _ _ _

theorem fine_rings (m nodes k) : ∀ idx, Fine (fun _ h => visitRings m h nodes k idx) () := by
  induction k with
  | zero => intro idx; exact Fine.pure ()
  | succ k ih =>
    intro idx
    simp only [visitRings]
    refine Fine.bind (Fine.call _) (f := fun _ _ _ => _) ?_
    cases nodes[idx]? with
    | none =>
      exact Fine.bind (Fine.undef ()) (f := fun _ _ _ => _)
        (Fine.bind (Fine.call _) (f := fun _ _ _ => _) (ih _))
    | some r =>
      exact Fine.bind (fine_sequence m r) (f := fun _ _ _ => _)
        (Fine.bind (Fine.call _) (f := fun _ _ _ => _) (ih _))

theorem fine_children {nodes : List Node} {l : Nat} {vn : ∀ σ : Type, Handler σ → Nat → Int → M σ Int}
    (hvn : ∀ (idx : Nat) (n : Int) (ns rest : List Node), LayoutAt l ns → nodes.drop idx = ns ++ rest →
      (ns.length : Int) ≤ n → Fine (fun _ h => vn _ h idx n) (n - ns.length))
    (parts : List (List Node)) : ∀ (idx : Nat) (n : Int) (rest : List Node), (∀ p ∈ parts, LayoutAt l p) →
    nodes.drop idx = parts.flatten ++ rest → (parts.flatten.length : Int) ≤ n →
    Fine (fun _ h => visitChildren (vn _ h) parts.length idx n) (n - parts.flatten.length) := by
  induction parts with
  | nil => intro idx n rest _ _ _; simpa [visitChildren] using Fine.pure n
  | cons p ps ih =>
    intro idx n rest hp hd hn
    simp only [List.flatten_cons, List.length_append, List.append_assoc] at hd hn ⊢
    simp only [List.length_cons, visitChildren]
    have h1 := hvn idx n p _ (hp p (by simp)) hd (by omega)
    have hto : (n - (n - (p.length : Int))).toNat = p.length := by omega
    have hd2 : nodes.drop (idx + p.length) = ps.flatten ++ rest := by
      rw [← List.drop_drop, hd, List.drop_left]
    have h2 := ih (idx + p.length) (n - p.length) rest (fun q hq => hp q (by simp [hq])) hd2 (by omega)
    refine Fine.bind h1 (f := fun _ h n' => visitChildren (vn _ h) ps.length (idx + (n - n').toNat) n') ?_
    simp only [hto]
    have e : n - (p.length : Int) - (ps.flatten.length : Int) = n - ((p.length + ps.flatten.length : Nat) : Int) := by
      omega
    rw [e] at h2
    exact h2

theorem fine_node (m : Mem) (nodes : List Node) (fuel : Nat) : ∀ (l idx : Nat) (n : Int) (ns rest : List Node),
    LayoutAt l ns → nodes.drop idx = ns ++ rest → (ns.length : Int) ≤ n →
    Fine (fun _ h => visitNode m h nodes fuel idx n) (n - ns.length) := by
  induction fuel with
  | zero => intro l idx n ns rest _ _ _; exact Fine.undef _
  | succ fuel ih =>
    intro l idx n ns rest hl hd hn
    have hget : ∀ x xs, ns = x :: xs → nodes[idx]? = some x ∧ nodes.drop (idx + 1) = xs ++ rest := by
      intro x xs he
      subst he
      constructor
      · have : (nodes.drop idx)[0]? = some x := by rw [hd]; rfl
        simpa using this
      · rw [← List.drop_drop, hd]; rfl
    simp only [visitNode]
    cases hl with
    | seq _ x hgt _ =>
      simp only [(hget x [] rfl).1]
      refine Fine.bind (Fine.call _) (f := fun _ _ _ => _) ?_
      simp only [hgt, if_true]
      exact Fine.bind (fine_sequence m x) (f := fun _ _ _ => _)
        (Fine.bind (Fine.call _) (f := fun _ _ _ => pure (n - 1)) (Fine.pure _))
    | polygon _ x rings hgt _ hlen _ =>
      simp only [(hget x rings rfl).1]
      refine Fine.bind (Fine.call _) (f := fun _ _ _ => _) ?_
      simp only [List.length_cons] at hn
      have hnl : ¬ (n - 1 < (x.size : Int)) := by omega
      simp only [hgt, Nat.reduceEqDiff, or_self, if_false, if_true, hnl]
      have e : n - ((x :: rings).length : Int) = n - 1 - (x.size : Int) := by simp only [List.length_cons]; omega
      rw [e]
      exact Fine.bind (fine_rings m nodes _ _) (f := fun _ _ _ => _)
        (Fine.bind (Fine.call _) (f := fun _ _ _ => pure (n - 1 - (x.size : Int))) (Fine.pure _))
    | multi _ x parts hgt _ hlen hp =>
      simp only [(hget x _ rfl).1]
      refine Fine.bind (Fine.call _) (f := fun _ _ _ => _) ?_
      have h1 : ¬ (x.gt = 1 ∨ x.gt = 2) := by omega
      have h3 : ¬ (x.gt = 3) := by omega
      simp only [List.length_cons] at hn
      simp only [h1, h3, hgt, and_self, if_false, if_true]
      have hc := fine_children (vn := fun _ h => visitNode m h nodes fuel) (fun idx n ns rest => ih (l + 1) idx n ns rest)
        parts (idx + 1) (n - 1) rest hp (hget x _ rfl).2 (by omega)
      rw [hlen] at hc
      have e : n - 1 - (parts.flatten.length : Int) = n - ((x :: parts.flatten).length : Int) := by
        simp only [List.length_cons]; omega
      rw [e] at hc
      refine Fine.bind hc (f := fun _ hh n' => do hh .geomEnd; pure n') ?_
      exact Fine.bind (Fine.call _) (f := fun _ _ _ => pure _) (Fine.pure _)

theorem fine_view (m : Mem) (v : View) {l : Nat} (h : LayoutAt l v.nodes) : Fine (fun _ h => viewVisit m h v) () := by
  simp only [viewVisit]
  refine Fine.bind (Fine.call _) (f := fun _ _ _ => _) ?_
  have hn := fine_node m v.nodes (v.nodes.length + 1) l 0 v.nodes.length v.nodes [] h (by simp) (by omega)
  rw [Int.sub_self] at hn
  refine Fine.bind hn (f := fun _ hh n => if n ≠ 0 then M.fail EINVAL else hh .featEnd) ?_
  simp only [ne_eq, not_true_eq_false, if_false]
  exact Fine.call _

end Verif
