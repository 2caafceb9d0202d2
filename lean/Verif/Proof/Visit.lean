import Verif.Proof.Sequence
/-! Visiting geometry views. -/
namespace Verif
open Spec

theorem behaves_sequence {m node d cs} (h : SeqDenotes m node d cs) :
    ∃ chunks : List (List Coord), chunks.flatten = cs ∧ chunks ≠ [] ∧
      (∀ ch ∈ chunks, d.n * ch.length ≤ coordCacheSize) ∧ (cs ≠ [] → ∀ ch ∈ chunks, ch ≠ []) ∧
      Behaves (fun _ h => visitSequence m h node) (chunks.map (Event.coords d.n)) (.done ()) := by
  have hs : node.size = cs.length := h.2.1
  have hnode : { node with size := cs.length } = node := by rw [← hs]
  obtain ⟨chunks, h1, h2, h3, h4, h5⟩ := behaves_loop (m := m) (d := d) cs.length (node := node) (cs := cs)
    (by rw [hnode]; exact h) (List.replicate (8 * coordCacheSize) 0) (by simp) (by omega)
  refine ⟨chunks, h1, h2, h3, h4, ?_⟩
  intro σ hd s
  simp only [visitSequence]
  rw [h.1, nvals_code, hs]
  exact h5 σ hd s

theorem behaves_sequence_chunked {m node d cs} (h : SeqDenotes m node d cs) :
    ∃ t, Chunked d.n cs t ∧ Behaves (fun _ h => visitSequence m h node) t (.done ()) := by
  obtain ⟨chunks, h1, _, _, _, h5⟩ := behaves_sequence h
  exact ⟨_, ⟨chunks, h1, rfl⟩, h5⟩

theorem getElem?_append_mid {α} (pre : List α) (x : α) (post : List α) :
    (pre ++ x :: post)[pre.length]? = some x := by
  rw [List.getElem?_append_right (Nat.le_refl _)]; simp

theorem behaves_rings {m d} (rs : List (List Coord)) : ∀ (ns pre post : List Node), RingsDenote m d rs ns →
    ∃ t, RingsTrace d.n rs t ∧
      Behaves (fun _ h => visitRings m h (pre ++ ns ++ post) rs.length pre.length) t (.done ()) := by
  induction rs with
  | nil =>
    intro ns pre post h
    exact ⟨[], rfl, Behaves.pure ()⟩
  | cons r rs ih =>
    intro ns pre post h
    obtain ⟨n, ns', rfl, hgt, hseq, hrest⟩ := h
    obtain ⟨t1, hc1, hb1⟩ := behaves_sequence_chunked hseq
    obtain ⟨t2, hc2, hb2⟩ := ih ns' (pre ++ [n]) post hrest
    refine ⟨.ringStart :: t1 ++ .ringEnd :: t2, ⟨t1, t2, hc1, hc2, rfl⟩, ?_⟩
    have hget : (pre ++ n :: ns' ++ post)[pre.length]? = some n := by
      rw [List.append_assoc]; exact getElem?_append_mid pre n _
    intro σ hd s
    simp only [List.length_cons, visitRings, hget]
    have e : pre ++ n :: ns' ++ post = (pre ++ [n]) ++ ns' ++ post := by simp
    have e2 : (pre ++ [n]).length = pre.length + 1 := by simp
    rw [e2, ← e] at hb2
    exact Behaves.bind (Behaves.call .ringStart) (f := fun _ _ _ => _)
      (Behaves.bind hb1 (f := fun _ _ _ => _)
        (Behaves.bind (Behaves.call .ringEnd) (f := fun _ _ _ => _) hb2)) σ hd s

mutual
theorem behaves_node {m} : ∀ (g : Geom) (ns pre post : List Node) (fuel : Nat) (n : Int), g.Denoted m ns →
    ns.length ≤ fuel → ns.length ≤ n →
    ∃ t, g.Trace t ∧
      Behaves (fun _ h => visitNode m h (pre ++ ns ++ post) fuel pre.length n) t (.done (n - ns.length))
  | .point d cs, ns, pre, post, fuel, n, hden, hf, hn => by
    obtain ⟨nd, rfl, hgt, hseq⟩ := hden
    obtain ⟨t, hc, hb⟩ := behaves_sequence_chunked hseq
    obtain ⟨fuel, rfl⟩ : ∃ f, fuel = f + 1 := ⟨fuel - 1, by simp at hf; omega⟩
    refine ⟨_, ⟨t, hc, rfl⟩, ?_⟩
    have hget : (pre ++ [nd] ++ post)[pre.length]? = some nd := by
      rw [List.append_assoc]; exact getElem?_append_mid pre nd _
    intro σ hd s
    simp only [visitNode, hget, hgt, hseq.1, true_or, if_true]
    exact Behaves.bind (Behaves.call (.geomStart 1 d.code)) (f := fun _ _ _ => _)
      (Behaves.bind hb (f := fun _ _ _ => _)
        (Behaves.bind (Behaves.call .geomEnd) (f := fun _ _ _ => pure (n - 1)) (Behaves.pure (n - 1)))) σ hd s
  | .linestring d cs, ns, pre, post, fuel, n, hden, hf, hn => by
    obtain ⟨nd, rfl, hgt, hseq⟩ := hden
    obtain ⟨t, hc, hb⟩ := behaves_sequence_chunked hseq
    obtain ⟨fuel, rfl⟩ : ∃ f, fuel = f + 1 := ⟨fuel - 1, by simp at hf; omega⟩
    refine ⟨_, ⟨t, hc, rfl⟩, ?_⟩
    have hget : (pre ++ [nd] ++ post)[pre.length]? = some nd := by
      rw [List.append_assoc]; exact getElem?_append_mid pre nd _
    intro σ hd s
    simp only [visitNode, hget, hgt, hseq.1, or_true, if_true]
    exact Behaves.bind (Behaves.call (.geomStart 2 d.code)) (f := fun _ _ _ => _)
      (Behaves.bind hb (f := fun _ _ _ => _)
        (Behaves.bind (Behaves.call .geomEnd) (f := fun _ _ _ => pure (n - 1)) (Behaves.pure (n - 1)))) σ hd s
  | .polygon d rs, ns, pre, post, fuel, n, hden, hf, hn => by
    obtain ⟨nd, ns', rfl, hgt, hdims, hsize, _, hrs⟩ := hden
    obtain ⟨t, hc, hb⟩ := behaves_rings rs ns' (pre ++ [nd]) post hrs
    obtain ⟨fuel, rfl⟩ : ∃ f, fuel = f + 1 := ⟨fuel - 1, by simp at hf; omega⟩
    have hlen : ns'.length = rs.length := by
      clear hb hc hf hn
      induction rs generalizing ns' nd with
      | nil => rw [show ns' = [] from hrs]; rfl
      | cons r rs ih =>
        obtain ⟨n, ns'', rfl, _, _, h⟩ := hrs
        simp only [List.length_cons]
        rw [ih { nd with size := rs.length } ns'' hgt hdims rfl (by simp only [List.length_cons] at *; omega) h]
    refine ⟨_, ⟨t, hc, rfl⟩, ?_⟩
    have hget : (pre ++ nd :: ns' ++ post)[pre.length]? = some nd := by
      rw [List.append_assoc]; exact getElem?_append_mid pre nd _
    have e : pre ++ nd :: ns' ++ post = (pre ++ [nd]) ++ ns' ++ post := by simp
    have e2 : (pre ++ [nd]).length = pre.length + 1 := by simp
    rw [e2, ← e] at hb
    have hlt : ¬ (n - 1 < ((rs.length : Nat) : Int)) := by
      simp only [List.length_cons, hlen] at hn; omega
    have hres : n - ((nd :: ns').length : Int) = n - 1 - (rs.length : Int) := by
      simp only [List.length_cons, hlen]; omega
    rw [hres]
    intro σ hd s
    simp only [visitNode, hget, hgt, hdims, hsize, hlt, if_false, if_true, Nat.reduceEqDiff, or_self]
    exact Behaves.bind (Behaves.call (.geomStart 3 d.code)) (f := fun _ _ _ => _)
      (Behaves.bind hb (f := fun _ _ _ => _)
        (Behaves.bind (Behaves.call .geomEnd) (f := fun _ _ _ => pure (n - 1 - (rs.length : Int))) (Behaves.pure (n - 1 - (rs.length : Int))))) σ hd s
  | .multi k d ps, ns, pre, post, fuel, n, hden, hf, hn => by
    obtain ⟨nd, ns', rfl, hgt, hdims, hsize, _, hps⟩ := hden
    obtain ⟨fuel, rfl⟩ : ∃ f, fuel = f + 1 := ⟨fuel - 1, by simp at hf; omega⟩
    obtain ⟨t, hc, hb⟩ := behaves_children ps ns' (pre ++ [nd]) post fuel (n - 1) hps (by simp at hf; omega)
      (by simp only [List.length_cons] at hn; omega)
    refine ⟨_, ⟨t, hc, rfl⟩, ?_⟩
    have hget : (pre ++ nd :: ns' ++ post)[pre.length]? = some nd := by
      rw [List.append_assoc]; exact getElem?_append_mid pre nd _
    have e : pre ++ nd :: ns' ++ post = (pre ++ [nd]) ++ ns' ++ post := by simp
    have e2 : (pre ++ [nd]).length = pre.length + 1 := by simp
    rw [e2, ← e] at hb
    have hres : n - ((nd :: ns').length : Int) = n - 1 - (ns'.length : Int) := by
      simp only [List.length_cons]; omega
    rw [hres]
    have hk : ¬ (k.code = 1 ∨ k.code = 2) ∧ ¬ (k.code = 3) ∧ (4 ≤ k.code ∧ k.code ≤ 7) := by
      cases k <;> simp [MultiKind.code]
    intro σ hd s
    simp only [visitNode, hget, hgt, hdims, hsize, hk, if_false, if_true, and_self]
    exact Behaves.bind (Behaves.call (.geomStart k.code d.code)) (f := fun _ _ _ => _)
      (Behaves.bind hb (f := fun _ hh n' => do hh .geomEnd; pure n')
        (Behaves.bind (Behaves.call .geomEnd) (f := fun _ _ _ => pure (n - 1 - (ns'.length : Int))) (Behaves.pure (n - 1 - (ns'.length : Int))))) σ hd s
theorem behaves_children {m} : ∀ (gs : List Geom) (ns pre post : List Node) (fuel : Nat) (n : Int),
    Geom.DenotedL m gs ns → ns.length ≤ fuel → ns.length ≤ n →
    ∃ t, Geom.TraceL gs t ∧
      Behaves (fun _ h => visitChildren (visitNode m h (pre ++ ns ++ post) fuel) gs.length pre.length n) t
        (.done (n - ns.length))
  | [], ns, pre, post, fuel, n, hden, hf, hn => by
    have : ns = [] := hden
    subst this
    refine ⟨[], rfl, ?_⟩
    intro σ hd s
    simp only [List.length_nil, visitChildren, Int.natCast_zero, Int.sub_zero]
    exact Behaves.pure n σ hd s
  | g :: gs, ns, pre, post, fuel, n, hden, hf, hn => by
    obtain ⟨n1, n2, rfl, h1, h2⟩ := hden
    simp only [List.length_append] at hf hn
    obtain ⟨t1, hc1, hb1⟩ := behaves_node g n1 pre (n2 ++ post) fuel n h1 (by omega) (by omega)
    obtain ⟨t2, hc2, hb2⟩ := behaves_children gs n2 (pre ++ n1) post fuel (n - n1.length) h2 (by omega) (by omega)
    refine ⟨t1 ++ t2, ⟨t1, t2, hc1, hc2, rfl⟩, ?_⟩
    have e1 : pre ++ n1 ++ (n2 ++ post) = pre ++ (n1 ++ n2) ++ post := by simp
    have e2 : pre ++ n1 ++ n2 ++ post = pre ++ (n1 ++ n2) ++ post := by simp
    rw [e1] at hb1
    rw [e2] at hb2
    have hres : n - ((n1 ++ n2).length : Int) = n - n1.length - (n2.length : Int) := by
      simp only [List.length_append]; omega
    rw [hres]
    have hidx : pre.length + (n - (n - (n1.length : Int))).toNat = (pre ++ n1).length := by
      simp only [List.length_append]; omega
    intro σ hd s
    simp only [List.length_cons, visitChildren]
    refine Behaves.bind hb1 (f := fun _ hh n' => visitChildren (visitNode m hh (pre ++ (n1 ++ n2) ++ post) fuel)
      gs.length (pre.length + (n - n').toNat) n') ?_ σ hd s
    rw [hidx]
    exact hb2
end

theorem behaves_view {m v g} (h : ViewDenotes m v g) :
    ∃ t, FeatureTrace g t ∧ Behaves (fun _ h => viewVisit m h v) t (.done ()) := by
  obtain ⟨t, hc, hb⟩ := behaves_node g v.nodes [] [] (v.nodes.length + 1) v.nodes.length h (by omega) (by omega)
  refine ⟨_, ⟨t, hc, rfl⟩, ?_⟩
  simp only [List.nil_append, List.append_nil, List.length_nil, Int.sub_self] at hb
  intro σ hd s
  simp only [viewVisit]
  refine Behaves.bind (Behaves.call .featStart) (f := fun _ _ _ => _)
    (Behaves.bind hb (f := fun _ hh n => if n ≠ 0 then M.fail EINVAL else hh .featEnd) ?_) σ hd s
  exact Behaves.call .featEnd

end Verif
