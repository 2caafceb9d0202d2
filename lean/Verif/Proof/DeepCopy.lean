import Verif.Model.GeomBuilder
import Verif.Proof.Visit
import Verif.Proof.WkbReader
/-! Deep copies denote what the source denotes. -/
namespace Verif
open Spec

theorem seqDenotes_slice {m : Mem} {node : Node} {blk start : Nat} {d : Dims} {cs : List Coord} {pre post : List Byte}
    (hm : m blk = pre ++ interleaved cs ++ post) (hp : pre.length = start) (hl : ∀ c ∈ cs, c.length = d.n)
    (hs : cs.length < 2 ^ 32) (hd : node.dims = d.code) (hz : node.size = cs.length) (hw : node.swap = false) :
    SeqDenotes m (seqNode node blk start d.n) d cs := by
  refine ⟨hd, hz, hs, hl, ?_⟩
  intro i j c v hc hv
  have hn := Dims.n_pos d
  have hj : j < d.n := by
    have := hl c (List.mem_of_getElem? hc)
    have := (List.getElem?_eq_some_iff.mp hv).1
    omega
  have hlen := length_interleaved hl
  have hib := (List.getElem?_eq_some_iff.mp hc).1
  have hb1 : 8 * d.n * (i + 1) ≤ 8 * d.n * cs.length := Nat.mul_le_mul_left _ (by omega)
  rw [Nat.mul_succ] at hb1
  have hat := wkbCoords_at (big := false) hl hc hv post
  have hjj : (j : Int) < (d.n : Int) := by omega
  apply ordinate_of_load
  simp only [seqNode, Quad.get_ofFn _ j (show j < 4 by omega), if_pos hjj, hw]
  have hcast : (start : Int) + (j : Int) * 8 + (i : Int) * ((d.n : Int) * 8) =
      ((start + (8 * d.n * i + 8 * j) : Nat) : Int) := by
    simp only [Int.natCast_add, Int.natCast_mul]
    have : (i : Int) * ((d.n : Int) * 8) = 8 * (d.n : Int) * i := by
      rw [Int.mul_comm (i : Int), Int.mul_comm (d.n : Int) 8]
    rw [this]
    show _ = (start : Int) + (8 * (d.n : Int) * i + 8 * (j : Int))
    omega
  simp only [Ptr.add]
  rw [hcast]
  generalize hq : 8 * d.n * i + 8 * j = q at *
  have hL : (m blk).length = start + (interleaved cs).length + post.length := by
    rw [hm]; simp [hp]; omega
  unfold Mem.load
  simp only []
  rw [if_pos ⟨by omega, by rw [hL, hlen]; omega⟩]
  congr 1
  rw [hm, List.append_assoc, Int.toNat_natCast, ← hp, ← List.drop_drop, List.drop_left]
  exact hat

/-- Sequence nodes that a deep copy reproduces. -/
def Copyable (m : Mem) (n : Node) : Prop :=
  (n.gt = 1 ∨ n.gt = 2) → ∃ d cs, SeqDenotes m n d cs ∧ d.n * cs.length < 2 ^ 32 ∧ n.swap = false

/-- The copy of a node. -/
def NodeCopied (m m' : Mem) (n n' : Node) : Prop :=
  n'.gt = n.gt ∧ n'.dims = n.dims ∧ n'.size = n.size ∧ n'.level = n.level ∧
    ((n.gt = 1 ∨ n.gt = 2) → ∀ d cs, SeqDenotes m n d cs → SeqDenotes m' n' d cs)

inductive Copied (m m' : Mem) : List Node → List Node → Prop where
  | nil : Copied m m' [] []
  | cons {n n' ns ns'} : NodeCopied m m' n n' → Copied m m' ns ns' → Copied m m' (n :: ns) (n' :: ns')

theorem Copied.split {m m' : Mem} {a b ns : List Node} (h : Copied m m' (a ++ b) ns) :
    ∃ a' b', ns = a' ++ b' ∧ Copied m m' a a' ∧ Copied m m' b b' := by
  induction a generalizing ns with
  | nil => exact ⟨[], ns, rfl, .nil, h⟩
  | cons x a ih =>
    rw [List.cons_append] at h
    cases h with
    | cons h1 h2 =>
      obtain ⟨a', b', rfl, ha, hb⟩ := ih h2
      exact ⟨_ :: a', b', rfl, .cons h1 ha, hb⟩

/-- A denoted sequence has only one meaning. -/
theorem seqDenotes_unique {m : Mem} {n : Node} {d d' : Dims} {cs cs' : List Coord} (h : SeqDenotes m n d cs) (h' : SeqDenotes m n d' cs') :
    d = d' ∧ cs = cs' := by
  have hd : d = d' := by
    have := h.1.symm.trans h'.1
    cases d <;> cases d' <;> simp_all [Dims.code]
  subst hd
  refine ⟨rfl, ?_⟩
  apply List.ext_getElem (h.2.1.symm.trans h'.2.1)
  intro i hi hi'
  have l1 := h.2.2.2.1 cs[i] (List.getElem_mem hi)
  have l2 := h'.2.2.2.1 cs'[i] (List.getElem_mem hi')
  apply List.ext_getElem (l1.trans l2.symm)
  intro j hj hj'
  have e1 := h.2.2.2.2 i j cs[i] _ (List.getElem?_eq_getElem hi) (List.getElem?_eq_getElem hj)
  have e2 := h'.2.2.2.2 i j cs'[i] _ (List.getElem?_eq_getElem hi') (List.getElem?_eq_getElem hj')
  rw [e1] at e2
  exact Option.some.inj e2

theorem rings_copied {m m' : Mem} {d : Dims} {rs : List (List Coord)} : ∀ {ns ns' : List Node}, RingsDenote m d rs ns → Copied m m' ns ns' →
    RingsDenote m' d rs ns' := by
  induction rs with
  | nil =>
    intro ns ns' h hc
    simp only [RingsDenote] at h
    subst h
    cases hc
    rfl
  | cons r rs ih =>
    intro ns ns' h hc
    obtain ⟨n, rest, rfl, hg, hs, hr⟩ := h
    cases hc with
    | cons h1 h2 => exact ⟨_, _, rfl, h1.1.trans hg, h1.2.2.2.2 (.inr hg) d r hs, ih hr h2⟩

mutual
theorem denoted_copied {m m' : Mem} : ∀ (g : Geom) {ns ns' : List Node}, g.Denoted m ns → Copied m m' ns ns' → g.Denoted m' ns'
  | .point d cs, ns, ns', h, hc => by
    obtain ⟨n, rfl, hg, hs⟩ := h
    cases hc with
    | cons h1 h2 => cases h2; exact ⟨_, rfl, h1.1.trans hg, h1.2.2.2.2 (.inl hg) d cs hs⟩
  | .linestring d cs, ns, ns', h, hc => by
    obtain ⟨n, rfl, hg, hs⟩ := h
    cases hc with
    | cons h1 h2 => cases h2; exact ⟨_, rfl, h1.1.trans hg, h1.2.2.2.2 (.inr hg) d cs hs⟩
  | .polygon d rs, ns, ns', h, hc => by
    obtain ⟨n, rest, rfl, hg, hd, hz, hl, hr⟩ := h
    cases hc with
    | cons h1 h2 => exact ⟨_, _, rfl, h1.1.trans hg, h1.2.1.trans hd, h1.2.2.1.trans hz, hl, rings_copied hr h2⟩
  | .multi k d ps, ns, ns', h, hc => by
    obtain ⟨n, rest, rfl, hg, hd, hz, hl, hr⟩ := h
    cases hc with
    | cons h1 h2 => exact ⟨_, _, rfl, h1.1.trans hg, h1.2.1.trans hd, h1.2.2.1.trans hz, hl, denotedL_copied ps hr h2⟩
theorem denotedL_copied {m m' : Mem} : ∀ (gs : List Geom) {ns ns' : List Node}, Geom.DenotedL m gs ns → Copied m m' ns ns' →
    Geom.DenotedL m' gs ns'
  | [], ns, ns', h, hc => by
    simp only [Geom.DenotedL] at h
    subst h
    cases hc
    rfl
  | g :: gs, ns, ns', h, hc => by
    obtain ⟨n1, n2, rfl, h1, h2⟩ := h
    obtain ⟨a, b, rfl, ha, hb⟩ := hc.split
    exact ⟨a, b, rfl, denoted_copied g h1 ha, denotedL_copied gs h2 hb⟩
end

/-- Both loops of the copy. -/
theorem deepNodes_run {m : Mem} {ns : List Node} (h : ∀ n ∈ ns, Copyable m n) :
    ∃ total, deepBytes m ns = some total ∧ ∀ (blk off : Nat) (buf : List Byte), buf.length = off + total →
      ∃ ns' body, body.length = total ∧ deepNodes m blk ns off buf = some (ns', buf.take off ++ body) ∧
        ∀ (m' : Mem) (pre post : List Byte), m' blk = pre ++ body ++ post → pre.length = off → Copied m m' ns ns' := by
  induction ns with
  | nil => exact ⟨0, rfl, fun blk off buf hb => ⟨[], [], rfl, by
      rw [List.append_nil, List.take_of_length_le (by omega)]; rfl, fun _ _ _ _ _ => .nil⟩⟩
  | cons n ns ih =>
    obtain ⟨total, ht, hc⟩ := ih (fun x hx => h x (by simp [hx]))
    by_cases hg : n.gt = 1 ∨ n.gt = 2
    · obtain ⟨d, cs, hs, hw, hsw⟩ := h n (by simp) hg
      have hlen := length_interleaved hs.2.2.2.1
      have hk : nodeWriteSequence m n [] = some (8 * d.n * cs.length, []) := by
        by_cases h0 : 8 * d.n * cs.length = 0
        · have := nodeWriteSequence_eq hs hw [] (by simp [h0])
          rw [this]
          have : interleaved cs = [] := List.eq_nil_of_length_eq_zero (by rw [hlen, h0])
          simp [this, splice]
        · unfold nodeWriteSequence
          rw [hs.1, nvals_code, hs.2.1]
          have hreq : u32 (d.n * cs.length) * 8 = 8 * d.n * cs.length := by
            rw [u32_of_lt hw, Nat.mul_comm, ← Nat.mul_assoc]
          simp only []
          rw [hreq, if_pos (by simp only [List.length_nil]; omega)]
      refine ⟨8 * d.n * cs.length + total, by simp [deepBytes, hg, hk, ht], ?_⟩
      intro blk off buf hb
      have hnw : nodeWriteSequence m n (buf.drop off) =
          some (8 * d.n * cs.length, interleaved cs ++ buf.drop (off + 8 * d.n * cs.length)) := by
        rw [nodeWriteSequence_eq hs hw _ (by simp; omega)]
        simp [splice, hlen, List.drop_drop]
      obtain ⟨ns', body, hbl, hrun, hcop⟩ := hc blk (off + 8 * d.n * cs.length)
        (buf.take off ++ (interleaved cs ++ buf.drop (off + 8 * d.n * cs.length))) (by simp [hlen]; omega)
      have htk : (buf.take off ++ (interleaved cs ++ buf.drop (off + 8 * d.n * cs.length))).take (off + 8 * d.n * cs.length) =
          buf.take off ++ interleaved cs := by
        rw [← List.append_assoc]
        exact List.take_left' (by simp [hlen]; omega)
      rw [htk] at hrun
      refine ⟨seqNode n blk off d.n :: ns', interleaved cs ++ body, by simp [hlen, hbl], ?_, ?_⟩
      · simp only [deepNodes, if_pos hg]
        rw [hs.1, nvals_code, hnw]
        simp only [hrun, List.append_assoc]
      · intro m' pre post hm hp
        refine .cons ⟨rfl, rfl, rfl, rfl, fun _ d' cs' hs' => ?_⟩ ?_
        · obtain ⟨rfl, rfl⟩ := seqDenotes_unique hs hs'
          exact seqDenotes_slice (pre := pre) (post := body ++ post) (by rw [hm]; simp) hp hs.2.2.2.1 hs.2.2.1 hs.1 hs.2.1 hsw
        · exact hcop m' (pre ++ interleaved cs) post (by rw [hm]; simp) (by simp [hp, hlen])
    · refine ⟨total, by simp [deepBytes, hg, ht], ?_⟩
      intro blk off buf hb
      obtain ⟨ns', body, hbl, hrun, hcop⟩ := hc blk off buf hb
      refine ⟨n :: ns', body, hbl, by simp [deepNodes, if_neg hg, hrun], ?_⟩
      intro m' pre post hm hp
      exact .cons ⟨rfl, rfl, rfl, rfl, fun h => absurd h hg⟩ (hcop m' pre post hm hp)

theorem deepCopy_run {m : Mem} {src : View} (h : ∀ n ∈ src.nodes, Copyable m n) (b : GeomB) :
    ∃ b', deepCopy m src b = .ok () b' ∧ (∀ m' : Mem, m' b'.blk = b'.data → Copied m m' src.nodes b'.nodes) ∧
      (b'.blk = b.blk ∨ b'.blk = b.next) := by
  obtain ⟨total, ht, hc⟩ := deepNodes_run h
  have hlen : (bufResize b.data total).length = 0 + total := by
    simp [bufResize]
    omega
  obtain ⟨ns', body, hbl, hrun, hcop⟩ := hc (if total > b.cap then b.next else b.blk) 0 (bufResize b.data total) hlen
  unfold deepCopy
  rw [ht]
  simp only [hrun]
  refine ⟨_, rfl, ?_, ?_⟩
  · intro m' hm
    exact hcop m' [] [] (by rw [hm]; simp) rfl
  · simp only []
    split
    · exact .inr rfl
    · exact .inl rfl

theorem copyable_rings {m : Mem} {d : Dims} {rs : List (List Coord)} : ∀ {ns : List Node}, RingsDenote m d rs ns →
    (∀ r ∈ rs, d.n * r.length < 2 ^ 32) → (∀ n ∈ ns, n.swap = false) → ∀ n ∈ ns, Copyable m n := by
  induction rs with
  | nil => intro ns h _ _; simp only [RingsDenote] at h; subst h; simp
  | cons r rs ih =>
    intro ns h hs hn
    obtain ⟨n, rest, rfl, hg, hd, hr⟩ := h
    intro x hx
    rcases List.mem_cons.mp hx with rfl | hx
    · exact fun _ => ⟨d, r, hd, hs r (by simp), hn x (by simp)⟩
    · exact ih hr (fun y hy => hs y (by simp [hy])) (fun y hy => hn y (by simp [hy])) x hx

mutual
theorem copyable_of_denoted {m : Mem} : ∀ (g : Geom) {ns : List Node}, g.Denoted m ns → g.SmallSeqs → (∀ n ∈ ns, n.swap = false) →
    ∀ n ∈ ns, Copyable m n
  | .point d cs, ns, h, hs, hn => by
    obtain ⟨n, rfl, hg, hd⟩ := h
    intro x hx
    simp only [List.mem_singleton] at hx
    subst hx
    exact fun _ => ⟨d, cs, hd, hs, hn x (by simp)⟩
  | .linestring d cs, ns, h, hs, hn => by
    obtain ⟨n, rfl, hg, hd⟩ := h
    intro x hx
    simp only [List.mem_singleton] at hx
    subst hx
    exact fun _ => ⟨d, cs, hd, hs, hn x (by simp)⟩
  | .polygon d rs, ns, h, hs, hn => by
    obtain ⟨n, rest, rfl, hg, -, -, -, hr⟩ := h
    intro x hx
    rcases List.mem_cons.mp hx with rfl | hx
    · exact fun h => by omega
    · exact copyable_rings hr hs (fun y hy => hn y (by simp [hy])) x hx
  | .multi k d ps, ns, h, hs, hn => by
    obtain ⟨n, rest, rfl, hg, -, -, -, hr⟩ := h
    have hk : 4 ≤ k.code := by cases k <;> simp [MultiKind.code]
    intro x hx
    rcases List.mem_cons.mp hx with rfl | hx
    · exact fun h => by omega
    · exact copyable_of_denotedL ps hr hs (fun y hy => hn y (by simp [hy])) x hx
theorem copyable_of_denotedL {m : Mem} : ∀ (gs : List Geom) {ns : List Node}, Geom.DenotedL m gs ns → Geom.SmallSeqsL gs →
    (∀ n ∈ ns, n.swap = false) → ∀ n ∈ ns, Copyable m n
  | [], ns, h, hs, hn => by simp only [Geom.DenotedL] at h; subst h; simp
  | g :: gs, ns, h, hs, hn => by
    obtain ⟨n1, n2, rfl, h1, h2⟩ := h
    intro x hx
    rcases List.mem_append.mp hx with hx | hx
    · exact copyable_of_denoted g h1 hs.1 (fun y hy => hn y (by simp [hy])) x hx
    · exact copyable_of_denotedL gs h2 hs.2 (fun y hy => hn y (by simp [hy])) x hx
end

end Verif
