import Verif.Proof.Geometry
/-! NodeWriteSequence and VisitSequence on nodes that denote a coordinate list. -/
namespace Verif
open Spec

/-- memory bytes of an ordinate, by byte order flag -/
def ordBytes (swap : Bool) (v : Dbl) : List Byte := if swap then v.bytes.reverse else v.bytes

@[simp] theorem length_ordBytes (s v) : (ordBytes s v).length = 8 := by
  unfold ordBytes; split <;> simp

theorem load_of_ordinate {m node i j v} (h : ordinate m node i j = some v) :
    m.load ((node.coords.get j).add (i * node.stride.get j)) 8 = some (ordBytes node.swap v) := by
  unfold ordinate at h
  unfold Ptr.add
  cases hl : m.load ⟨(node.coords.get j).blk, (node.coords.get j).off + i * node.stride.get j⟩ 8 with
  | none => rw [hl] at h; cases h
  | some bs =>
    rw [hl] at h
    have hlen := Mem.load_length hl
    simp only [Option.map_some, Option.some.injEq] at h
    subst h
    unfold ordBytes
    cases node.swap
    · simp [Dbl.bytes_ofBytes hlen]
    · simp [Dbl.bytes_ofBytes (bs := bs.reverse) (by simpa using hlen)]

theorem ordinate_of_load {m node i j v}
    (h : m.load ((node.coords.get j).add (i * node.stride.get j)) 8 = some (ordBytes node.swap v)) :
    ordinate m node i j = some v := by
  unfold ordinate
  unfold Ptr.add at h
  rw [h]
  simp only [Option.map_some, ordBytes]
  cases node.swap <;> simp

theorem catFrom_succ (b : Nat → List Byte) (k j : Nat) :
    catFrom b k (j + 1) = catFrom (fun i => b (i + 1)) k j := by
  induction k generalizing j with
  | zero => rfl
  | succ k ih => simp [catFrom, ih]

theorem catFrom_list (f : Dbl → List Byte) (c : List Dbl) :
    catFrom (fun j => (c[j]?.map f).getD []) c.length 0 = c.flatMap f := by
  induction c with
  | nil => rfl
  | cons x xs ih =>
    simp only [List.length_cons, catFrom, catFrom_succ]
    simp [ih]

theorem rawCoords_succ (b : Nat → Nat → List Byte) (nv n i : Nat) :
    rawCoords b nv n (i + 1) = rawCoords (fun k => b (k + 1)) nv n i := by
  induction n generalizing i with
  | zero => rfl
  | succ n ih => simp [rawCoords, ih]

/-- raw bytes of ordinate (i,j) of a coordinate list -/
def rawOf (swap : Bool) (cs : List Coord) (i j : Nat) : List Byte :=
  (((cs[i]?.getD [])[j]?).map (ordBytes swap)).getD []

theorem rawCoords_list (swap : Bool) (nv : Nat) (cs : List Coord) (h : ∀ c ∈ cs, c.length = nv) :
    rawCoords (rawOf swap cs) nv cs.length 0 = cs.flatMap fun c => c.flatMap (ordBytes swap) := by
  induction cs with
  | nil => rfl
  | cons c cs ih =>
    simp only [List.length_cons, rawCoords, rawCoords_succ, List.flatMap_cons]
    congr 1
    · have := h c (by simp)
      subst this
      exact catFrom_list (ordBytes swap) c
    · rw [← ih (fun c' hc' => h c' (by simp [hc']))]
      rfl

theorem length_interleaved {nv : Nat} {cs : List Coord} (h : ∀ c ∈ cs, c.length = nv) :
    (interleaved cs).length = 8 * nv * cs.length := by
  induction cs with
  | nil => rfl
  | cons c cs ih =>
    have hc := h c (by simp)
    have := ih (fun c' hc' => h c' (by simp [hc']))
    unfold interleaved at this ⊢
    simp only [List.flatMap_cons, List.length_append, this, List.length_cons, Nat.mul_succ]
    have : ∀ c : List Dbl, (c.flatMap Dbl.bytes).length = 8 * c.length := by
      intro c; induction c with
      | nil => rfl
      | cons x xs ih => simp [ih]; omega
    rw [this, hc]; omega

theorem rev8_flatMap (vs : List Dbl) (rest : List Byte) :
    rev8 vs.length (vs.flatMap (ordBytes true) ++ rest) = vs.flatMap Dbl.bytes := by
  induction vs with
  | nil => rfl
  | cons v vs ih =>
    have h8 : (ordBytes true v).length = 8 := by simp
    simp only [List.length_cons, rev8, List.flatMap_cons, List.append_assoc]
    rw [List.take_append_of_le_length (by omega), List.take_of_length_le (by omega),
      List.drop_append_of_le_length (by omega), List.drop_of_length_le (by omega), List.nil_append, ih]
    simp [ordBytes]

theorem flatMap_flatten (cs : List Coord) (f : Dbl → List Byte) :
    (cs.flatMap fun c => c.flatMap f) = cs.flatten.flatMap f := by
  induction cs with
  | nil => rfl
  | cons c cs ih => simp [ih]

theorem length_flatten_coords {nv : Nat} {cs : List Coord} (h : ∀ c ∈ cs, c.length = nv) :
    cs.flatten.length = nv * cs.length := by
  induction cs with
  | nil => rfl
  | cons c cs ih =>
    simp only [List.flatten_cons, List.length_append, List.length_cons, Nat.mul_succ]
    rw [ih (fun c' hc' => h c' (by simp [hc'])), h c (by simp)]; omega

theorem nvals_code (d : Dims) : nvals d.code = some d.n := by cases d <;> rfl

theorem Dims.n_pos (d : Dims) : 2 ≤ d.n ∧ d.n ≤ 4 := by cases d <;> simp [Dims.n]

theorem seqDenotes_load {m node d cs} (h : SeqDenotes m node d cs) (i j : Nat) (hi : i < cs.length) (hj : j < d.n) :
    m.load ((node.coords.get j).add (i * node.stride.get j)) 8 = some (rawOf node.swap cs i j) := by
  obtain ⟨_, _, _, hl, ho⟩ := h
  have hc : cs[i]? = some cs[i] := List.getElem?_eq_getElem hi
  have hlen := hl cs[i] (List.getElem_mem hi)
  have hv : cs[i][j]? = some (cs[i][j]'(by omega)) := List.getElem?_eq_getElem (by omega)
  rw [load_of_ordinate (ho i j _ _ hc hv)]
  unfold rawOf
  simp [hc, hv]

theorem nodeWriteSequence_eq {m node d cs} (h : SeqDenotes m node d cs) (hw : d.n * cs.length < 2 ^ 32)
    (dst : List Byte) (hd : 8 * d.n * cs.length ≤ dst.length) :
    nodeWriteSequence m node dst = some (8 * d.n * cs.length, splice dst 0 (interleaved cs)) := by
  have hload := seqDenotes_load h
  obtain ⟨hdims, hsize, hlt, hl, ho⟩ := h
  unfold nodeWriteSequence
  rw [hdims, nvals_code, hsize]
  simp only []
  have hreq : u32 (d.n * cs.length) * 8 = 8 * d.n * cs.length := by
    rw [u32_of_lt hw, Nat.mul_comm, ← Nat.mul_assoc]
  rw [hreq, if_neg (by omega)]
  rw [writeCoordsLoop_eq m node.stride d.n node.coords.get (rawOf node.swap cs) cs.length 0 _ 0 dst]
  · simp only []
    rw [rawCoords_list _ _ _ hl]
    cases hsw : node.swap
    · simp only [Bool.false_eq_true, if_false]
      rfl
    · simp only [if_true]
      have e1 : d.n * cs.length * 8 - 8 * d.n * cs.length = 0 := by
        rw [Nat.mul_comm (d.n * cs.length) 8, ← Nat.mul_assoc]; omega
      have e2 : 8 * d.n * cs.length / 8 = d.n * cs.length := by
        rw [Nat.mul_assoc, Nat.mul_div_cancel_left _ (by omega)]
      rw [e1, e2]
      have hl2 : (cs.flatMap fun c => c.flatMap (ordBytes true)).length = 8 * d.n * cs.length := by
        rw [flatMap_flatten]
        have : ∀ c : List Dbl, (c.flatMap (ordBytes true)).length = 8 * c.length := by
          intro c; induction c with
          | nil => rfl
          | cons x xs ih => simp [ih]; omega
        rw [this, length_flatten_coords hl, ← Nat.mul_assoc]
      rw [swapLoop_eq _ _ _ (by rw [length_splice (by omega)]; rw [← Nat.mul_assoc]; omega)]
      simp only [List.drop_zero]
      have hr : rev8 (d.n * cs.length) (splice dst 0 (cs.flatMap fun c => c.flatMap (ordBytes true))) =
          interleaved cs := by
        unfold splice interleaved
        rw [flatMap_flatten, flatMap_flatten, List.take_zero, List.nil_append, ← length_flatten_coords hl]
        exact rev8_flatMap _ _
      rw [hr]
      congr 2
      unfold splice
      simp only [List.take_zero, List.nil_append, Nat.zero_add]
      rw [length_interleaved hl, hl2, ← hl2, List.drop_append]
      simp
  · intro j _; simp [Ptr.add]
  · intro k _ hk j hj; exact hload k j (by omega) hj
  · omega

theorem drop_bytes (x : Dbl) (r : List Byte) (j : Nat) : (Dbl.bytes x ++ r).drop (8 * j + 8) = r.drop (8 * j) := by
  rw [List.drop_append, List.drop_of_length_le (by simp)]
  simp

theorem decodeOne (c : List Dbl) (r : List Byte) : (List.range c.length).map
    (fun j => Dbl.ofBytes (((c.flatMap Dbl.bytes ++ r).drop (8 * j)).take 8)) = c := by
  induction c generalizing r with
  | nil => rfl
  | cons x xs ihx =>
    simp only [List.length_cons, List.range_succ_eq_map, List.map_cons, List.map_map]
    refine List.cons_eq_cons.mpr ⟨?_, ?_⟩
    · have : ((x :: xs).flatMap Dbl.bytes ++ r).take 8 = Dbl.bytes x := by
        simp only [List.flatMap_cons, List.append_assoc]
        rw [List.take_append_of_le_length (by simp), List.take_of_length_le (by simp)]
      rw [Nat.mul_zero, List.drop_zero, this, Dbl.ofBytes_bytes]
    · refine Eq.trans ?_ (ihx r)
      apply List.map_congr_left
      intro j _
      simp only [Function.comp, List.flatMap_cons, List.append_assoc, Nat.mul_succ, drop_bytes]

theorem decodeCoords_eq {nv : Nat} {cs : List Coord} (h : ∀ c ∈ cs, c.length = nv) (rest : List Byte) :
    decodeCoords nv cs.length (interleaved cs ++ rest) = cs := by
  induction cs with
  | nil => rfl
  | cons c cs ih =>
    have hc := h c (by simp)
    have hcl : (c.flatMap Dbl.bytes).length = 8 * nv := by
      have := length_interleaved (cs := [c]) (nv := nv) (by simpa using hc)
      simpa [interleaved] using this
    simp only [List.length_cons, decodeCoords, interleaved, List.flatMap_cons, List.append_assoc]
    refine List.cons_eq_cons.mpr ⟨?_, ?_⟩
    · rw [← hc]; exact decodeOne c _
    · rw [List.drop_append, List.drop_of_length_le (by omega), hcl, Nat.sub_self, List.drop_zero, List.nil_append]
      exact ih (fun c' hc' => h c' (by simp [hc']))

end Verif

namespace Verif
open Spec

theorem seqDenotes_take {m} {node : Node} {d cs k} (h : SeqDenotes m { node with size := cs.length } d cs) (hk : k ≤ cs.length) :
    SeqDenotes m { node with size := k } d (cs.take k) := by
  obtain ⟨h1, _, h3, h4, h5⟩ := h
  refine ⟨h1, by simp; omega, by simp; omega, fun c hc => h4 c (List.mem_of_mem_take hc), ?_⟩
  intro i j c v hc hv
  have : cs[i]? = some c := by
    rw [List.getElem?_take] at hc
    split at hc
    · exact hc
    · cases hc
  have := h5 i j c v this hv
  exact this

theorem Quad.get_ofFn {α} (f : Nat → α) (j : Nat) (hj : j < 4) : (Quad.ofFn f).get j = f j := by
  match j, hj with
  | 0, _ => rfl
  | 1, _ => rfl
  | 2, _ => rfl
  | 3, _ => rfl

theorem seqDenotes_drop {m} {node : Node} {d cs k} (h : SeqDenotes m { node with size := cs.length } d cs) (hk : k ≤ cs.length) :
    SeqDenotes m { node.advance d.n k with size := (cs.drop k).length } d (cs.drop k) := by
  obtain ⟨h1, _, h3, h4, h5⟩ := h
  refine ⟨h1, rfl, by simp; omega, fun c hc => h4 c (List.mem_of_mem_drop hc), ?_⟩
  intro i j c v hc hv
  have hcs : cs[k + i]? = some c := by rw [List.getElem?_drop] at hc; exact hc
  have hj : j < d.n := by
    have := h4 c (List.mem_of_getElem? hcs)
    have := (List.getElem?_eq_some_iff.mp hv).1
    omega
  have h5' := h5 (k + i) j c v hcs hv
  have hd := Dims.n_pos d
  unfold ordinate at h5' ⊢
  simp only [Node.advance] at h5' ⊢
  rw [Quad.get_ofFn _ j (by omega), if_pos hj]
  simp only [Ptr.add]
  rw [← h5']
  congr 3
  rw [Int.natCast_add, Int.add_mul, Int.add_assoc]

theorem behaves_lastChunk {m} {node : Node} {d cs} (h : SeqDenotes m { node with size := cs.length } d cs)
    (cache : List Byte) (hc : cache.length = 8 * coordCacheSize) (hn : d.n * cs.length ≤ coordCacheSize) :
    Behaves (fun _ h => visitLastChunk m h d.n node cs.length cache) [.coords d.n cs] (.done ()) := by
  have hwl : d.n * cs.length < 2 ^ 32 := by
    have : coordCacheSize < 2 ^ 32 := by decide
    omega
  intro σ hd s
  simp only [visitLastChunk]
  rw [nodeWriteSequence_eq h hwl cache (by rw [hc, Nat.mul_assoc]; omega)]
  simp only []
  have : splice cache 0 (interleaved cs) = interleaved cs ++ cache.drop (0 + (interleaved cs).length) := by
    simp [splice]
  rw [this, decodeCoords_eq h.2.2.2.1]
  exact Behaves.call _ σ hd s

theorem behaves_loop {m d} (fuel : Nat) : ∀ {node : Node} {cs} (_ : SeqDenotes m { node with size := cs.length } d cs)
    (cache : List Byte) (_ : cache.length = 8 * coordCacheSize) (_ : cs.length ≤ fuel),
    ∃ chunks : List (List Coord), chunks.flatten = cs ∧ chunks ≠ [] ∧
      (∀ ch ∈ chunks, d.n * ch.length ≤ coordCacheSize) ∧ (cs ≠ [] → ∀ ch ∈ chunks, ch ≠ []) ∧
      Behaves (fun _ h => visitSequenceLoop m h d.n (coordCacheSize / d.n) fuel node cs.length cache)
        (chunks.map (Event.coords d.n)) (.done ()) := by
  induction fuel with
  | zero =>
    intro node cs h cache hc hf
    have : cs = [] := List.eq_nil_of_length_eq_zero (by omega)
    subst this
    refine ⟨[[]], rfl, by simp, by simp, by simp, ?_⟩
    exact behaves_lastChunk h cache hc (by simp)
  | succ fuel ih =>
    intro node cs h cache hc hf
    have hd := Dims.n_pos d
    have hmul : d.n * (coordCacheSize / d.n) ≤ coordCacheSize := Nat.mul_div_le _ _
    have hpos : 0 < coordCacheSize / d.n := Nat.div_pos (by unfold coordCacheSize; omega) (by omega)
    generalize hk : coordCacheSize / d.n = k at *
    by_cases hlt : k < cs.length
    · have htake := seqDenotes_take h (Nat.le_of_lt hlt)
      have hlen : (cs.take k).length = k := by simp; omega
      have hlen' : (cs.drop k).length = cs.length - k := by simp
      have hwl : d.n * (cs.take k).length < 2 ^ 32 := by
        rw [hlen]
        have : coordCacheSize < 2 ^ 32 := by decide
        omega
      have hws := nodeWriteSequence_eq htake hwl cache (by rw [hc, hlen, Nat.mul_assoc]; omega)
      have hil := length_interleaved htake.2.2.2.1
      have hsp : splice cache 0 (interleaved (cs.take k)) =
          interleaved (cs.take k) ++ cache.drop (0 + (interleaved (cs.take k)).length) := by simp [splice]
      have hcl : (splice cache 0 (interleaved (cs.take k))).length = 8 * coordCacheSize := by
        rw [length_splice (by rw [hil, hlen, hc, Nat.mul_assoc]; omega), hc]
      obtain ⟨chunks, hf1, hf2, hf3, hf4, hf5⟩ := ih (seqDenotes_drop h (Nat.le_of_lt hlt))
        (splice cache 0 (interleaved (cs.take k))) hcl (by rw [hlen']; omega)
      rw [hlen'] at hf5
      refine ⟨cs.take k :: chunks, by simp [hf1], by simp, ?_, ?_, ?_⟩
      · intro ch hch
        rcases List.mem_cons.mp hch with rfl | hch
        · rw [hlen]; exact hmul
        · exact hf3 ch hch
      · intro _ ch hch he
        rcases List.mem_cons.mp hch with rfl | hch
        · rw [he] at hlen; simp at hlen; omega
        · refine hf4 ?_ ch hch he
          intro hn; rw [hn] at hlen'; simp at hlen'; omega
      · intro σ hd s
        simp only [visitSequenceLoop, hlt, if_true]
        rw [hws]
        simp only []
        have hdec := decodeCoords_eq htake.2.2.2.1 (cache.drop (0 + (interleaved (cs.take k)).length))
        rw [hlen] at hdec
        rw [hsp, hdec]
        rw [hsp] at hf5
        exact Behaves.bind (Behaves.call (.coords d.n (cs.take k))) (f := fun _ h _ => _) hf5 σ hd s
    · refine ⟨[cs], by simp, by simp, ?_, by simp, ?_⟩
      · intro ch hch
        simp only [List.mem_singleton] at hch
        subst hch
        exact Nat.le_trans (Nat.mul_le_mul_left _ (by omega)) hmul
      · intro σ hd s
        simp only [visitSequenceLoop, hlt, if_false]
        exact behaves_lastChunk h cache hc (Nat.le_trans (Nat.mul_le_mul_left _ (by omega)) hmul) σ hd s

end Verif
