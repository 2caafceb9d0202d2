import Verif.Proof.Coords
import Verif.Proof.Visit
/-! Lemmas for ViewCopyCoordsGeneric. -/
namespace Verif
open Spec

def storeO : List (Ptr × Dbl) → OMem → Option OMem
  | [], D => some D
  | (c, x) :: rest, D =>
    match D.store c x with
    | none => none
    | some D' => storeO rest D'

theorem storeO_append (a b : List (Ptr × Dbl)) (D : OMem) :
    storeO (a ++ b) D = (storeO a D).bind (storeO b) := by
  induction a generalizing D with
  | nil => rfl
  | cons p a ih =>
    obtain ⟨c, x⟩ := p
    simp only [List.cons_append, storeO]
    cases D.store c x with
    | none => rfl
    | some D' => exact ih D'

theorem storeO_spec (L : List (Ptr × Dbl)) : ∀ (D : OMem), (∀ p ∈ L, (D p.1).isSome) →
    (∀ p ∈ L, ∀ q ∈ L, p.1 = q.1 → p.2 = q.2) →
    ∃ D', storeO L D = some D' ∧ (∀ p ∈ L, D' p.1 = some p.2) ∧
      (∀ q, (∀ p ∈ L, p.1 ≠ q) → D' q = D q) := by
  induction L with
  | nil => intro D _ _; exact ⟨D, rfl, by simp, by simp⟩
  | cons p L ih =>
    intro D ha hc
    obtain ⟨c, x⟩ := p
    have hs : D.store c x = some (fun q => if q = c then some x else D q) := by
      have := ha (c, x) (by simp)
      simp only [OMem.store, this, if_true]
    generalize hD1 : (fun q => if q = c then some x else D q) = D1 at hs
    have hsome : ∀ q, (D1 q).isSome = (D q).isSome := by
      intro q
      subst hD1
      simp only []
      split
      · rename_i h
        have := ha (c, x) (by simp)
        simp only [] at this
        rw [h, this]; rfl
      · rfl
    obtain ⟨D', h1, h2, h3⟩ := ih D1 (fun p hp => by rw [hsome]; exact ha p (by simp [hp]))
      (fun p hp q hq => hc p (by simp [hp]) q (by simp [hq]))
    refine ⟨D', ?_, ?_, ?_⟩
    · simp only [storeO, hs, h1]
    · intro p hp
      rcases List.mem_cons.mp hp with rfl | hp
      · by_cases hex : ∃ q ∈ L, q.1 = c
        · obtain ⟨q, hq, rfl⟩ := hex
          rw [h2 q hq]
          rw [hc (q.1, x) (by simp) q (by simp [hq]) rfl]
        · rw [h3 c (fun q hq he => hex ⟨q, hq, he⟩)]
          subst hD1; simp
      · exact h2 p hp
    · intro q hne
      rw [h3 q (fun p hp => hne p (by simp [hp]))]
      subst hD1
      simp only []
      rw [if_neg]
      intro h
      exact hne (c, x) (by simp) h.symm

theorem Ptr.add_zero (p : Ptr) : p.add 0 = p := by simp [Ptr.add]
theorem Ptr.add_add (p : Ptr) (a b : Int) : (p.add a).add b = p.add (a + b) := by
  simp [Ptr.add, Int.add_assoc]

/-- Copying `n` ordinates, as a list of cell writes. -/
theorem copyOrds_eq {m : Mem} {swap : Bool} {ss ds : Int} (f : Nat → Dbl) (p0 q0 : Ptr) (n : Nat) :
    ∀ (i : Nat) (o : OMem),
    (∀ t, i ≤ t → t < i + n → ∃ bs, m.load (p0.add (t * ss)) 8 = some bs ∧
      f t = if swap then bswap64 (Dbl.ofBytes bs) else Dbl.ofBytes bs) →
    copyOrds m swap ss ds n (p0.add (i * ss)) (q0.add (i * ds)) o =
      (storeO ((List.range' i n).map fun (t : Nat) => (q0.add ((t : Int) * ds), f t)) o).map
        fun o' => (q0.add (((i + n : Nat) : Int) * ds), o') := by
  induction n with
  | zero => intro i o _; simp [copyOrds, storeO]
  | succ n ih =>
    intro i o h
    obtain ⟨bs, hl, hf⟩ := h i (by omega) (by omega)
    simp only [copyOrds, hl, List.range'_succ, List.map_cons, storeO, ← hf]
    cases o.store (q0.add (i * ds)) (f i) with
    | none => rfl
    | some o' =>
      simp only []
      have e1 : (p0.add (i * ss)).add ss = p0.add (((i + 1 : Nat) : Int) * ss) := by
        rw [Ptr.add_add, Int.natCast_add, Int.add_mul]; simp
      have e2 : (q0.add (i * ds)).add ds = q0.add (((i + 1 : Nat) : Int) * ds) := by
        rw [Ptr.add_add, Int.natCast_add, Int.add_mul]; simp
      rw [e1, e2, ih (i + 1) o' (fun t h1 h2 => h t (by omega) (by omega))]
      congr 1
      funext o''
      have : i + 1 + n = i + (n + 1) := by omega
      rw [this]

theorem bswap_ofBytes {bs : List Byte} (h : bs.length = 8) :
    bswap64 (Dbl.ofBytes bs) = Dbl.ofBytes bs.reverse := by
  rw [← bswap_bytes h, Dbl.ofBytes_bytes]

/-- The writes made for one node whose first coordinate has overall number `k`. -/
def nodeWrites (out : Nat → Ptr) (os : Quad Int) (mp : Quad Int) (cs : List Coord) (k : Nat) (j : Nat) :
    List (Ptr × Dbl) :=
  (List.range cs.length).map fun (t : Nat) =>
    ((out j).add (((k + t : Nat) : Int) * os.get j), viaMap mp (cs[t]?.getD []) j)

theorem storeO_map_congr {α} (l : List α) (f g : α → Ptr × Dbl) (h : ∀ a ∈ l, f a = g a) (o : OMem) :
    storeO (l.map f) o = storeO (l.map g) o := by
  rw [List.map_congr_left h]

/-- All needed source values exist, or the data needs no swapping. -/
def NoSwappedFill (node : Node) (d : Dims) : Prop :=
  node.swap = true → ∀ s : Dims, node.dims = s.code → ∀ a ∈ d.axes, a ∈ s.axes

theorem map_present {s d : Dims} (h : ∀ a ∈ d.axes, a ∈ s.axes) (j : Nat) (hj : j < d.n) :
    (mapDimensions s.code d.code).get j ≠ -1 := by
  have hj' : j = 0 ∨ j = 1 ∨ j = 2 ∨ j = 3 := by have := Dims.n_pos d; omega
  rcases hj' with rfl | rfl | rfl | rfl <;> cases s <;> cases d <;>
    first
      | decide
      | (simp [Dims.n] at hj; done)
      | (exfalso; revert h; decide)

theorem copyNodeDims_eq {m : Mem} (hm : m 0 = emptyPointCoords) {node : Node} {s d : Dims} {cs : List Coord}
    (hseq : SeqDenotes m node s cs) (hsw : NoSwappedFill node d) (out : Nat → Ptr) (os : Quad Int) (k : Nat)
    (r : Nat) : ∀ (j : Nat) (cur : Nat → Ptr) (o : OMem), j + r ≤ d.n →
    (∀ i, j ≤ i → i < d.n → cur i = (out i).add ((k : Int) * os.get i)) →
    ∃ cur' : Nat → Ptr, (∀ i, j ≤ i → i < j + r → cur' i = (out i).add (((k + cs.length : Nat) : Int) * os.get i)) ∧
      (∀ i, i < j → cur' i = cur i) ∧
      copyNodeDims m node os (mapDimensions s.code d.code) r j cur o =
        (storeO ((List.range' j r).flatMap (nodeWrites out os (mapDimensions s.code d.code) cs k)) o).map
          fun o' => (cur', o') := by
  induction r with
  | zero =>
    intro j cur o _ _
    exact ⟨cur, by intro i h1 h2; omega, fun i _ => rfl, by simp [copyNodeDims, storeO]⟩
  | succ r ih =>
    intro j cur o hj hcur
    generalize hmp : mapDimensions s.code d.code = mp at *
    have hload := seqDenotes_load hseq
    have hones : copyOrds m node.swap (if mp.get j = -1 then 0 else node.stride.get (mp.get j).toNat) (os.get j)
        node.size (if mp.get j = -1 then ⟨0, 0⟩ else node.coords.get (mp.get j).toNat) (cur j) o =
        (storeO (nodeWrites out os mp cs k j) o).map fun o' =>
          ((out j).add (((k + cs.length : Nat) : Int) * os.get j), o') := by
      have key := copyOrds_eq (m := m) (swap := node.swap)
        (ss := if mp.get j = -1 then 0 else node.stride.get (mp.get j).toNat) (ds := os.get j)
        (fun t => viaMap mp (cs[t]?.getD []) j)
        (if mp.get j = -1 then ⟨0, 0⟩ else node.coords.get (mp.get j).toNat) (cur j) cs.length 0 o
        (by
          intro t _ ht
          have hc : cs[t]? = some (cs[t]'(by omega)) := List.getElem?_eq_getElem (by omega)
          by_cases hneg : mp.get j = -1
          · simp only [hneg, if_true, Int.mul_zero, Ptr.add_zero]
            refine ⟨emptyPointCoords.take 8, ?_, ?_⟩
            · unfold Mem.load
              simp only [hm]
              rfl
            · have hns : node.swap = false := by
                cases hs : node.swap with
                | false => rfl
                | true =>
                  exfalso
                  have := map_present (hsw hs s hseq.1) j (by omega)
                  rw [hmp] at this
                  exact this hneg
              simp only [hns, Bool.false_eq_true, if_false, nan_bytes, viaMap, hneg, if_true]
          · simp only [hneg, if_false]
            have hrange := mapDimensions_range s d j
            rw [hmp] at hrange
            rcases hrange with h | ⟨h1, h2⟩
            · exact absurd h hneg
            · refine ⟨_, hload t _ (by omega) h2, ?_⟩
              have hlen := hseq.2.2.2.1 _ (List.getElem_mem (show t < cs.length by omega))
              have hx : (cs[t]'(by omega))[(mp.get j).toNat]? =
                  some ((cs[t]'(by omega))[(mp.get j).toNat]'(by omega)) := List.getElem?_eq_getElem (by omega)
              simp only [viaMap, hneg, if_false, hc, Option.getD_some, hx, rawOf, Option.map_some]
              unfold ordBytes
              cases node.swap
              · simp
              · simp only [if_true]
                rw [bswap_ofBytes (by simp)]
                simp)
      rw [hseq.2.1]
      have h0 : ∀ p : Ptr, ∀ x : Int, p.add (((0 : Nat) : Int) * x) = p := by
        intro p x; simp [Ptr.add]
      rw [h0, h0] at key
      rw [key, ← List.range_eq_range']
      have hcj := hcur j (by omega) (by omega)
      rw [hcj]
      have ec : ∀ t : Nat, ((out j).add ((k : Int) * os.get j)).add ((t : Int) * os.get j) =
          (out j).add (((k + t : Nat) : Int) * os.get j) := by
        intro t; rw [Ptr.add_add, Int.natCast_add, Int.add_mul]
      simp only [ec, Nat.zero_add]
      rfl
    simp only [copyNodeDims, List.range'_succ, List.flatMap_cons, storeO_append]
    rw [hones]
    cases hst : storeO (nodeWrites out os mp cs k j) o with
    | none =>
      refine ⟨fun i => if i < j then cur i else (out i).add (((k + cs.length : Nat) : Int) * os.get i), ?_, ?_, rfl⟩
      · intro i h1 _; show (if i < j then _ else _) = _; rw [if_neg (by omega)]
      · intro i h1; show (if i < j then _ else _) = _; rw [if_pos h1]
    | some o1 =>
      simp only [Option.map_some, Option.bind_some]
      obtain ⟨cur', hc1, hc2, hc3⟩ := ih (j + 1)
        (fun i => if i = j then (out j).add (((k + cs.length : Nat) : Int) * os.get j) else cur i) o1 (by omega)
        (by intro i h1 h2; show (if i = j then _ else _) = _; rw [if_neg (by omega)]; exact hcur i (by omega) h2)
      refine ⟨cur', ?_, ?_, hc3⟩
      · intro i h1 h2
        by_cases he : i = j
        · subst he
          rw [hc2 i (by omega)]; simp
        · exact hc1 i (by omega) (by omega)
      · intro i h1
        rw [hc2 i (by omega)]
        show (if i = j then _ else _) = _; rw [if_neg (by omega)]

/-- The sequences stored in a node list, in order. -/
def CoordsOf (m : Mem) : List Node → List (Dims × List Coord) → Prop
  | [], L => L = []
  | n :: ns, L => if n.gt = 1 ∨ n.gt = 2 then ∃ s cs L', L = (s, cs) :: L' ∧ SeqDenotes m n s cs ∧ CoordsOf m ns L'
      else CoordsOf m ns L

theorem CoordsOf_append {m} {ns1 ns2 : List Node} {L1 L2} (h1 : CoordsOf m ns1 L1) (h2 : CoordsOf m ns2 L2) :
    CoordsOf m (ns1 ++ ns2) (L1 ++ L2) := by
  induction ns1 generalizing L1 with
  | nil => rw [show L1 = [] from h1]; exact h2
  | cons n ns ih =>
    simp only [CoordsOf, List.cons_append] at h1 ⊢
    by_cases hg : n.gt = 1 ∨ n.gt = 2
    · simp only [hg, if_true] at h1 ⊢
      obtain ⟨s, cs, L', rfl, hs, hr⟩ := h1
      exact ⟨s, cs, L' ++ L2, rfl, hs, ih hr⟩
    · simp only [hg, if_false] at h1 ⊢
      exact ih h1

/-- list of (dims, coordinate) of a list of sequences -/
def flatSeqs (L : List (Dims × List Coord)) : List (Dims × Coord) := L.flatMap fun p => p.2.map (p.1, ·)

theorem coordsOf_rings {m d} (rs : List (List Coord)) : ∀ ns, RingsDenote m d rs ns →
    CoordsOf m ns (rs.map (d, ·)) := by
  induction rs with
  | nil => intro ns h; rw [show ns = [] from h]; rfl
  | cons r rs ih =>
    intro ns h
    obtain ⟨n, ns', rfl, hg, hs, hr⟩ := h
    simp only [CoordsOf, hg, or_true, if_true, List.map_cons]
    exact ⟨d, r, _, rfl, hs, ih _ hr⟩

mutual
theorem coordsOf_geom {m} : ∀ (g : Geom) (ns : List Node), g.Denoted m ns →
    ∃ L, CoordsOf m ns L ∧ flatSeqs L = g.allCoords
  | .point d cs, ns, h => by
    obtain ⟨n, rfl, hg, hs⟩ := h
    exact ⟨[(d, cs)], by simp only [CoordsOf, hg, true_or, if_true]; exact ⟨d, cs, [], rfl, hs, rfl⟩,
      by simp [flatSeqs, Geom.allCoords]⟩
  | .linestring d cs, ns, h => by
    obtain ⟨n, rfl, hg, hs⟩ := h
    exact ⟨[(d, cs)], by simp only [CoordsOf, hg, or_true, if_true]; exact ⟨d, cs, [], rfl, hs, rfl⟩,
      by simp [flatSeqs, Geom.allCoords]⟩
  | .polygon d rs, ns, h => by
    obtain ⟨n, ns', rfl, hg, _, _, _, hr⟩ := h
    refine ⟨rs.map (d, ·), ?_, ?_⟩
    · simp only [CoordsOf, hg, Nat.reduceEqDiff, or_self, if_false]
      exact coordsOf_rings rs ns' hr
    · simp only [flatSeqs, Geom.allCoords, List.map_flatten, List.flatMap_def, List.map_map]
      rfl
  | .multi k d ps, ns, h => by
    obtain ⟨n, ns', rfl, hg, _, _, _, hr⟩ := h
    obtain ⟨L, h1, h2⟩ := coordsOf_geoms ps ns' hr
    refine ⟨L, ?_, by simpa [Geom.allCoords] using h2⟩
    have : ¬ (n.gt = 1 ∨ n.gt = 2) := by rw [hg]; cases k <;> simp [MultiKind.code]
    simp only [CoordsOf, this, if_false]
    exact h1
theorem coordsOf_geoms {m} : ∀ (gs : List Geom) (ns : List Node), Geom.DenotedL m gs ns →
    ∃ L, CoordsOf m ns L ∧ flatSeqs L = Geom.allCoordsL gs
  | [], ns, h => by
    rw [show ns = [] from h]
    exact ⟨[], rfl, rfl⟩
  | g :: gs, ns, h => by
    obtain ⟨n1, n2, rfl, h1, h2⟩ := h
    obtain ⟨L1, a1, b1⟩ := coordsOf_geom g n1 h1
    obtain ⟨L2, a2, b2⟩ := coordsOf_geoms gs n2 h2
    refine ⟨L1 ++ L2, CoordsOf_append a1 a2, ?_⟩
    unfold flatSeqs at *
    rw [List.flatMap_append, b1, b2]
    rfl
end

/-- All writes for a list of sequences starting at overall coordinate number `k`. -/
def allWrites (out : Nat → Ptr) (os : Quad Int) (d : Dims) : Nat → List (Dims × List Coord) → List (Ptr × Dbl)
  | _, [] => []
  | k, (s, cs) :: L =>
    (List.range' 0 d.n).flatMap (nodeWrites out os (mapDimensions s.code d.code) cs k) ++
      allWrites out os d (k + cs.length) L

theorem copyNodes_eq {m : Mem} (hm : m 0 = emptyPointCoords) (out : Nat → Ptr) (os : Quad Int) (d : Dims)
    (ns : List Node) : ∀ (L : List (Dims × List Coord)) (k : Nat) (cur : Nat → Ptr) (o : OMem),
    CoordsOf m ns L → (∀ n ∈ ns, NoSwappedFill n d) →
    (∀ i, i < d.n → cur i = (out i).add ((k : Int) * os.get i)) →
    copyNodes m os d.code d.n ns cur o = storeO (allWrites out os d k L) o := by
  induction ns with
  | nil => intro L k cur o h _ _; rw [show L = [] from h]; rfl
  | cons n ns ih =>
    intro L k cur o h hsw hcur
    simp only [CoordsOf] at h
    simp only [copyNodes]
    by_cases hg : n.gt = 1 ∨ n.gt = 2
    · simp only [hg, if_true] at h ⊢
      obtain ⟨s, cs, L', rfl, hs, hr⟩ := h
      obtain ⟨cur', hc1, _, hc3⟩ := copyNodeDims_eq hm hs (hsw n (by simp)) out os k d.n 0 cur o (by omega)
        (fun i _ hi => hcur i hi)
      rw [hs.1, hc3]
      simp only [allWrites, storeO_append]
      cases storeO ((List.range' 0 d.n).flatMap (nodeWrites out os (mapDimensions s.code d.code) cs k)) o with
      | none => rfl
      | some o' =>
        simp only [Option.map_some, Option.bind_some]
        exact ih L' (k + cs.length) cur' o' hr (fun n hn => hsw n (by simp [hn]))
          (fun i hi => hc1 i (by omega) (by omega))
    · simp only [hg, if_false] at h ⊢
      exact ih L k cur o h (fun n hn => hsw n (by simp [hn])) hcur

theorem mem_nodeWrites {out : Nat → Ptr} {os : Quad Int} {mp : Quad Int} {cs : List Coord} {k j : Nat}
    {p : Ptr × Dbl} : p ∈ nodeWrites out os mp cs k j ↔ ∃ t c, cs[t]? = some c ∧
      p = ((out j).add (((k + t : Nat) : Int) * os.get j), viaMap mp c j) := by
  unfold nodeWrites
  simp only [List.mem_map, List.mem_range]
  constructor
  · rintro ⟨t, ht, rfl⟩
    exact ⟨t, cs[t], List.getElem?_eq_getElem ht, by simp [List.getElem?_eq_getElem ht]⟩
  · rintro ⟨t, c, hc, rfl⟩
    exact ⟨t, (List.getElem?_eq_some_iff.mp hc).1, by simp [hc]⟩

/-- Membership in the list of all writes: coordinate number `k + t`, destination column `j`. -/
theorem mem_allWrites {out : Nat → Ptr} {os : Quad Int} {d : Dims} (L : List (Dims × List Coord)) :
    ∀ (k : Nat) (p : Ptr × Dbl), p ∈ allWrites out os d k L ↔ ∃ t s c j, j < d.n ∧ (flatSeqs L)[t]? = some (s, c) ∧
      p = ((out j).add (((k + t : Nat) : Int) * os.get j), viaMap (mapDimensions s.code d.code) c j) := by
  induction L with
  | nil => intro k p; simp [allWrites, flatSeqs]
  | cons q L ih =>
    intro k p
    obtain ⟨s, cs⟩ := q
    have hfl : flatSeqs ((s, cs) :: L) = cs.map (s, ·) ++ flatSeqs L := by simp [flatSeqs]
    simp only [allWrites, List.mem_append, List.mem_flatMap, List.mem_range'_1, mem_nodeWrites, ih, hfl]
    constructor
    · rintro (⟨j, ⟨_, hj⟩, t, c, hc, rfl⟩ | ⟨t, s', c, j, hj, hc, rfl⟩)
      · refine ⟨t, s, c, j, by omega, ?_, rfl⟩
        have : t < cs.length := (List.getElem?_eq_some_iff.mp hc).1
        rw [List.getElem?_append_left (by simpa using this), List.getElem?_map, hc]
        rfl
      · refine ⟨cs.length + t, s', c, j, hj, ?_, ?_⟩
        · rw [List.getElem?_append_right (by simp)]
          simpa using hc
        · rw [Nat.add_assoc]
    · rintro ⟨t, s', c, j, hj, hc, rfl⟩
      by_cases ht : t < cs.length
      · rw [List.getElem?_append_left (by simpa using ht), List.getElem?_map] at hc
        cases hct : cs[t]? with
        | none => rw [hct] at hc; cases hc
        | some c' =>
          rw [hct] at hc
          simp only [Option.map_some, Option.some.injEq, Prod.mk.injEq] at hc
          obtain ⟨rfl, rfl⟩ := hc
          exact Or.inl ⟨j, ⟨by omega, by omega⟩, t, _, hct, rfl⟩
      · rw [List.getElem?_append_right (by simp; omega)] at hc
        simp only [List.length_map] at hc
        refine Or.inr ⟨t - cs.length, s', c, j, hj, hc, ?_⟩
        have : k + cs.length + (t - cs.length) = k + t := by omega
        rw [this]

theorem coordsOf_length {m} (ns : List Node) : ∀ L, CoordsOf m ns L →
    ∀ p ∈ flatSeqs L, p.2.length = p.1.n := by
  induction ns with
  | nil => intro L h p hp; rw [show L = [] from h] at hp; simp [flatSeqs] at hp
  | cons n ns ih =>
    intro L h p hp
    simp only [CoordsOf] at h
    by_cases hg : n.gt = 1 ∨ n.gt = 2
    · simp only [hg, if_true] at h
      obtain ⟨s, cs, L', rfl, hs, hr⟩ := h
      simp only [flatSeqs, List.flatMap_cons, List.mem_append, List.mem_map] at hp
      rcases hp with ⟨c, hc, rfl⟩ | hp
      · exact hs.2.2.2.1 c hc
      · exact ih L' hr p hp
    · simp only [hg, if_false] at h
      exact ih L h p hp

end Verif
