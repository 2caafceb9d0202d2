import Verif.Proof.WkbReaderTree
import Verif.Proof.VisitShape
/-! What follows from a successful read of arbitrary bytes. -/
namespace Verif
open Spec

theorem readEndian_ok {blob s u s'} (h : wkbReadEndian blob s = .ok u s') :
    s'.nodes = s.nodes ∧ s.pos ≤ s'.pos := by
  unfold wkbReadEndian at h
  split at h
  · split at h
    · cases h
    · cases h; simp
  · cases h

theorem readU32_ok {blob s v s'} (h : wkbReadU32 blob s = .ok v s') :
    v < 2 ^ 32 ∧ s'.nodes = s.nodes ∧ s.pos ≤ s'.pos := by
  unfold wkbReadU32 at h
  split at h
  · split at h
    · cases h
    · rename_i bs _
      simp only [Res.ok.injEq] at h
      obtain ⟨h1, h2⟩ := h
      subst h2
      refine ⟨?_, rfl, by simp⟩
      rw [← h1]
      split
      · exact BitVec.isLt _
      · exact BitVec.isLt _
  · cases h

theorem readHeader_ok {blob s t s'} (h : wkbReadHeader blob s = .ok t s') :
    s'.nodes = s.nodes ∧ s.pos ≤ s'.pos := by
  simp only [wkbReadHeader] at h
  obtain ⟨_, s1, h1, h⟩ := M.bind_eq_ok.mp h
  obtain ⟨w, s2, h2, h⟩ := M.bind_eq_ok.mp h
  obtain ⟨_, s3, h3, h⟩ := M.bind_eq_ok.mp h
  simp only [M.pure_run, Res.ok.injEq] at h
  obtain ⟨_, rfl⟩ := h
  have a := readEndian_ok h1
  have b := readU32_ok h2
  have c : s3.nodes = s2.nodes ∧ s2.pos ≤ s3.pos := by
    split at h3
    · exact (readU32_ok h3).2
    · cases h3; simp
  exact ⟨by rw [c.1, b.2.1, a.1], by omega⟩

/-- A sequence node whose coordinates are a run of `n * c` doubles inside the input denotes something. -/
theorem seqDenotes_inside {blob : List Byte} {node : Node} {d : Dims} {pos : Nat} (hdims : node.dims = d.code)
    (hs : node.size < 2 ^ 32) (hin : 0 < node.size → pos + 8 * (node.size * d.n) ≤ blob.length)
    (hp : 0 < node.size → ∀ j, j < d.n → node.coords.get j = ⟨1, pos + j * 8⟩ ∧ node.stride.get j = (d.n : Int) * 8) :
    ∃ cs, SeqDenotes (wkbMem blob) node d cs := by
  refine ⟨(List.range node.size).map fun i => (List.range d.n).map fun j =>
    (ordinate (wkbMem blob) node i j).getD 0, hdims, by simp, by simpa using hs, ?_, ?_⟩
  · intro c hc
    simp only [List.mem_map] at hc
    obtain ⟨i, _, rfl⟩ := hc
    simp
  · intro i j c v hc hv
    rw [List.getElem?_map] at hc
    cases hi : (List.range node.size)[i]? with
    | none => rw [hi] at hc; cases hc
    | some i' =>
      rw [hi] at hc
      simp only [Option.map_some, Option.some.injEq] at hc
      subst hc
      have hilt : i < node.size := by
        have := (List.getElem?_eq_some_iff.mp hi).1
        simpa using this
      have hieq : i' = i := by
        have := (List.getElem?_eq_some_iff.mp hi).2
        simp at this; omega
      subst hieq
      rw [List.getElem?_map] at hv
      cases hj : (List.range d.n)[j]? with
      | none => rw [hj] at hv; cases hv
      | some j' =>
        rw [hj] at hv
        simp only [Option.map_some, Option.some.injEq] at hv
        have hjlt : j < d.n := by
          have := (List.getElem?_eq_some_iff.mp hj).1
          simpa using this
        have hjeq : j' = j := by
          have := (List.getElem?_eq_some_iff.mp hj).2
          simp at this; omega
        subst hjeq
        rw [← hv]
        have hin := hin (by omega)
        obtain ⟨hp1, hp2⟩ := hp (by omega) j' hjlt
        have hb : 8 * (i' * d.n) + 8 * d.n ≤ 8 * (node.size * d.n) := by
          have : (i' + 1) * d.n ≤ node.size * d.n := Nat.mul_le_mul_right _ hilt
          rw [Nat.succ_mul] at this; omega
        unfold ordinate
        rw [hp1, hp2]
        have hcast : (pos : Int) + (j' : Int) * 8 + (i' : Int) * ((d.n : Int) * 8) =
            ((pos + (8 * (i' * d.n) + 8 * j') : Nat) : Int) := by
          have : (i' : Int) * ((d.n : Int) * 8) = 8 * ((i' : Int) * (d.n : Int)) := by
            rw [← Int.mul_assoc, Int.mul_comm]
          rw [this]
          simp only [Int.natCast_add, Int.natCast_mul]
          show _ = (pos : Int) + (8 * ((i' : Int) * (d.n : Int)) + 8 * (j' : Int))
          omega
        simp only []
        generalize hq : pos + (8 * (i' * d.n) + 8 * j') = q at *
        have := load_wkb (blob := blob) (bs := (blob.drop q).take 8) (rest := (blob.drop q).drop 8) (pos := q)
          (by rw [List.take_append_drop]) hcast (by omega)
        have hl : ((blob.drop q).take 8).length = 8 := by simp; omega
        rw [hl] at this
        rw [this]
        rfl

theorem readCoords_ok {blob : List Byte} {n c node s node' s'} (h : wkbReadCoords n c node s = .ok node' s') :
    s'.nodes = s.nodes ∧ s.pos ≤ s'.pos ∧ node'.gt = node.gt ∧ node'.level = node.level ∧ node'.dims = node.dims ∧
    node'.size = node.size ∧ (∀ d : Dims, node.dims = d.code → c = d.n → node.size = n → n < 2 ^ 32 →
      n * d.n < 2 ^ 32 → s'.pos ≤ blob.length → ∃ cs, SeqDenotes (wkbMem blob) node' d cs) := by
  unfold wkbReadCoords at h
  simp only [] at h
  split at h
  · cases h
  · simp only [Res.ok.injEq] at h
    obtain ⟨h1, h2⟩ := h
    subst h2
    have hnode : node'.gt = node.gt ∧ node'.level = node.level ∧ node'.dims = node.dims ∧ node'.size = node.size := by
      rw [← h1]; split <;> simp
    refine ⟨rfl, by simp, hnode.1, hnode.2.1, hnode.2.2.1, hnode.2.2.2, ?_⟩
    intro d hd hc hsz hn hw hpos
    subst hc
    have hdn := Dims.n_pos d
    refine seqDenotes_inside (pos := s.pos) (by rw [hnode.2.2.1, hd]) (by rw [hnode.2.2.2, hsz]; exact hn) ?_ ?_
    · intro _
      rw [hnode.2.2.2, hsz]
      rw [u32_of_lt hw] at hpos
      simp only [] at hpos
      omega
    · intro h0 j hj
      rw [hnode.2.2.2, hsz] at h0
      rw [if_pos h0] at h1
      rw [← h1]
      simp only [Quad.get_ofFn _ j (show j < 4 by omega), hj, if_true, and_self]

theorem wkbDims_exists (z m : Bool) : ∃ d : Dims, wkbDims z m = d.code ∧ wkbCoordSize z m = d.n := by
  cases z <;> cases m
  · exact ⟨.xy, rfl, rfl⟩
  · exact ⟨.xym, rfl, rfl⟩
  · exact ⟨.xyz, rfl, rfl⟩
  · exact ⟨.xyzm, rfl, rfl⟩

theorem Dims.code_range (d : Dims) : 1 ≤ d.code ∧ d.code ≤ 4 := by cases d <;> simp [Dims.code]

/-- No coordinate count times dimension overflows 32 bits. -/
def NoWrap (ns : List Node) : Prop := ∀ n ∈ ns, (n.gt = 1 ∨ n.gt = 2) → ∀ d : Dims, n.dims = d.code → n.size * d.n < 2 ^ 32

theorem Dims.code_inj {a b : Dims} (h : a.code = b.code) : a = b := by
  cases a <;> cases b <;> simp [Dims.code] at h <;> rfl

theorem readRings_ok {blob : List Byte} {d : Dims} {template : Node} (hg : template.gt = 2)
    (hd : template.dims = d.code) (k : Nat) : ∀ {s s' : WkbR},
    wkbReadRings blob d.n template k s = .ok () s' →
    ∃ ns, s'.nodes = s.nodes ++ ns ∧ s.pos ≤ s'.pos ∧ ns.length = k ∧
      (∀ n ∈ ns, n.gt = 2 ∧ n.level = template.level ∧ n.dims = d.code ∧ n.size < 2 ^ 32) ∧
      (s'.pos ≤ blob.length → NoWrap ns → ∃ rs, rs.length = k ∧ RingsDenote (wkbMem blob) d rs ns) := by
  induction k with
  | zero =>
    intro s s' h
    simp only [wkbReadRings, M.pure_run, Res.ok.injEq] at h
    obtain ⟨_, rfl⟩ := h
    exact ⟨[], by simp, by simp, rfl, by simp, fun _ _ => ⟨[], rfl, rfl⟩⟩
  | succ k ih =>
    intro s s' h
    simp only [wkbReadRings] at h
    obtain ⟨n, s1, h1, h⟩ := M.bind_eq_ok.mp h
    obtain ⟨node, s2, h2, h⟩ := M.bind_eq_ok.mp h
    rw [M.bind_ok (push_run _ _)] at h
    obtain ⟨ns, a1, a2, a3, a4, a5⟩ := ih h
    have b := readU32_ok h1
    obtain ⟨c1, c2, c3, c4, c5, c6, c7⟩ := readCoords_ok (blob := blob) h2
    simp only [] at a1 a2 c3 c4 c5 c6 c7
    refine ⟨node :: ns, by rw [a1, c1, b.2.1]; simp, by omega, by simp [a3], ?_, ?_⟩
    · intro x hx
      rcases List.mem_cons.mp hx with rfl | hx
      · exact ⟨by rw [c3, hg], c4, by rw [c5, hd], by rw [c6]; exact b.1⟩
      · exact a4 x hx
    · intro hpos hnw
      obtain ⟨rs, r1, r2⟩ := a5 hpos (fun x hx => hnw x (by simp [hx]))
      have hw := hnw node (by simp) (Or.inr (by rw [c3, hg])) d (by rw [c5, hd])
      rw [c6] at hw
      obtain ⟨cs, hcs⟩ := c7 d hd rfl (by trivial) b.1 hw (by omega)
      exact ⟨cs :: rs, by simp [r1], ⟨node, ns, rfl, by rw [c3, hg], hcs, r2⟩⟩

/-- Result of a successful `wkbReadNode`: a well-formed layout was appended, and if the cursor stayed inside the input
the appended nodes denote a geometry. -/
def ReadOk (blob : List Byte) (level : Nat) (s s' : WkbR) : Prop :=
  ∃ ns, s'.nodes = s.nodes ++ ns ∧ s.pos ≤ s'.pos ∧ LayoutAt level ns ∧ DimsOk ns ∧ (∀ n ∈ ns, n.size < 2 ^ 32) ∧
    (s'.pos ≤ blob.length → NoWrap ns → ∃ g : Geom, g.Denoted (wkbMem blob) ns)

theorem readChildren_ok {blob : List Byte} {level : Nat} {rd : M WkbR Unit}
    (hrd : ∀ s s', rd s = .ok () s' → ReadOk blob level s s') (k : Nat) : ∀ {s s' : WkbR},
    wkbReadChildren rd k s = .ok () s' →
    ∃ parts : List (List Node), s'.nodes = s.nodes ++ parts.flatten ∧ s.pos ≤ s'.pos ∧ parts.length = k ∧
      (∀ p ∈ parts, LayoutAt level p ∧ DimsOk p ∧ (∀ n ∈ p, n.size < 2 ^ 32)) ∧
      (s'.pos ≤ blob.length → NoWrap parts.flatten →
        ∃ gs : List Geom, gs.length = k ∧ Geom.DenotedL (wkbMem blob) gs parts.flatten) := by
  induction k with
  | zero =>
    intro s s' h
    simp only [wkbReadChildren, M.pure_run, Res.ok.injEq] at h
    obtain ⟨_, rfl⟩ := h
    exact ⟨[], by simp, by simp, rfl, by simp, fun _ _ => ⟨[], rfl, rfl⟩⟩
  | succ k ih =>
    intro s s' h
    simp only [wkbReadChildren] at h
    obtain ⟨_, s1, h1, h⟩ := M.bind_eq_ok.mp h
    obtain ⟨ns, a1, a2, a3, a4, a5, a6⟩ := hrd _ _ h1
    obtain ⟨parts, b1, b2, b3, b4, b5⟩ := ih h
    refine ⟨ns :: parts, by rw [b1, a1]; simp, by omega, by simp [b3], ?_, ?_⟩
    · intro p hp
      rcases List.mem_cons.mp hp with rfl | hp
      · exact ⟨a3, a4, a5⟩
      · exact b4 p hp
    · intro hpos hnw
      simp only [List.flatten_cons] at hnw
      obtain ⟨gs, g1, g2⟩ := b5 hpos (fun x hx => hnw x (by simp only [List.mem_append]; exact Or.inr hx))
      obtain ⟨g, hg⟩ := a6 (by omega) (fun x hx => hnw x (by simp [hx]))
      exact ⟨g :: gs, by simp [g1], ns, parts.flatten, by simp, hg, g2⟩

theorem multiKind_of {g : Nat} (h : 4 ≤ g ∧ g ≤ 7) : ∃ k : MultiKind, k.code = g := by
  have : g = 4 ∨ g = 5 ∨ g = 6 ∨ g = 7 := by omega
  rcases this with rfl | rfl | rfl | rfl
  · exact ⟨.multipoint, rfl⟩
  · exact ⟨.multilinestring, rfl⟩
  · exact ⟨.multipolygon, rfl⟩
  · exact ⟨.collection, rfl⟩

theorem nodeBody_ok {blob : List Byte} {level : Nat} {child : Option (M WkbR Unit)}
    (hch : ∀ rd, child = some rd → ∀ s s', rd s = .ok () s' → ReadOk blob (level + 1) s s') {s s' : WkbR}
    (h : wkbNodeBody blob level child s = .ok () s') : ReadOk blob level s s' := by
  simp only [wkbNodeBody] at h
  obtain ⟨⟨g, z, m⟩, s1, h1, h⟩ := M.bind_eq_ok.mp h
  obtain ⟨size, s2, h2, h⟩ := M.bind_eq_ok.mp h
  rw [M.bind_ok (M.get_run _)] at h
  have a := readHeader_ok h1
  have b : size < 2 ^ 32 ∧ s2.nodes = s1.nodes ∧ s1.pos ≤ s2.pos := by
    split at h2
    · exact readU32_ok h2
    · cases h2; simp
  obtain ⟨d, hd1, hd2⟩ := wkbDims_exists z m
  have hdr := Dims.code_range d
  simp only [hd1, hd2] at h
  by_cases hg : g = 1 ∨ g = 2
  · rw [if_pos hg] at h
    obtain ⟨node, s3, h3, h⟩ := M.bind_eq_ok.mp h
    obtain ⟨c1, c2, c3, c4, c5, c6, c7⟩ := readCoords_ok (blob := blob) h3
    rw [push_run] at h
    simp only [Res.ok.injEq, true_and] at h
    subst h
    simp only [] at c3 c4 c5 c6 c7
    have hgt : node.gt = g := by rw [c3]; exact Nat.mod_eq_of_lt (by omega)
    refine ⟨[node], by simp only []; rw [c1, b.2.1, a.1], by simp only []; omega,
      .seq level node (by rw [hgt]; exact hg) c4, ?_, ?_, ?_⟩
    · intro x hx; simp only [List.mem_singleton] at hx; subst hx; rw [c5]; exact hdr
    · intro x hx; simp only [List.mem_singleton] at hx; subst hx; rw [c6]; exact b.1
    · intro hpos hnw
      have hw := hnw node (by simp) (by rw [hgt]; exact hg) d c5
      rw [c6] at hw
      obtain ⟨cs, hcs⟩ := c7 d rfl rfl (by trivial) b.1 hw hpos
      rcases hg with hg | hg
      · exact ⟨.point d cs, node, rfl, by rw [hgt, hg], hcs⟩
      · exact ⟨.linestring d cs, node, rfl, by rw [hgt, hg], hcs⟩
  · rw [if_neg hg] at h
    by_cases h3 : g = 3
    · rw [if_pos h3] at h
      subst h3
      cases child with
      | none => cases h
      | some rd =>
        simp only [] at h
        rw [M.bind_ok (push_run _ _)] at h
        obtain ⟨ns, c1, c2, c3, c4, c5⟩ := readRings_ok (d := d) rfl rfl _ h
        simp only [] at c1 c2
        let nd : Node := { blankNode with gt := 3 % 256, dims := d.code, size := size, swap := s2.swap, level := level }
        refine ⟨nd :: ns, ?_, by omega, .polygon level nd ns rfl rfl c3 (fun r hr => ⟨(c4 r hr).1, (c4 r hr).2.1⟩),
          ?_, ?_, ?_⟩
        · rw [c1, b.2.1, a.1, List.append_assoc]; rfl
        · intro x hx
          rcases List.mem_cons.mp hx with rfl | hx
          · exact hdr
          · rw [(c4 x hx).2.2.1]; exact hdr
        · intro x hx
          rcases List.mem_cons.mp hx with rfl | hx
          · exact b.1
          · exact (c4 x hx).2.2.2
        · intro hpos hnw
          obtain ⟨rs, r1, r2⟩ := c5 hpos (fun x hx => hnw x (by simp [hx]))
          exact ⟨.polygon d rs, nd, ns, rfl, rfl, rfl, r1.symm, by rw [r1]; exact b.1, r2⟩
    · rw [if_neg h3] at h
      by_cases h4 : 4 ≤ g ∧ g ≤ 7
      · rw [if_pos h4] at h
        cases child with
        | none => cases h
        | some rd =>
          simp only [] at h
          rw [M.bind_ok (push_run _ _)] at h
          obtain ⟨parts, c1, c2, c3, c4, c5⟩ := readChildren_ok (hch rd rfl) _ h
          simp only [] at c1 c2
          have hmod : g % 256 = g := Nat.mod_eq_of_lt (by omega)
          let nd : Node :=
            { blankNode with gt := g % 256, dims := d.code, size := size, swap := s2.swap, level := level }
          have hgt : nd.gt = g := hmod
          refine ⟨nd :: parts.flatten, ?_, by omega,
            .multi level nd parts (by rw [hgt]; exact h4) rfl c3 (fun p hp => (c4 p hp).1), ?_, ?_, ?_⟩
          · rw [c1, b.2.1, a.1, List.append_assoc]; rfl
          · intro x hx
            rcases List.mem_cons.mp hx with rfl | hx
            · exact hdr
            · obtain ⟨p, hp, hx⟩ := List.mem_flatten.mp hx
              exact (c4 p hp).2.1 x hx
          · intro x hx
            rcases List.mem_cons.mp hx with rfl | hx
            · exact b.1
            · obtain ⟨p, hp, hx⟩ := List.mem_flatten.mp hx
              exact (c4 p hp).2.2 x hx
          · intro hpos hnw
            obtain ⟨gs, g1, g2⟩ := c5 hpos (fun x hx => hnw x (by simp only [List.mem_cons]; exact Or.inr hx))
            obtain ⟨k, hk⟩ := multiKind_of h4
            exact ⟨.multi k d gs, nd, parts.flatten, rfl, by rw [hgt]; exact hk.symm, rfl, g1.symm,
              by rw [g1]; exact b.1, g2⟩
      · rw [if_neg h4] at h; cases h

theorem readNode_ok {blob : List Byte} (r : Nat) : ∀ (level : Nat) {s s' : WkbR},
    wkbReadNode blob r level s = .ok () s' → ReadOk blob level s s' := by
  induction r with
  | zero => intro level s s' h; exact nodeBody_ok (by intro rd hrd; cases hrd) h
  | succ r ih =>
    intro level s s' h
    refine nodeBody_ok ?_ h
    intro rd hrd s s' h
    cases hrd
    exact ih (level + 1) h

theorem wkbRead_ok {blob : List Byte} {r s' : WkbR} {v : View} (h : wkbRead blob r = .ok v s') :
    LayoutAt 0 v.nodes ∧ DimsOk v.nodes ∧ (∀ n ∈ v.nodes, n.size < 2 ^ 32) ∧
    (s'.pos ≤ blob.length → NoWrap v.nodes → ∃ g, ViewDenotes (wkbMem blob) v g) := by
  simp only [wkbRead] at h
  rw [M.bind_ok (M.modify_run _ _)] at h
  obtain ⟨_, s1, h1, h⟩ := M.bind_eq_ok.mp h
  rw [M.bind_ok (M.get_run _)] at h
  simp only [M.pure_run, Res.ok.injEq] at h
  obtain ⟨rfl, rfl⟩ := h
  obtain ⟨ns, a1, a2, a3, a4, a5, a6⟩ := readNode_ok 255 0 h1
  simp only [List.nil_append] at a1
  simp only [a1]
  exact ⟨a3, a4, a5, fun h1 h2 => a6 h1 h2⟩

/-! ## Safety while no coordinates have been consumed -/

/-- As long as nothing but headers and counts was read, `size_bytes` is the number of bytes after the cursor. -/
def Exact (blob : List Byte) (s : WkbR) : Prop := s.pos + s.left = blob.length

theorem readEndian_safe {blob : List Byte} {s : WkbR} (h : Exact blob s) :
    (∃ s', wkbReadEndian blob s = .ok () s' ∧ Exact blob s' ∧ s'.pos = s.pos + 1) ∨ ∃ s', wkbReadEndian blob s = .err EINVAL s' := by
  unfold wkbReadEndian Exact at *
  split
  · left
    cases hb : blob[s.pos]? with
    | none => rw [List.getElem?_eq_none_iff] at hb; omega
    | some b => exact ⟨_, rfl, by simp only []; omega, rfl⟩
  · exact Or.inr ⟨_, rfl⟩

theorem readU32_safe {blob : List Byte} {s : WkbR} (h : Exact blob s) :
    (∃ v s', wkbReadU32 blob s = .ok v s' ∧ Exact blob s' ∧ s'.pos = s.pos + 4) ∨ ∃ s', wkbReadU32 blob s = .err EINVAL s' := by
  unfold wkbReadU32 Exact at *
  split
  · left
    have : ∃ bs, (wkbMem blob).load ⟨1, s.pos⟩ 4 = some bs := by
      refine ⟨((wkbMem blob 1).drop (s.pos : Int).toNat).take 4, ?_⟩
      unfold Mem.load
      exact if_pos ⟨by simp only []; omega, by simp only [wkbMem]; omega⟩
    obtain ⟨bs, hbs⟩ := this
    rw [hbs]
    exact ⟨_, _, rfl, by simp only []; omega, rfl⟩
  · exact Or.inr ⟨_, rfl⟩

theorem readHeader_safe {blob : List Byte} {s : WkbR} (h : Exact blob s) :
    (∃ t s', wkbReadHeader blob s = .ok t s' ∧ Exact blob s' ∧ s.pos + 5 ≤ s'.pos) ∨ ∃ s', wkbReadHeader blob s = .err EINVAL s' := by
  simp only [wkbReadHeader]
  rcases readEndian_safe h with ⟨s1, h1, e1, p1⟩ | ⟨s1, h1⟩
  · rw [M.bind_ok h1]
    rcases readU32_safe e1 with ⟨w, s2, h2, e2, p2⟩ | ⟨s2, h2⟩
    · rw [M.bind_ok h2]
      split
      · rcases readU32_safe e2 with ⟨w', s3, h3, e3, p3⟩ | ⟨s3, h3⟩
        · exact Or.inl ⟨_, _, M.bind_ok h3, e3, by omega⟩
        · exact Or.inr ⟨_, M.bind_err h3⟩
      · exact Or.inl ⟨_, _, rfl, e2, by omega⟩
    · exact Or.inr ⟨_, M.bind_err h2⟩
  · exact Or.inr ⟨_, M.bind_err h1⟩

/-- A root that is a point or linestring, or an input too short to announce anything else. -/
theorem root_safe {blob : List Byte} {r : WkbR}
    (hs : blob.length < 9 ∨ ∀ s t s', s.pos = 0 → Exact blob s → wkbReadHeader blob s = .ok t s' → t.1 = 1 ∨ t.1 = 2) :
    (wkbRead blob r).Safe ∧ ∀ v s', wkbRead blob r = .ok v s' → s'.pos ≤ blob.length := by
  have h0 : Exact blob { r with pos := 0, left := blob.length, nodes := [] } := by simp [Exact]
  have key : ∀ q : WkbR, Exact blob q → q.pos = 0 → (∃ s', wkbReadNode blob 255 0 q = .ok () s' ∧ s'.pos ≤ blob.length) ∨
      ∃ rc s', wkbReadNode blob 255 0 q = .err rc s' := by
    intro q hq hq0
    have hroot : wkbReadNode blob 255 0 = wkbNodeBody blob 0 (some (wkbReadNode blob 254 1)) := by
      show wkbReadNode blob (254 + 1) 0 = _
      rfl
    rw [hroot]
    generalize some (wkbReadNode blob 254 1) = child
    simp only [wkbNodeBody]
    rcases readHeader_safe hq with ⟨t, s1, h1, e1, p1⟩ | ⟨s1, h1⟩
    · rw [M.bind_ok h1]
      have hsz : (∃ n s2, (if t.1 ≠ 1 then wkbReadU32 blob else pure 1) s1 = .ok n s2 ∧ Exact blob s2 ∧ (t.1 ≠ 1 → s1.pos + 4 ≤ s2.pos)) ∨
          ∃ s2, (if t.1 ≠ 1 then wkbReadU32 blob else pure 1) s1 = .err EINVAL s2 := by
        split
        · rcases readU32_safe e1 with ⟨n, s2, h2, e2, p2⟩ | ⟨s2, h2⟩
          · exact Or.inl ⟨n, s2, h2, e2, fun _ => by omega⟩
          · exact Or.inr ⟨s2, h2⟩
        · exact Or.inl ⟨1, s1, rfl, e1, fun h => absurd h ‹_›⟩
      rcases hsz with ⟨n, s2, h2, e2, p2⟩ | ⟨s2, h2⟩
      · rw [M.bind_ok h2, M.bind_ok (M.get_run _)]
        have hg : t.1 = 1 ∨ t.1 = 2 := by
          rcases hs with hs | hs
          · by_cases h1 : t.1 = 1
            · exact Or.inl h1
            · have := p2 h1
              unfold Exact at e2
              omega
          · exact hs q t s1 hq0 hq h1
        rw [if_pos hg]
        generalize hc : wkbReadCoords _ _ _ s2 = rc
        unfold wkbReadCoords at hc
        simp only [] at hc
        split at hc
        · subst hc
          right
          refine ⟨EINVAL, s2, ?_⟩
          rw [M.bind_err (by unfold wkbReadCoords; simp only []; rw [if_pos (by assumption)])]
        · subst hc
          left
          rw [M.bind_ok (by unfold wkbReadCoords; simp only []; rw [if_neg (by assumption)])]
          refine ⟨_, rfl, ?_⟩
          unfold Exact at e2
          simp only []
          omega
      · exact Or.inr ⟨_, _, M.bind_err h2⟩
    · exact Or.inr ⟨_, _, M.bind_err h1⟩
  have hrun : wkbRead blob r = (wkbReadNode blob 255 0 >>= fun _ => M.get >>= fun s => pure ⟨s.nodes⟩)
      { r with pos := 0, left := blob.length, nodes := [] } := by
    simp only [wkbRead]
    rw [M.bind_ok (M.modify_run _ _)]
  rw [hrun]
  rcases key _ h0 rfl with ⟨s', h1, h2⟩ | ⟨rc, s', h1⟩
  · rw [M.bind_ok h1]
    refine ⟨trivial, ?_⟩
    intro v s'' h
    rw [M.bind_ok (M.get_run _)] at h
    simp only [M.pure_run, Res.ok.injEq] at h
    rw [← h.2]; exact h2
  · rw [M.bind_err h1]
    exact ⟨trivial, fun v s'' h => by cases h⟩

end Verif
