import Verif.Proof.NativeAppend
/-! # Native writer: appending one geometry view or null -/
namespace Verif
open Spec

/-! ## Lists and coordinates of a stored geometry -/

/-- Rings of a polygon. -/
def ringsOf : Geom → List (List Coord)
  | .polygon _ rs => rs
  | _ => []

/-- Lengths of the lists of level `i` of a geometry. -/
def offsIn : Geom → Nat → List Nat
  | .linestring _ cs, 0 => [cs.length]
  | .polygon _ rs, 0 => [rs.length]
  | .polygon _ rs, 1 => rs.map List.length
  | .multi .multipoint _ ps, 0 => [ps.length]
  | .multi .multilinestring _ ps, 0 => [ps.length]
  | .multi .multilinestring _ ps, 1 => ps.map fun p => p.allCoords.length
  | .multi .multipolygon _ ps, 0 => [ps.length]
  | .multi .multipolygon _ ps, 1 => ps.map fun p => (ringsOf p).length
  | .multi .multipolygon _ ps, 2 => ps.flatMap fun p => (ringsOf p).map List.length
  | _, _ => []

/-- Coordinates of a geometry. -/
def crdsIn (y : Geom) : List Coord := y.allCoords.map (·.2)

theorem crds_seq (d : Dims) (cs : List Coord) : (cs.map (d, ·)).map (·.2) = cs := by
  rw [List.map_map]
  exact List.map_id _

theorem crdsIn_points (d : Dims) (cs : List Coord) : crdsIn (.multi .multipoint d (cs.map fun c => .point d [c])) = cs := by
  unfold crdsIn
  rw [show Geom.allCoords (.multi .multipoint d (cs.map fun c => .point d [c])) = _ from allCoordsL_points d cs]
  exact crds_seq d cs

theorem crdsIn_lines (d : Dims) (ls : List (List Coord)) : crdsIn (.multi .multilinestring d (ls.map (.linestring d))) = ls.flatten := by
  unfold crdsIn
  rw [show Geom.allCoords (.multi .multilinestring d (ls.map (.linestring d))) = _ from allCoordsL_lines d ls]
  exact crds_seq d _

theorem crdsIn_polygons (d : Dims) (ps : List (List (List Coord))) :
    crdsIn (.multi .multipolygon d (ps.map (.polygon d))) = ps.flatten.flatten := by
  unfold crdsIn
  rw [show Geom.allCoords (.multi .multipolygon d (ps.map (.polygon d))) = _ from allCoordsL_polygons d ps]
  exact crds_seq d _

theorem allCoordsL_flatMap : ∀ ps : List Geom, Geom.allCoordsL ps = ps.flatMap Geom.allCoords
  | [] => rfl
  | p :: ps => by
    rw [List.flatMap_cons, ← allCoordsL_flatMap ps]
    rfl

theorem coordsAs_multi (d : Dims) (kd : MultiKind) (s : Dims) (ps : List Geom) :
    Geom.coordsAs d (.multi kd s ps) = (ps.map (Geom.coordsAs d)).flatten := by
  show (Geom.allCoordsL ps).map _ = _
  rw [allCoordsL_flatMap, List.map_flatMap]
  rfl

theorem coordsAs_seq (s d : Dims) (cs : List Coord) : (cs.map (s, ·)).map (fun c : Dims × Coord => mapCoord c.1 d c.2) = cs.map (mapCoord s d) := by
  rw [List.map_map]
  rfl

theorem coordsAs_rings (s d : Dims) (rs : List (List Coord)) : Geom.coordsAs d (.polygon s rs) = (rs.map (·.map (mapCoord s d))).flatten := by
  show (rs.flatten.map (s, ·)).map _ = _
  rw [coordsAs_seq, List.map_flatten]

/-- Nothing is lost on the way. -/
theorem appended_coords {g : Int} {d : Dims} {x y : Geom} (hx : x.allCoords ≠ []) (ht : x.Typed) (h : x.appended g d = some y) : crdsIn y = x.coordsAs d := by
  unfold Geom.appended at h
  rw [if_neg (by simpa using hx)] at h
  by_cases h1 : g = 1
  · rw [if_pos h1] at h
    split at h
    · cases h
      exact crds_seq d _
    · cases h
  rw [if_neg h1] at h
  by_cases h2 : g = 2
  · rw [if_pos h2] at h
    obtain ⟨cs, e, rfl⟩ := Option.map_eq_some_iff.mp h
    refine (crds_seq d cs).trans ?_
    unfold Geom.asLine at e
    split at e
    · cases e; exact (coordsAs_seq _ _ _).symm
    · cases e
      rw [coordsAs_multi, List.map_singleton, List.flatten_singleton]
      exact (coordsAs_seq _ _ _).symm
    · cases e
  rw [if_neg h2] at h
  by_cases h3 : g = 3
  · rw [if_pos h3] at h
    obtain ⟨rs, e, rfl⟩ := Option.map_eq_some_iff.mp h
    refine (crds_seq d rs.flatten).trans ?_
    unfold Geom.asRings at e
    split at e
    · cases e; exact (coordsAs_rings _ _ _).symm
    · cases e
      rw [coordsAs_multi, List.map_singleton, List.flatten_singleton]
      exact (coordsAs_rings _ _ _).symm
    · cases e
  rw [if_neg h3] at h
  by_cases h4 : g = 4
  · rw [if_pos h4] at h
    obtain ⟨cs, e, rfl⟩ := Option.map_eq_some_iff.mp h
    rw [crdsIn_points]
    unfold Geom.asPoints at e
    split at e <;> cases e <;> rfl
  rw [if_neg h4] at h
  by_cases h5 : g = 5
  · rw [if_pos h5] at h
    obtain ⟨ls, e, rfl⟩ := Option.map_eq_some_iff.mp h
    rw [crdsIn_lines]
    unfold Geom.asLines at e
    split at e
    · cases e
      rw [List.flatten_singleton]
      exact (coordsAs_seq _ _ _).symm
    · cases e
      rw [coordsAs_multi]
    · cases e
  rw [if_neg h5] at h
  by_cases h6 : g = 6
  · rw [if_pos h6] at h
    obtain ⟨ps, e, rfl⟩ := Option.map_eq_some_iff.mp h
    rw [crdsIn_polygons]
    unfold Geom.asPolygons at e
    split at e
    · cases e
      rw [List.flatten_singleton]
      exact (coordsAs_rings _ _ _).symm
    · rename_i s ps
      cases e
      rw [coordsAs_multi, List.flatten_flatten, List.map_map]
      congr 1
      apply List.map_congr_left
      intro p hp
      obtain ⟨s', rs, rfl⟩ : ∃ s' rs, p = .polygon s' rs := typedL_mem (kd := .multipolygon) ht p hp
      exact (coordsAs_rings _ _ _).symm
    · cases e
  · rw [if_neg h6] at h
    cases h

/-! ## Nodes of a view -/

theorem rings_nodes {m : Mem} {d : Dims} : ∀ {rs : List (List Coord)} {ns : List Node}, RingsDenote m d rs ns → ns.map Node.size = rs.map List.length
  | [], ns, h => by rw [show ns = [] from h]; rfl
  | r :: rs, ns, h => by
    obtain ⟨n, ns', rfl, -, hs, hr⟩ := h
    rw [List.map_cons, List.map_cons, rings_nodes hr, hs.2.1]

theorem lines_nodes {m : Mem} : ∀ {ps : List Geom} {ns : List Node}, Geom.TypedL .multilinestring ps → Geom.DenotedL m ps ns →
    ns.map Node.size = ps.map fun p => p.allCoords.length
  | [], ns, _, h => by rw [show ns = [] from h]; rfl
  | p :: ps, ns, ht, h => by
    obtain ⟨n1, n2, rfl, h1, h2⟩ := h
    cases p with
    | linestring s cs =>
      obtain ⟨n, rfl, -, hs⟩ := h1
      rw [List.map_append, lines_nodes ht.2.2 h2, List.map_singleton, hs.2.1, List.map_cons]
      show cs.length :: _ = (cs.map (s, ·)).length :: _
      rw [List.length_map]
      rfl
    | point => exact ht.1.elim
    | polygon => exact ht.1.elim
    | multi => exact ht.1.elim

theorem polys_nodes {m : Mem} : ∀ {ps : List Geom} {ns : List Node}, Geom.TypedL .multipolygon ps → Geom.DenotedL m ps ns →
    ∃ bs : List (Node × List Node), ns = bs.flatMap (fun p => p.1 :: p.2) ∧ bs.length = ps.length ∧ (∀ p ∈ bs, p.1.size = p.2.length) ∧
      bs.map (fun p => p.1.size) = ps.map (fun p => (ringsOf p).length) ∧
      bs.flatMap (fun p => p.2.map Node.size) = ps.flatMap fun p => (ringsOf p).map List.length
  | [], ns, _, h => by rw [show ns = [] from h]; exact ⟨[], rfl, rfl, by simp, rfl, rfl⟩
  | p :: ps, ns, ht, h => by
    obtain ⟨n1, n2, rfl, h1, h2⟩ := h
    cases p with
    | polygon s rs =>
      obtain ⟨n, ns', rfl, -, -, hs, -, hr⟩ := h1
      obtain ⟨bs, rfl, e1, e2, e3, e4⟩ := polys_nodes ht.2.2 h2
      have hsz := rings_nodes hr
      refine ⟨(n, ns') :: bs, rfl, by rw [List.length_cons, List.length_cons, e1], ?_, ?_, ?_⟩
      · intro p hp
        rcases List.mem_cons.mp hp with rfl | hp
        · show n.size = ns'.length
          rw [hs, ← List.length_map (f := Node.size), hsz, List.length_map]
        · exact e2 p hp
      · rw [List.map_cons, List.map_cons, e3, hs]
        rfl
      · rw [List.flatMap_cons, List.flatMap_cons, e4, hsz]
        rfl
    | point => exact ht.1.elim
    | linestring => exact ht.1.elim
    | multi => exact ht.1.elim

/-! ## One call -/

section
variable {g : Int} {d : Dims} {k : CoordKind} {w : NWriter} {ns : Nat → List Nat} {cs : List Coord} {fl : List Bool}

theorem setAt0 (ns : Nat → List Nat) {y : Geom} {l : List Nat} (h0 : offsIn y 0 = l) (h1 : ∀ i, i ≠ 0 → offsIn y i = []) :
    setAt ns 0 (ns 0 ++ l) = fun i => ns i ++ offsIn y i := by
  funext i
  by_cases hi : i = 0
  · subst hi
    rw [setAt_get, h0]
  · rw [setAt_ne _ _ hi, h1 i hi, List.append_nil]

theorem setAt01 (ns : Nat → List Nat) {y : Geom} {l l' : List Nat} (h0 : offsIn y 0 = l) (h1 : offsIn y 1 = l') (h2 : ∀ i, i ≠ 0 → i ≠ 1 → offsIn y i = []) :
    setAt (setAt ns 0 (ns 0 ++ l)) 1 (ns 1 ++ l') = fun i => ns i ++ offsIn y i := by
  funext i
  by_cases hi : i = 1
  · subst hi
    rw [setAt_get, h1]
  · rw [setAt_ne _ _ hi]
    by_cases h0' : i = 0
    · subst h0'
      rw [setAt_get, h0]
    · rw [setAt_ne _ _ h0', h2 i h0' hi, List.append_nil]

theorem setAt012 (ns : Nat → List Nat) {y : Geom} {l l' l'' : List Nat} (h0 : offsIn y 0 = l) (h1 : offsIn y 1 = l') (h2 : offsIn y 2 = l'')
    (h3 : ∀ i, i ≠ 0 → i ≠ 1 → i ≠ 2 → offsIn y i = []) :
    setAt (setAt (setAt ns 0 (ns 0 ++ l)) 1 (ns 1 ++ l')) 2 (ns 2 ++ l'') = fun i => ns i ++ offsIn y i := by
  funext i
  by_cases hi : i = 2
  · subst hi
    rw [setAt_get, h2]
  · rw [setAt_ne _ _ hi]
    by_cases h1' : i = 1
    · subst h1'
      rw [setAt_get, h1]
    · rw [setAt_ne _ _ h1']
      by_cases h0' : i = 0
      · subst h0'
        rw [setAt_get, h0]
      · rw [setAt_ne _ _ h0', h3 i h0' h1' hi, List.append_nil]

theorem offs_line (d : Dims) (cs : List Coord) : ∀ i, i ≠ 0 → offsIn (.linestring d cs) i = []
  | 0, h => absurd rfl h
  | _ + 1, _ => rfl

theorem offs_points (d : Dims) (ps : List Geom) : ∀ i, i ≠ 0 → offsIn (.multi .multipoint d ps) i = []
  | 0, h => absurd rfl h
  | _ + 1, _ => rfl

theorem offs_polygon (d : Dims) (rs : List (List Coord)) : ∀ i, i ≠ 0 → i ≠ 1 → offsIn (.polygon d rs) i = []
  | 0, h, _ => absurd rfl h
  | 1, _, h => absurd rfl h
  | _ + 2, _, _ => rfl

theorem offs_lines (d : Dims) (ps : List Geom) : ∀ i, i ≠ 0 → i ≠ 1 → offsIn (.multi .multilinestring d ps) i = []
  | 0, h, _ => absurd rfl h
  | 1, _, h => absurd rfl h
  | _ + 2, _, _ => rfl

theorem offs_polygons (d : Dims) (ps : List Geom) : ∀ i, i ≠ 0 → i ≠ 1 → i ≠ 2 → offsIn (.multi .multipolygon d ps) i = []
  | 0, h, _, _ => absurd rfl h
  | 1, _, h, _ => absurd rfl h
  | 2, _, _, h => absurd rfl h
  | _ + 3, _, _, _ => rfl

/-- `GeoArrowNativeWriterAppendEmpty` -/
theorem empty_ap (hg : 1 ≤ g ∧ g ≤ 6) (h : AP g d k w ns cs fl) (junk : Nat → Byte) (hmax : ∀ i, (ns i).sum ≤ 2147483647) :
    ∃ w', nwAppendEmpty junk w = .ok () w' ∧ AP g d k w' (fun i => ns i ++ offsIn (emptyAs g d) i) (cs ++ crdsIn (emptyAs g d)) fl := by
  have hgt : w.builder.schema.geometryType = g := h.nw.built.native.geometry
  unfold nwAppendEmpty
  rw [M.bind_run, M.get_run]
  dsimp only
  rw [hgt]
  unfold GT.point GT.linestring GT.polygon GT.multipoint GT.multilinestring GT.multipolygon
  by_cases h1 : g = 1
  · subst h1
    rw [if_pos rfl]
    obtain ⟨b', e1, -, e2⟩ := nwB_empty h.nw junk 4 w.builder.schema.dimensions.toNat
    refine ⟨_, e1, ?_, fun i hi => absurd hi (by show ¬ i < 0; omega), h.len⟩
    rw [show (fun i => ns i ++ offsIn (emptyAs 1 d) i) = ns from funext fun i => List.append_nil _]
    exact e2
  · rw [if_neg h1, if_pos (by
      have : g = 2 ∨ g = 3 ∨ g = 4 ∨ g = 5 ∨ g = 6 := by omega
      rcases this with rfl | rfl | rfl | rfl | rfl <;> decide)]
    have hd : 0 < listDepth g := by
      have : g = 2 ∨ g = 3 ∨ g = 4 ∨ g = 5 ∨ g = 6 := by omega
      rcases this with rfl | rfl | rfl | rfl | rfl <;> decide
    obtain ⟨w', e1, e2⟩ := size_ap h junk (i := 0) (n := 0) hd (by have := hmax 0; omega)
    refine ⟨w', e1, ?_⟩
    have hc : crdsIn (emptyAs g d) = [] := by
      have : g = 2 ∨ g = 3 ∨ g = 4 ∨ g = 5 ∨ g = 6 := by omega
      rcases this with rfl | rfl | rfl | rfl | rfl <;> rfl
    rw [hc, List.append_nil, ← setAt0 ns (l := [0])]
    · exact e2
    · have : g = 2 ∨ g = 3 ∨ g = 4 ∨ g = 5 ∨ g = 6 := by omega
      rcases this with rfl | rfl | rfl | rfl | rfl <;> rfl
    · intro i hi
      have : g = 2 ∨ g = 3 ∨ g = 4 ∨ g = 5 ∨ g = 6 := by omega
      rcases this with rfl | rfl | rfl | rfl | rfl
      · exact offs_line _ _ i hi
      · by_cases h1 : i = 1
        · subst h1; rfl
        · exact offs_polygon _ _ i hi h1
      · exact offs_points _ _ i hi
      · by_cases h1 : i = 1
        · subst h1; rfl
        · exact offs_lines _ _ i hi h1
      · by_cases h1 : i = 1
        · subst h1; rfl
        · by_cases h2 : i = 2
          · subst h2; rfl
          · exact offs_polygons _ _ i hi h1 h2

/-- `GeoArrowNativeWriterAppendNull` -/
theorem null_ap (hg : 1 ≤ g ∧ g ≤ 6) (h : AP g d k w ns cs fl) (junk : Nat → Byte) (hmax : ∀ i, (ns i).sum ≤ 2147483647) :
    ∃ w', nwAppendNull junk w = .ok () w' ∧ AP g d k w' (fun i => ns i ++ offsIn (emptyAs g d) i) (cs ++ crdsIn (emptyAs g d)) (fl ++ [false]) := by
  obtain ⟨w1, h1, h2⟩ := empty_ap hg h junk hmax
  obtain ⟨w2, h3, h4⟩ := validity_ap h2 junk false
  refine ⟨w2, ?_, h4⟩
  unfold nwAppendNull
  rw [M.bind_ok h1, h3]

theorem map_length_mapped (s d : Dims) (rs : List (List Coord)) : (rs.map (·.map (mapCoord s d))).map List.length = rs.map List.length := by
  rw [List.map_map]
  apply List.map_congr_left
  intro r _
  exact List.length_map _

/-- The offsets of a geometry that the writer can hold. -/
theorem offsets_ap (h : AP g d k w ns cs fl) (junk : Nat → Byte) {m : Mem} {nodes : List Node} {x y : Geom} (hv : x.Denoted m nodes) (ht : x.Typed)
    (hx : x.allCoords ≠ []) (hy : x.appended g d = some y) (hmax : ∀ i, (ns i).sum + (offsIn y i).sum ≤ 2147483647) :
    ∃ w', nwAppendOffsets junk g nodes x.allCoords.length w = .ok () w' ∧ AP g d k w' (fun i => ns i ++ offsIn y i) cs fl := by
  unfold Geom.appended at hy
  rw [if_neg (by simpa using hx)] at hy
  have hcons : ∃ n rest, nodes = n :: rest := by
    cases x with
    | point => obtain ⟨n, rfl, -⟩ := hv; exact ⟨_, _, rfl⟩
    | linestring => obtain ⟨n, rfl, -⟩ := hv; exact ⟨_, _, rfl⟩
    | polygon => obtain ⟨n, ns', rfl, -⟩ := hv; exact ⟨_, _, rfl⟩
    | multi => obtain ⟨n, ns', rfl, -⟩ := hv; exact ⟨_, _, rfl⟩
  obtain ⟨n, rest, rfl⟩ := hcons
  unfold nwAppendOffsets
  dsimp only
  unfold GT.point GT.linestring GT.polygon GT.multipoint GT.multilinestring GT.multipolygon
  by_cases h1 : g = 1
  · subst h1
    rw [if_pos rfl] at hy ⊢
    split at hy
    · rename_i hl
      cases hy
      rw [if_neg (by omega)]
      refine ⟨w, rfl, ?_⟩
      rw [show (fun i => ns i ++ offsIn (.point d (x.coordsAs d)) i) = ns from funext fun i => List.append_nil _]
      exact h
    · cases hy
  rw [if_neg h1] at hy ⊢
  by_cases h2 : g = 2
  · subst h2
    rw [if_pos rfl] at hy ⊢
    obtain ⟨l, e, rfl⟩ := Option.map_eq_some_iff.mp hy
    have hm0 : (ns 0).sum + ([l.length]).sum ≤ 2147483647 := hmax 0
    rw [← setAt0 ns (y := .linestring d l) (l := [l.length]) rfl (offs_line d l)]
    unfold Geom.asLine at e
    split at e
    · rename_i s l0
      cases e
      obtain ⟨n', e1, e2, e3⟩ := hv
      obtain ⟨rfl, rfl⟩ := List.cons.inj e1
      rw [if_pos e2]
      have := lines_ap (g := 2) junk (i := 0) (by decide) [n] [] h (by rw [List.map_singleton, e3.2.1]; rw [List.length_map] at hm0; exact hm0)
      rw [List.length_map]
      rw [List.map_singleton, e3.2.1] at this
      exact this
    · rename_i s s' l0
      cases e
      obtain ⟨n', ns', e1, e2, -, e3, -, e4⟩ := hv
      obtain ⟨rfl, rfl⟩ := List.cons.inj e1
      obtain ⟨n1, n2, rfl, ⟨n3, rfl, -, e5⟩, e6⟩ := e4
      obtain rfl : n2 = [] := e6
      rw [if_neg (by rw [e2]; decide), if_pos (show n.gt = 5 from e2), if_neg (by rw [e3, List.length_singleton]; decide)]
      have := lines_ap (g := 2) junk (i := 0) (by decide) [n3] [] h (by rw [List.map_singleton, e5.2.1]; rw [List.length_map] at hm0; exact hm0)
      rw [List.length_map]
      rw [List.map_singleton, e5.2.1] at this
      exact this
    · cases e
  rw [if_neg h2] at hy ⊢
  by_cases h3 : g = 3
  · subst h3
    rw [if_pos rfl] at hy ⊢
    obtain ⟨rs, e, rfl⟩ := Option.map_eq_some_iff.mp hy
    have hm0 : (ns 0).sum + ([rs.length]).sum ≤ 2147483647 := hmax 0
    have hm1 : (ns 1).sum + (rs.map List.length).sum ≤ 2147483647 := hmax 1
    rw [← setAt01 ns (y := .polygon d rs) (l := [rs.length]) (l' := rs.map List.length) rfl rfl (offs_polygon d rs)]
    unfold Geom.asRings at e
    split at e
    · rename_i s rs0
      cases e
      obtain ⟨n', ns', e1, e2, -, e3, -, e4⟩ := hv
      obtain ⟨rfl, rfl⟩ := List.cons.inj e1
      have e5 := rings_nodes e4
      rw [if_pos e2]
      rw [List.length_map] at hm0 ⊢
      rw [map_length_mapped, ← e5] at hm1 ⊢
      rw [← e3] at hm0 ⊢
      have := polys_ap (g := 3) junk (i := 0) (by decide) [(n, rest)] [] h (by
        intro p hp
        obtain rfl : p = (n, rest) := by simpa using hp
        show n.size = rest.length
        rw [e3, ← List.length_map (f := Node.size), e5, List.length_map]) hm0 (by simpa using hm1)
      simpa using this
    · rename_i s s' rs0
      cases e
      obtain ⟨n', ns', e1, e2, -, e3, -, e4⟩ := hv
      obtain ⟨rfl, rfl⟩ := List.cons.inj e1
      obtain ⟨n1, n2, rfl, ⟨n3, rest, rfl, -, -, e7, -, e8⟩, e6⟩ := e4
      obtain rfl : n2 = [] := e6
      have e5 := rings_nodes e8
      rw [if_neg (by rw [e2]; decide), if_pos (show n.gt = 6 from e2), if_neg (by rw [e3, List.length_singleton]; decide)]
      rw [List.length_map] at hm0 ⊢
      rw [map_length_mapped, ← e5] at hm1 ⊢
      rw [← e7] at hm0 ⊢
      have := polys_ap (g := 3) junk (i := 0) (by decide) [(n3, rest)] [] h (by
        intro p hp
        obtain rfl : p = (n3, rest) := by simpa using hp
        show n3.size = rest.length
        rw [e7, ← List.length_map (f := Node.size), e5, List.length_map]) hm0 (by simpa using hm1)
      simpa using this
    · cases e
  rw [if_neg h3] at hy ⊢
  by_cases h4 : g = 4
  · subst h4
    rw [if_pos rfl] at hy ⊢
    obtain ⟨l, e, rfl⟩ := Option.map_eq_some_iff.mp hy
    have hm0 : (ns 0).sum + ([(l.map fun c => Geom.point d [c]).length]).sum ≤ 2147483647 := hmax 0
    rw [List.length_map, List.sum_singleton] at hm0
    rw [← setAt0 ns (y := .multi .multipoint d (l.map fun c => .point d [c])) (l := [l.length]) (by show [_] = _; rw [List.length_map]) (offs_points d _)]
    have hl : l = x.coordsAs d ∧ (n.gt = 1 ∨ n.gt = 4) := by
      unfold Geom.asPoints at e
      split at e
      · cases e
        obtain ⟨n', e1, e2, -⟩ := hv
        obtain ⟨rfl, -⟩ := List.cons.inj e1
        exact ⟨rfl, .inl e2⟩
      · cases e
        obtain ⟨n', ns', e1, e2, -⟩ := hv
        obtain ⟨rfl, -⟩ := List.cons.inj e1
        exact ⟨rfl, .inr e2⟩
      · cases e
    obtain ⟨rfl, hgt⟩ := hl
    rw [if_pos hgt]
    have hlen : (x.coordsAs d).length = x.allCoords.length := List.length_map _
    rw [hlen] at hm0 ⊢
    exact size_ap (g := 4) h junk (by decide) hm0
  rw [if_neg h4] at hy ⊢
  by_cases h5 : g = 5
  · subst h5
    rw [if_pos rfl] at hy ⊢
    obtain ⟨ls, e, rfl⟩ := Option.map_eq_some_iff.mp hy
    have hoff : offsIn (.multi .multilinestring d (ls.map (.linestring d))) 1 = ls.map List.length := by
      show List.map _ (ls.map (Geom.linestring d)) = _
      rw [List.map_map]
      apply List.map_congr_left
      intro l _
      exact List.length_map _
    have hm0 : (ns 0).sum + ([(ls.map (Geom.linestring d)).length]).sum ≤ 2147483647 := hmax 0
    have hm1 := hmax 1
    rw [hoff] at hm1
    rw [List.length_map] at hm0
    rw [← setAt01 ns (y := .multi .multilinestring d (ls.map (.linestring d))) (l := [ls.length]) (by show [_] = _; rw [List.length_map]) hoff (offs_lines d _)]
    unfold Geom.asLines at e
    split at e
    · rename_i s l0
      cases e
      obtain ⟨n', e1, e2, e3⟩ := hv
      obtain ⟨rfl, rfl⟩ := List.cons.inj e1
      rw [if_pos e2]
      rw [List.map_singleton, List.length_map] at hm1 ⊢
      obtain ⟨w1, a1, a2⟩ := size_ap (g := 5) h junk (i := 0) (n := 1) (by decide) hm0
      have := lines_ap (g := 5) junk (i := 1) (by decide) [n] [] a2 (by
        rw [setAt_ne _ _ (by decide), List.map_singleton, e3.2.1]; exact hm1)
      rw [setAt_ne _ _ (by decide), List.map_singleton, e3.2.1] at this
      obtain ⟨w2, a3, a4⟩ := this
      exact ⟨w2, by rw [M.bind_ok a1]; exact a3, a4⟩
    · rename_i s ps
      cases e
      obtain ⟨n', ns', e1, e2, -, e3, -, e4⟩ := hv
      obtain ⟨rfl, rfl⟩ := List.cons.inj e1
      have e5 := lines_nodes ht e4
      have e6 : (ps.map (Geom.coordsAs d)).map List.length = rest.map Node.size := by
        rw [e5, List.map_map]
        apply List.map_congr_left
        intro p _
        exact List.length_map _
      rw [if_neg (by rw [e2]; decide), if_pos (show n.gt = 5 from e2)]
      rw [List.length_map, ← e3] at hm0 ⊢
      rw [e6] at hm1 ⊢
      have := polys_ap (g := 5) junk (i := 0) (by decide) [(n, rest)] [] h (by
        intro p hp
        obtain rfl : p = (n, rest) := by simpa using hp
        show n.size = rest.length
        rw [e3, ← List.length_map (f := Node.size), e5, List.length_map]) hm0 (by simpa using hm1)
      simpa using this
    · cases e
  rw [if_neg h5] at hy ⊢
  by_cases h6 : g = 6
  · subst h6
    rw [if_pos rfl] at hy ⊢
    obtain ⟨ps, e, rfl⟩ := Option.map_eq_some_iff.mp hy
    have hoff1 : offsIn (.multi .multipolygon d (ps.map (.polygon d))) 1 = ps.map List.length := by
      show List.map _ (ps.map (Geom.polygon d)) = _
      rw [List.map_map]
      rfl
    have hoff2 : offsIn (.multi .multipolygon d (ps.map (.polygon d))) 2 = ps.flatMap fun p => p.map List.length := by
      show List.flatMap _ (ps.map (Geom.polygon d)) = _
      rw [List.flatMap_map]
      rfl
    have hm0 : (ns 0).sum + ([(ps.map (Geom.polygon d)).length]).sum ≤ 2147483647 := hmax 0
    have hm1 := hmax 1
    have hm2 := hmax 2
    rw [hoff1] at hm1
    rw [hoff2] at hm2
    rw [List.length_map] at hm0
    rw [← setAt012 ns (y := .multi .multipolygon d (ps.map (.polygon d))) (l := [ps.length]) (by show [_] = _; rw [List.length_map]) hoff1 hoff2 (offs_polygons d _)]
    unfold Geom.asPolygons at e
    split at e
    · rename_i s rs
      cases e
      obtain ⟨n', ns', e1, e2, -, e3, -, e4⟩ := hv
      obtain ⟨rfl, rfl⟩ := List.cons.inj e1
      have e5 := rings_nodes e4
      rw [if_pos e2]
      rw [List.map_singleton, List.length_map, ← e3] at hm1 ⊢
      rw [List.flatMap_singleton, map_length_mapped, ← e5] at hm2 ⊢
      obtain ⟨w1, a1, a2⟩ := size_ap (g := 6) h junk (i := 0) (n := 1) (by decide) hm0
      have := polys_ap (g := 6) junk (i := 1) (by decide) [(n, rest)] [] a2 (by
        intro p hp
        obtain rfl : p = (n, rest) := by simpa using hp
        show n.size = rest.length
        rw [e3, ← List.length_map (f := Node.size), e5, List.length_map])
        (by rw [setAt_ne _ _ (by decide)]; exact hm1) (by rw [setAt_ne _ _ (by decide)]; simpa using hm2)
      rw [setAt_ne _ _ (show 1 ≠ 0 by decide), setAt_ne _ _ (show 1 + 1 ≠ 0 by decide)] at this
      obtain ⟨w2, a3, a4⟩ := this
      exact ⟨w2, by rw [M.bind_ok a1]; simpa using a3, by simpa using a4⟩
    · rename_i s ps
      cases e
      obtain ⟨n', ns', e1, e2, -, e3, -, e4⟩ := hv
      obtain ⟨rfl, rfl⟩ := List.cons.inj e1
      obtain ⟨bs, rfl, b1, b2, b3, b4⟩ := polys_nodes ht e4
      have e5 : (ps.map (Geom.ringsAs d)).map List.length = bs.map fun p => p.1.size := by
        rw [b3, List.map_map]
        apply List.map_congr_left
        intro p hp
        obtain ⟨s', rs, rfl⟩ : ∃ s' rs, p = .polygon s' rs := typedL_mem (kd := .multipolygon) ht p hp
        exact List.length_map _
      have e6 : ((ps.map (Geom.ringsAs d)).flatMap fun p => p.map List.length) = bs.flatMap fun p => p.2.map Node.size := by
        rw [b4, List.flatMap_map]
        unfold List.flatMap
        congr 1
        apply List.map_congr_left
        intro p hp
        obtain ⟨s', rs, rfl⟩ : ∃ s' rs, p = .polygon s' rs := typedL_mem (kd := .multipolygon) ht p hp
        exact map_length_mapped _ _ _
      rw [if_neg (by rw [e2]; decide), if_pos (show n.gt = 6 from e2)]
      rw [List.length_map, ← e3] at hm0 ⊢
      rw [e5] at hm1 ⊢
      rw [e6] at hm2 ⊢
      obtain ⟨w1, a1, a2⟩ := size_ap (g := 6) h junk (i := 0) (n := n.size) (by decide) hm0
      have := polys_ap (g := 6) junk (i := 1) (by decide) bs [] a2 b2
        (by rw [setAt_ne _ _ (by decide)]; exact hm1) (by rw [setAt_ne _ _ (by decide)]; exact hm2)
      rw [setAt_ne _ _ (show 1 ≠ 0 by decide), setAt_ne _ _ (show 1 + 1 ≠ 0 by decide), List.append_nil, b1, ← e3] at this
      obtain ⟨w2, a3, a4⟩ := this
      exact ⟨w2, by rw [M.bind_ok a1]; exact a3, a4⟩
    · cases e
  · rw [if_neg h6] at hy
    cases hy

/-- `GeoArrowNativeWriterAppend` -/
theorem append_ap (hg : 1 ≤ g ∧ g ≤ 6) (h : AP g d k w ns cs fl) (junk : Nat → Byte) {m : Mem} (hm : m 0 = emptyPointCoords) {v : View} {x y : Geom}
    (hv : Readable m d v x) (hy : x.appended g d = some y) (hlen : x.allCoords.length < 2 ^ 32)
    (hmax : ∀ i, (ns i).sum + (offsIn y i).sum ≤ 2147483647) :
    ∃ w', nwAppend junk m v w = .ok () w' ∧ AP g d k w' (fun i => ns i ++ offsIn y i) (cs ++ crdsIn y) (fl ++ [true]) := by
  have hc : viewNumCoords v = x.allCoords.length := by
    rw [C07_num_coords hv.1, Nat.mod_eq_of_lt hlen]
  have hgt : w.builder.schema.geometryType = g := h.nw.built.native.geometry
  unfold nwAppend
  rw [M.bind_run, M.get_run]
  dsimp only
  rw [hc, hgt]
  by_cases hx : x.allCoords = []
  · unfold Geom.appended at hy
    rw [if_pos (by simpa using hx)] at hy
    cases hy
    rw [hx, if_pos (show ([] : List (Dims × Coord)).length = 0 from rfl)]
    obtain ⟨w1, h1, h2⟩ := empty_ap hg h junk fun i => by have := hmax i; omega
    obtain ⟨w2, h3, h4⟩ := validity_ap h2 junk true
    exact ⟨w2, by rw [M.bind_ok h1]; exact h3, h4⟩
  · have hpos : 0 < x.allCoords.length := List.length_pos_iff.mpr hx
    rw [if_neg (by omega)]
    obtain ⟨w1, h1, h2⟩ := offsets_ap h junk hv.1 hv.2.1 hx hy hmax
    obtain ⟨w2, h3, h4⟩ := view_ap h2 junk hm hv hpos
    obtain ⟨w3, h5, h6⟩ := validity_ap h4 junk true
    rw [appended_coords hx hv.2.1 hy]
    refine ⟨w3, ?_, h6⟩
    rw [M.bind_ok h1]
    obtain ⟨_, w4, a1, a2⟩ := M.bind_eq_ok.mp h3
    rw [M.bind_ok a1, M.bind_ok a2, h5]

/-- A geometry the writer cannot hold: nothing is changed. -/
theorem append_rejected (hgt : w.builder.schema.geometryType = g) (hg : 1 ≤ g ∧ g ≤ 6) (junk : Nat → Byte) {m : Mem} {v : View} {x : Geom}
    (hv : ViewDenotes m v x) (ht : x.Typed) (hy : x.appended g d = none) (hlen : x.allCoords.length < 2 ^ 32) :
    nwAppend junk m v w = .err EINVAL w := by
  have hc : viewNumCoords v = x.allCoords.length := by
    rw [C07_num_coords hv, Nat.mod_eq_of_lt hlen]
  unfold Geom.appended at hy
  by_cases hx : x.allCoords = []
  · rw [if_pos (by simpa using hx)] at hy
    cases hy
  rw [if_neg (by simpa using hx)] at hy
  have hpos : 0 < x.allCoords.length := List.length_pos_iff.mpr hx
  have key : nwAppendOffsets junk g v.nodes x.allCoords.length w = .err EINVAL w := by
    unfold ViewDenotes at hv
    generalize v.nodes = nodes at hv
    clear hc
    have hcons : ∃ n rest, nodes = n :: rest ∧ (∀ s cs, x = .point s cs → n.gt = 1) ∧ (∀ s cs, x = .linestring s cs → n.gt = 2) ∧
        (∀ s rs, x = .polygon s rs → n.gt = 3) ∧ (∀ kd s ps, x = .multi kd s ps → n.gt = kd.code ∧ n.size = ps.length) := by
      cases x with
      | point =>
        obtain ⟨n, rfl, e, -⟩ := hv
        exact ⟨_, _, rfl, fun _ _ _ => e, fun _ _ h => (by cases h), fun _ _ h => (by cases h), fun _ _ _ h => (by cases h)⟩
      | linestring =>
        obtain ⟨n, rfl, e, -⟩ := hv
        exact ⟨_, _, rfl, fun _ _ h => (by cases h), fun _ _ h => e, fun _ _ h => (by cases h), fun _ _ _ h => (by cases h)⟩
      | polygon =>
        obtain ⟨n, ns', rfl, e, -⟩ := hv
        exact ⟨_, _, rfl, fun _ _ h => (by cases h), fun _ _ h => (by cases h), fun _ _ h => e, fun _ _ _ h => (by cases h)⟩
      | multi =>
        obtain ⟨n, ns', rfl, e, -, e', -⟩ := hv
        exact ⟨_, _, rfl, fun _ _ h => (by cases h), fun _ _ h => (by cases h), fun _ _ h => (by cases h), fun _ _ _ h => (by cases h; exact ⟨e, e'⟩)⟩
    obtain ⟨n, rest, rfl, c1, c2, c3, c4⟩ := hcons
    unfold nwAppendOffsets
    dsimp only
    unfold GT.point GT.linestring GT.polygon GT.multipoint GT.multilinestring GT.multipolygon
    have hcases : g = 1 ∨ g = 2 ∨ g = 3 ∨ g = 4 ∨ g = 5 ∨ g = 6 := by omega
    rcases hcases with rfl | rfl | rfl | rfl | rfl | rfl
    · rw [if_pos rfl] at hy ⊢
      split at hy
      · cases hy
      · rw [if_pos (by omega)]
        rfl
    · rw [if_neg (by decide), if_pos rfl] at hy ⊢
      replace hy := Option.map_eq_none_iff.mp hy
      cases x with
      | point s cs => rw [if_neg (by rw [c1 _ _ rfl]; decide), if_neg (by rw [c1 _ _ rfl]; decide)]; rfl
      | linestring s cs => cases hy
      | polygon s rs => rw [if_neg (by rw [c3 _ _ rfl]; decide), if_neg (by rw [c3 _ _ rfl]; decide)]; rfl
      | multi kd s ps =>
        obtain ⟨e1, e2⟩ := c4 _ _ _ rfl
        rw [if_neg (by rw [e1]; cases kd <;> decide)]
        cases kd with
        | multilinestring =>
          rw [if_pos (show n.gt = 5 from e1)]
          match ps, ht with
          | [], _ => exact absurd rfl hx
          | [.linestring s' cs'], _ => cases hy
          | [.point _ _], ht => exact ht.1.elim
          | [.polygon _ _], ht => exact ht.1.elim
          | [.multi _ _ _], ht => exact ht.1.elim
          | _ :: _ :: _, _ =>
            rw [if_pos (by rw [e2, List.length_cons, List.length_cons]; omega)]
            rfl
        | multipoint => rw [if_neg (by rw [e1]; decide)]; rfl
        | multipolygon => rw [if_neg (by rw [e1]; decide)]; rfl
        | collection => rw [if_neg (by rw [e1]; decide)]; rfl
    · rw [if_neg (by decide), if_neg (by decide), if_pos rfl] at hy ⊢
      replace hy := Option.map_eq_none_iff.mp hy
      cases x with
      | point s cs => rw [if_neg (by rw [c1 _ _ rfl]; decide), if_neg (by rw [c1 _ _ rfl]; decide)]; rfl
      | linestring s cs => rw [if_neg (by rw [c2 _ _ rfl]; decide), if_neg (by rw [c2 _ _ rfl]; decide)]; rfl
      | polygon s rs => cases hy
      | multi kd s ps =>
        obtain ⟨e1, e2⟩ := c4 _ _ _ rfl
        rw [if_neg (by rw [e1]; cases kd <;> decide)]
        cases kd with
        | multipolygon =>
          rw [if_pos (show n.gt = 6 from e1)]
          match ps, ht with
          | [], _ => exact absurd rfl hx
          | [.polygon s' cs'], _ => cases hy
          | [.point _ _], ht => exact ht.1.elim
          | [.linestring _ _], ht => exact ht.1.elim
          | [.multi _ _ _], ht => exact ht.1.elim
          | _ :: _ :: _, _ =>
            rw [if_pos (by rw [e2, List.length_cons, List.length_cons]; omega)]
            rfl
        | multipoint => rw [if_neg (by rw [e1]; decide)]; rfl
        | multilinestring => rw [if_neg (by rw [e1]; decide)]; rfl
        | collection => rw [if_neg (by rw [e1]; decide)]; rfl
    · rw [if_neg (by decide), if_neg (by decide), if_neg (by decide), if_pos rfl] at hy ⊢
      replace hy := Option.map_eq_none_iff.mp hy
      have hn : ¬ (n.gt = 1 ∨ n.gt = 4) := by
        cases x with
        | point s cs => cases hy
        | linestring s cs => rw [c2 _ _ rfl]; decide
        | polygon s rs => rw [c3 _ _ rfl]; decide
        | multi kd s ps =>
          rw [(c4 _ _ _ rfl).1]
          cases kd with
          | multipoint => cases hy
          | multilinestring => decide
          | multipolygon => decide
          | collection => decide
      rw [if_neg hn]
      rfl
    · rw [if_neg (by decide), if_neg (by decide), if_neg (by decide), if_neg (by decide), if_pos rfl] at hy ⊢
      replace hy := Option.map_eq_none_iff.mp hy
      have hn : ¬ n.gt = 2 ∧ ¬ n.gt = 5 := by
        cases x with
        | point s cs => rw [c1 _ _ rfl]; decide
        | linestring s cs => cases hy
        | polygon s rs => rw [c3 _ _ rfl]; decide
        | multi kd s ps =>
          rw [(c4 _ _ _ rfl).1]
          cases kd with
          | multilinestring => cases hy
          | multipoint => decide
          | multipolygon => decide
          | collection => decide
      rw [if_neg hn.1, if_neg hn.2]
      rfl
    · rw [if_neg (by decide), if_neg (by decide), if_neg (by decide), if_neg (by decide), if_neg (by decide), if_pos rfl] at hy ⊢
      replace hy := Option.map_eq_none_iff.mp hy
      have hn : ¬ n.gt = 3 ∧ ¬ n.gt = 6 := by
        cases x with
        | point s cs => rw [c1 _ _ rfl]; decide
        | linestring s cs => rw [c2 _ _ rfl]; decide
        | polygon s rs => cases hy
        | multi kd s ps =>
          rw [(c4 _ _ _ rfl).1]
          cases kd with
          | multipolygon => cases hy
          | multipoint => decide
          | multilinestring => decide
          | collection => decide
      rw [if_neg hn.1, if_neg hn.2]
      rfl
  unfold nwAppend
  rw [M.bind_run, M.get_run]
  dsimp only
  rw [hc, hgt, if_neg (by omega), M.bind_run, key]

end
end Verif
