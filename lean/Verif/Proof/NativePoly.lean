import Verif.Proof.NativeVisit
/-! # Native writer: polygons and multilinestrings -/
namespace Verif
open Spec

/-- What is known of a feature in progress: finished rings, the open one, and the state of the visitor. -/
structure PSt where
  cur : List (List Coord)
  op : List Coord
  level : Int
  dims : Nat

/-- The rings, if the open one ends here. -/
def PSt.rings (s : PSt) : List (List Coord) := if s.op = [] then s.cur else s.cur ++ [s.op]

def PSt.close (s : PSt) : PSt := { s with cur := s.rings, op := [], level := s.level - 1 }

def polyStep (d : Dims) (s : PSt) : Event → PSt
  | .geomStart gt dims => { s with dims := dims, level := if gt ∈ [2, 4] then s.level + 1 else s.level }
  | .ringStart => { s with level := s.level + 1 }
  | .coords _ rows => { s with op := s.op ++ rows.map (mapCoord (dimsOf s.dims) d) }
  | .ringEnd => s.close
  | .geomEnd => if s.level = 1 then s.close else s
  | _ => s

theorem PSt.rings_flatten (s : PSt) : s.rings.flatten = s.cur.flatten ++ s.op := by
  unfold PSt.rings
  split
  · rename_i h; rw [h, List.append_nil]
  · simp

theorem polyStep_flat (d : Dims) (s : PSt) (e : Event) :
    (polyStep d s e).cur.flatten ++ (polyStep d s e).op = s.cur.flatten ++ s.op ++ evRows d s.dims e := by
  cases e with
  | coords nv rows => show s.cur.flatten ++ (s.op ++ _) = _; rw [List.append_assoc]; rfl
  | ringEnd => show s.rings.flatten ++ [] = _ ++ []; rw [s.rings_flatten]
  | geomEnd =>
    unfold polyStep
    dsimp only
    split
    · show s.rings.flatten ++ [] = _ ++ []; rw [s.rings_flatten]
    · exact (List.append_nil _).symm
  | featStart | nullFeat | geomStart | ringStart | featEnd => exact (List.append_nil _).symm

theorem polyStep_dims (d : Dims) (s : PSt) (e : Event) : (polyStep d s e).dims = nextDims s.dims e := by
  cases e with
  | geomEnd => unfold polyStep; dsimp only; split <;> rfl
  | featStart | nullFeat | geomStart | ringStart | featEnd | coords | ringEnd => rfl

theorem polyFold_flat (d : Dims) : ∀ (t : List Event) (s : PSt),
    (t.foldl (polyStep d) s).cur.flatten ++ (t.foldl (polyStep d) s).op = s.cur.flatten ++ s.op ++ delivered d s.dims t
  | [], s => (List.append_nil _).symm
  | e :: t, s => by
    rw [List.foldl_cons, polyFold_flat d t, polyStep_flat, polyStep_dims, List.append_assoc]
    rfl

section
variable {g : Int} {d : Dims} {k : CoordKind}

/-- The writer `w` has stored `rows` and is in the middle of a feature. -/
structure PolyR (g : Int) (d : Dims) (k : CoordKind) (rows : List (List (List Coord))) (fl : List Bool) (nl : Bool) (s : PSt) (w : NWriter) : Prop where
  nw : NW g d k w (ns3 (rows.map List.length) ((rows.flatten ++ s.cur).map List.length) []) ((rows.flatten ++ s.cur).flatten ++ s.op) fl
  size : w.size 1 = s.op.length
  level : w.level = s.level
  dims : w.lastDims = s.dims
  null : w.featIsNull = nl
  ne : ∀ r ∈ rows.flatten ++ s.cur, r ≠ []
  max : (rows.flatten ++ s.cur).flatten.length ≤ 2147483647

/-- The writer between features. -/
structure PolyRest (g : Int) (d : Dims) (k : CoordKind) (rows : List (List (List Coord))) (fl : List Bool) (w : NWriter) : Prop where
  nw : NW g d k w (ns3 (rows.map List.length) (rows.flatten.map List.length) []) rows.flatten.flatten fl
  len : fl.length = rows.length
  ne : ∀ r ∈ rows.flatten, r ≠ []
  max : rows.flatten.flatten.length ≤ 2147483647

theorem depth_poly (hg : g = 5 ∨ g = 3) : listDepth g = 2 := by
  rcases hg with rfl | rfl <;> rfl

theorem poly_closeSeq (hg : g = 5 ∨ g = 3) {rows fl nl} {s : PSt} {w : NWriter} (h : PolyR g d k rows fl nl s w) (junk : Nat → Byte) :
    (do nwUp; nwCloseSeq junk 1 : M NWriter Unit) w |>.Post (fun _ w' => PolyR g d k rows fl nl s.close w')
      (fun rc _ => TooMany ((rows.flatten ++ s.cur).flatten ++ s.op).length rc) := by
  rw [M.bind_run]
  unfold nwUp
  rw [M.modify_run]
  have h1 := closeSeq_post (w := { w with level := w.level - 1 }) (h.nw.congr rfl rfl rfl) junk (i := 1) (by rw [depth_poly hg]; omega)
    (rings := rows.flatten ++ s.cur) (op := s.op) rfl rfl h.size
  refine h1.imp ?_ fun _ _ h => h
  rintro _ w' ⟨hc, h2⟩
  by_cases ho : s.op = []
  · rw [if_pos ho] at h2
    have e : s.close = { s with level := s.level - 1 } := by
      unfold PSt.close PSt.rings
      rw [if_pos ho]
      cases s
      dsimp only at ho
      subst ho
      rfl
    rw [e]
    refine ⟨h2.1, ?_, ?_, hc.dims.trans h.dims, hc.null.trans h.null, h.ne, h.max⟩
    · rw [h2.2]; exact h.size
    · rw [hc.level, ← h.level]
  · rw [if_neg ho] at h2
    obtain ⟨h3, h4, h5⟩ := h2
    have e : s.close.cur = s.cur ++ [s.op] := by
      unfold PSt.close PSt.rings
      exact if_neg ho
    rw [ns3_set1] at h3
    refine ⟨?_, ?_, ?_, hc.dims.trans h.dims, hc.null.trans h.null, ?_, ?_⟩
    · rw [e, ← List.append_assoc]
      show NW g d k w' _ ((rows.flatten ++ s.cur ++ [s.op]).flatten ++ []) fl
      rw [List.append_nil, List.flatten_append (L₂ := [s.op]), List.flatten_singleton]
      exact h3
    · rw [h5, setAt_get]; rfl
    · rw [hc.level]; show w.level - 1 = s.level - 1; rw [h.level]
    · rw [e, ← List.append_assoc]
      intro r hr
      rcases List.mem_append.mp hr with hr | hr
      · exact h.ne r hr
      · rw [List.mem_singleton] at hr; rw [hr]; exact ho
    · rw [e, ← List.append_assoc, List.flatten_append (L₂ := [s.op]), List.flatten_singleton]
      exact h4

/-- One event. -/
theorem poly_step (hg : g = 5 ∨ g = 3) (junk : Nat → Byte) {rows fl nl} (s : PSt) (e : Event) (w : NWriter) (he : EvOk s.dims e) (h : PolyR g d k rows fl nl s w) :
    (nwPoly junk e w).Post (fun _ w' => PolyR g d k rows fl nl (polyStep d s e) w')
      (fun rc _ => TooMany ((rows.flatten ++ (polyStep d s e).cur).flatten ++ (polyStep d s e).op).length rc) := by
  have htot : ((rows.flatten ++ s.close.cur).flatten ++ s.close.op).length = ((rows.flatten ++ s.cur).flatten ++ s.op).length := by
    show ((rows.flatten ++ s.rings).flatten ++ []).length = _
    rw [List.append_nil, List.flatten_append, s.rings_flatten, List.flatten_append (L₂ := s.cur), List.append_assoc]
  cases e with
  | featStart => exact he.elim
  | nullFeat => exact he.elim
  | featEnd => exact he.elim
  | geomStart gt dims =>
    refine ⟨h.nw.congr rfl rfl rfl, h.size, ?_, rfl, h.null, h.ne, h.max⟩
    show (if gt ∈ [2, 4] then w.level + 1 else w.level) = if gt ∈ [2, 4] then s.level + 1 else s.level
    rw [h.level]
  | ringStart => exact ⟨h.nw.congr rfl rfl rfl, h.size, congrArg (· + 1) h.level, h.dims, h.null, h.ne, h.max⟩
  | coords nv cs =>
    obtain ⟨s', hs, hr⟩ := he
    refine (coords_post h.nw junk 1 nv (h.dims.trans hs) hr _).imp ?_ fun _ _ h => h
    rintro _ w' ⟨h1, h2, h3⟩
    refine ⟨?_, ?_, h2.level.trans h.level, h2.dims.trans h.dims, h2.null.trans h.null, h.ne, h.max⟩
    · show NW g d k w' _ (_ ++ (s.op ++ cs.map (mapCoord (dimsOf s.dims) d))) fl
      rw [hs, dimsOf_code, ← List.append_assoc]
      exact h1
    · rw [h3, setAt_get, h.size]
      show _ = (s.op ++ cs.map _).length
      rw [List.length_append, List.length_map]
  | ringEnd =>
    refine (poly_closeSeq hg h junk).imp (fun _ _ h => h) fun rc _ ht => ?_
    show TooMany ((rows.flatten ++ s.close.cur).flatten ++ s.close.op).length rc
    rw [htot]
    exact ht
  | geomEnd =>
    show (nwGeomEndPoly junk w).Post _ _
    unfold nwGeomEndPoly polyStep
    rw [M.bind_run, M.get_run]
    dsimp only
    by_cases hl : s.level = 1
    · rw [if_pos (h.level.trans hl), if_pos hl]
      refine (poly_closeSeq hg h junk).imp (fun _ _ h => h) fun rc _ ht => ?_
      rw [htot]
      exact ht
    · rw [if_neg (show ¬ w.level = 1 by rw [h.level]; exact hl), if_neg hl]
      exact h

/-- The end of a feature. -/
theorem poly_end (hg : g = 5 ∨ g = 3) (junk : Nat → Byte) {rows fl nl} {s : PSt} {w : NWriter} (h : PolyR g d k rows fl nl s w) (hlen : fl.length = rows.length) :
    (nwPoly junk .featEnd w).Post (fun _ w' => PolyRest g d k (rows ++ [s.rings]) (fl ++ [!nl]) w')
      (fun rc _ => TooMany ((rows.flatten ++ s.cur).flatten ++ s.op).length rc) := by
  show (nwFeatEndPoly junk w).Post _ _
  unfold nwFeatEndPoly
  rw [M.bind_run, M.get_run]
  dsimp only
  have hd := depth_poly hg
  have key : ((if 0 < w.size 1 then nwCloseCoords junk 1 else pure () : M NWriter Unit) w).Post
      (fun _ w' => NW g d k w' (ns3 (rows.map List.length) ((rows.flatten ++ s.rings).map List.length) []) ((rows.flatten ++ s.rings).flatten) fl ∧ SameCtl w w' ∧
        (∀ r ∈ rows.flatten ++ s.rings, r ≠ []) ∧ (rows.flatten ++ s.rings).flatten.length ≤ 2147483647)
      (fun rc _ => TooMany ((rows.flatten ++ s.cur).flatten ++ s.op).length rc) := by
    rw [h.size]
    by_cases ho : s.op = []
    · rw [if_neg (by rw [ho]; simp)]
      have e : s.rings = s.cur := if_pos ho
      have hn := h.nw
      rw [ho, List.append_nil] at hn
      show _ ∧ _
      rw [e]
      exact ⟨hn, .rfl' w, h.ne, h.max⟩
    · rw [if_pos (List.length_pos_iff.mpr ho)]
      have e : s.rings = s.cur ++ [s.op] := if_neg ho
      refine (closeCoords_post h.nw junk (i := 1) (by omega) (rings := rows.flatten ++ s.cur) (op := s.op) rfl rfl).imp ?_ fun _ _ h => h
      rintro _ w' ⟨h1, h2, -, h4⟩
      rw [ns3_set1] at h1
      rw [e, ← List.append_assoc, List.flatten_append (L₂ := [s.op]), List.flatten_singleton]
      refine ⟨h1, h2, ?_, h4⟩
      intro r hr
      rcases List.mem_append.mp hr with hr | hr
      · exact h.ne r hr
      · rw [List.mem_singleton] at hr; rw [hr]; exact ho
  refine post_bind key ?_
  rintro _ w1 ⟨h1, h2, h3, h4⟩
  have hcount := length_le_flatten _ h3
  refine post_bind (closeLists_post h1 junk (i := 0) (by omega) (polys := rows) (cur := s.rings) rfl
    (by show ((rows.flatten ++ s.rings).map List.length).length = _; rw [List.length_map, List.length_append])
    (by show ((rows.flatten ++ s.rings).map List.length).length ≤ _; rw [List.length_map]; omega) _) ?_
  rintro _ w2 ⟨h5, h6, -⟩
  rw [ns3_set0] at h5
  rw [M.bind_ok (count_nw h5 (by omega : 0 < listDepth g)), M.bind_run, M.get_run]
  dsimp only
  refine (mark_post h5 junk (fun rc _ => TooMany ((rows.flatten ++ s.cur).flatten ++ s.op).length rc) (len := (((ns3 ((rows ++ [s.rings]).map List.length) ((rows.flatten ++ s.rings).map List.length) []) 0).length : Int)) ?_ w2.featIsNull).imp ?_ fun _ _ h => h
  · show ((((rows ++ [s.rings]).map List.length).length : Nat) : Int) = _
    rw [List.length_map, List.length_append, List.length_singleton, hlen]
    omega
  · intro _ w3 h7
    rw [h6.null, h2.null, h.null] at h7
    have ef : (rows ++ [s.rings]).flatten = rows.flatten ++ s.rings := by rw [List.flatten_append, List.flatten_singleton]
    refine ⟨?_, by rw [List.length_append, List.length_append, hlen]; rfl, by rw [ef]; exact h3, by rw [ef]; exact h4⟩
    rw [ef]
    exact h7

def PSt.init (n : Nat) : PSt := ⟨[], [], 0, n⟩

/-- The start of a feature. -/
theorem poly_start (junk : Nat → Byte) {rows fl} {w : NWriter} (h : PolyRest g d k rows fl w) :
    ∃ w', nwPoly junk .featStart w = .ok () w' ∧ PolyR g d k rows fl false (.init w.lastDims) w' := by
  refine ⟨_, rfl, ?_, rfl, rfl, rfl, rfl, ?_, ?_⟩
  · show NW g d k _ (ns3 _ ((rows.flatten ++ []).map List.length) []) ((rows.flatten ++ []).flatten ++ []) fl
    rw [List.append_nil, List.append_nil]
    exact h.nw.congr rfl rfl rfl
  · show ∀ r ∈ rows.flatten ++ [], r ≠ []
    rw [List.append_nil]
    exact h.ne
  · show (rows.flatten ++ []).flatten.length ≤ _
    rw [List.append_nil]
    exact h.max

/-- A feature with any geometry. -/
theorem poly_feature (hg : g = 5 ∨ g = 3) (junk : Nat → Byte) {rows fl} {w : NWriter} (h : PolyRest g d k rows fl w) {t : List Event} (hb : ∀ n, BodyOk n t) :
    (feed (nwPoly junk) (.featStart :: t ++ [.featEnd]) w).Post
      (fun _ w' => PolyRest g d k (rows ++ [(t.foldl (polyStep d) (.init w.lastDims)).rings]) (fl ++ [true]) w')
      (fun rc _ => TooMany (rows.flatten.flatten.length + (delivered d w.lastDims t).length) rc) := by
  obtain ⟨w1, h1, h2⟩ := poly_start junk h
  have htot : ∀ s : PSt, s.cur.flatten ++ s.op = delivered d w.lastDims t →
      ((rows.flatten ++ s.cur).flatten ++ s.op).length = rows.flatten.flatten.length + (delivered d w.lastDims t).length := by
    intro s hs
    rw [List.flatten_append, List.append_assoc, hs, List.length_append]
  have hflat := htot _ (polyFold_flat d t (.init w.lastDims))
  rw [List.cons_append, feed_cons_ok' h1]
  refine post_feed_append (Q := fun _ w' => PolyR g d k rows fl false (t.foldl (polyStep d) (.init w.lastDims)) w') ?_ ?_
  · have := sim_feed (R := PolyR g d k rows fl false) (step := polyStep d) (dims := PSt.dims)
      (total := fun s => ((rows.flatten ++ s.cur).flatten ++ s.op).length) (E := TooMany) (h := nwPoly junk)
      (fun s e w he hr => poly_step hg junk s e w he hr) (polyStep_dims d) (fun s e => by
        rw [List.flatten_append, List.append_assoc, List.flatten_append, List.append_assoc, polyStep_flat]
        simp only [List.length_append]
        omega) TooMany.mono t (.init w.lastDims) w1 (hb _) h2
    refine this.imp (fun _ _ h => h) fun rc _ ht => ?_
    rw [hflat] at ht
    exact ht
  · intro w2 h3
    refine post_feed_cons ((poly_end hg junk h3 h.len).imp (fun _ _ h => h) fun rc _ ht => ?_) fun _ h => h
    rw [hflat] at ht
    exact ht

/-- A null feature. -/
theorem poly_null (hg : g = 5 ∨ g = 3) (junk : Nat → Byte) {rows fl} {w : NWriter} (h : PolyRest g d k rows fl w) :
    (feed (nwPoly junk) [.featStart, .nullFeat, .featEnd] w).Post (fun _ w' => PolyRest g d k (rows ++ [[]]) (fl ++ [false]) w')
      (fun rc _ => TooMany rows.flatten.flatten.length rc) := by
  obtain ⟨w1, h1, h2⟩ := poly_start junk h
  rw [feed_cons_ok' h1]
  have h3 : PolyR g d k rows fl true (.init w.lastDims) { w1 with featIsNull := true } :=
    ⟨h2.nw.congr rfl rfl rfl, h2.size, h2.level, h2.dims, rfl, h2.ne, h2.max⟩
  rw [feed_cons_ok' (rfl : nwPoly junk .nullFeat w1 = .ok () { w1 with featIsNull := true })]
  refine post_feed_cons ((poly_end hg junk h3 h.len).imp (fun _ _ h => h) fun rc _ ht => ?_) fun _ h => h
  have e : ((rows.flatten ++ (PSt.init w.lastDims).cur).flatten ++ (PSt.init w.lastDims).op) = rows.flatten.flatten := by
    show (rows.flatten ++ []).flatten ++ [] = _
    rw [List.append_nil, List.append_nil]
  rw [e] at ht
  exact ht

theorem poly_begin {w : NWriter} (h : NW g d k w (fun _ => []) [] []) : PolyRest g d k [] [] w := by
  rw [ns3_nil] at h
  exact ⟨h, rfl, by simp, by simp⟩

end

/-! ## Features of the writer's types -/

/-- Coordinates in chunks. -/
theorem polyFold_chunks (d : Dims) (s : Dims) (nv : Nat) : ∀ (chunks : List (List Coord)) (p : PSt), p.dims = s.code →
    (chunks.map (Event.coords nv)).foldl (polyStep d) p = { p with op := p.op ++ chunks.flatten.map (mapCoord s d) }
  | [], p, _ => by simp
  | c :: cs, p, hp => by
    rw [List.map_cons, List.foldl_cons]
    refine (polyFold_chunks d s nv cs (polyStep d p (.coords nv c)) hp).trans ?_
    show PSt.mk p.cur (p.op ++ c.map (mapCoord (dimsOf p.dims) d) ++ _) p.level p.dims = _
    rw [hp, dimsOf_code, List.flatten_cons, List.map_append, List.append_assoc]

/-- The rings that are kept. -/
def keptRings (s d : Dims) (rs : List (List Coord)) : List (List Coord) := (rs.filter fun r => !r.isEmpty).map (·.map (mapCoord s d))

theorem keptRings_cons (s d : Dims) (r : List Coord) (rs : List (List Coord)) :
    keptRings s d (r :: rs) = (if r = [] then [] else [r.map (mapCoord s d)]) ++ keptRings s d rs := by
  unfold keptRings
  cases r with
  | nil => rfl
  | cons c r => rfl

theorem polyFold_rings (d s : Dims) (nv : Nat) : ∀ (rs : List (List Coord)) (t : List Event) (p : PSt), RingsTrace nv rs t → p.dims = s.code → p.op = [] →
    t.foldl (polyStep d) p = { p with cur := p.cur ++ keptRings s d rs }
  | [], t, p, h, _, _ => by
    cases h
    simp [keptRings]
  | r :: rs, t, p, h, hp, ho => by
    obtain ⟨t1, t2, ⟨chunks, rfl, rfl⟩, h2, rfl⟩ := h
    rw [List.cons_append, List.foldl_cons, List.foldl_append, List.foldl_cons]
    rw [polyFold_chunks d s nv chunks _ (by exact hp)]
    have e : polyStep d { polyStep d p .ringStart with op := (polyStep d p .ringStart).op ++ chunks.flatten.map (mapCoord s d) } .ringEnd =
        { p with cur := p.cur ++ (if chunks.flatten = [] then [] else [chunks.flatten.map (mapCoord s d)]) } := by
      cases p with
      | mk cur op level dims =>
        dsimp only at ho
        subst ho
        show PSt.mk _ _ _ _ = PSt.mk _ _ _ _
        unfold PSt.rings polyStep
        dsimp only
        by_cases hc : chunks.flatten = []
        · rw [hc]
          simp
        · rw [if_neg hc, if_neg (show ¬ ([] ++ chunks.flatten.map (mapCoord s d) = []) by rw [List.nil_append, List.map_eq_nil_iff]; exact hc), List.nil_append,
            show level + 1 - 1 = level by omega]
    rw [e]
    refine (polyFold_rings d s nv rs t2 (PSt.mk (p.cur ++ if chunks.flatten = [] then [] else [chunks.flatten.map (mapCoord s d)]) p.op p.level p.dims) h2 hp ho).trans ?_
    rw [keptRings_cons, List.append_assoc]

theorem polyFold_polygon {d s : Dims} {rs : List (List Coord)} {t : List Event} (h : (Geom.polygon s rs).Trace t) (n : Nat) :
    (t.foldl (polyStep d) (.init n)).rings = keptRings s d rs := by
  obtain ⟨b, hb, rfl⟩ := h
  rw [List.cons_append, List.foldl_cons, List.foldl_append]
  rw [polyFold_rings d s s.n rs b _ hb rfl rfl]
  rfl

/-- A linestring inside of a multilinestring. -/
theorem polyFold_line {d s : Dims} {cs : List Coord} {t : List Event} (h : (Geom.linestring s cs).Trace t) (p : PSt) (hl : p.level = 0) (ho : p.op = []) :
    ∃ n, t.foldl (polyStep d) p = { p with cur := p.cur ++ keptRings s d [cs], dims := n } := by
  obtain ⟨b, ⟨chunks, rfl, rfl⟩, rfl⟩ := h
  refine ⟨s.code, ?_⟩
  rw [List.cons_append, List.foldl_cons, List.foldl_append, polyFold_chunks d s s.n chunks _ rfl]
  cases p with
  | mk cur op level dims =>
    dsimp only at ho hl
    subst ho hl
    show polyStep d ⟨cur, [] ++ chunks.flatten.map (mapCoord s d), 0 + 1, s.code⟩ .geomEnd = _
    unfold polyStep
    dsimp only
    rw [if_pos (by omega)]
    unfold PSt.close PSt.rings
    rw [keptRings_cons]
    by_cases hc : chunks.flatten = []
    · rw [hc]; simp [keptRings]
    · rw [if_neg hc, if_neg (show ¬ ([] ++ chunks.flatten.map (mapCoord s d) = []) by rw [List.nil_append, List.map_eq_nil_iff]; exact hc)]
      simp [keptRings]

theorem polyFold_lines (d : Dims) : ∀ (ls : List Geom) (t : List Event) (p : PSt), Geom.TraceL ls t → (∀ x ∈ ls, ∃ s cs, x = .linestring s cs) →
    p.level = 0 → p.op = [] → ∃ n, t.foldl (polyStep d) p =
      { p with cur := p.cur ++ (ls.flatMap fun x => match x with | .linestring s cs => keptRings s d [cs] | _ => []), dims := n }
  | [], t, p, h, _, _, _ => by
    cases h
    exact ⟨p.dims, by simp⟩
  | x :: ls, t, p, h, hx, hl, ho => by
    obtain ⟨t1, t2, h1, h2, rfl⟩ := h
    obtain ⟨s, cs, rfl⟩ := hx x (by simp)
    obtain ⟨n, h3⟩ := polyFold_line (d := d) h1 p hl ho
    obtain ⟨n', h4⟩ := polyFold_lines d ls t2 { p with cur := p.cur ++ keptRings s d [cs], dims := n } h2 (fun x' hx' => hx x' (by simp [hx'])) hl ho
    refine ⟨n', ?_⟩
    rw [List.foldl_append, h3, h4]
    simp

theorem polyFold_multi {d s : Dims} {ls : List Geom} {t : List Event} (h : (Geom.multi .multilinestring s ls).Trace t) (hx : ∀ x ∈ ls, ∃ s cs, x = .linestring s cs) (n : Nat) :
    (t.foldl (polyStep d) (.init n)).rings = ls.flatMap fun x => match x with | .linestring s cs => keptRings s d [cs] | _ => [] := by
  obtain ⟨b, hb, rfl⟩ := h
  rw [List.cons_append, List.foldl_cons, List.foldl_append]
  obtain ⟨n', h1⟩ := polyFold_lines d ls b (polyStep d (.init n) (.geomStart MultiKind.multilinestring.code s.code)) hb hx rfl rfl
  rw [h1]
  rfl

end Verif
