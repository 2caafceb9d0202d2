import Verif.Proof.NativeVisit
/-! # Native writer: linestrings and multipoints -/
namespace Verif
open Spec

/-- A feature in progress: finished sequences, coordinates after them, and the state of the visitor. -/
structure LSt where
  cur : List (List Coord)
  op : List Coord
  level : Int
  nesting : Nat
  dims : Nat

def LSt.close (s : LSt) : LSt := { s with cur := s.cur ++ [s.op], op := [], level := s.level - 1 }

def lineStep (d : Dims) (s : LSt) : Event → LSt
  | .geomStart gt dims => { s with dims := dims, level := if gt = 2 ∨ gt = 4 then s.level + 1 else s.level,
                                   nesting := if gt = 4 then 1 else if gt = 1 ∧ s.nesting ≠ 0 then s.nesting + 1 else s.nesting }
  | .ringStart => { s with level := s.level + 1 }
  | .coords _ rows => { s with op := s.op ++ rows.map (mapCoord (dimsOf s.dims) d) }
  | .ringEnd => s.close
  | .geomEnd => if s.nesting = 2 then { s with nesting := 1 } else if s.level = 1 then s.close else s
  | _ => s

def LSt.all (s : LSt) : List Coord := s.cur.flatten ++ s.op

theorem LSt.close_all (s : LSt) : s.close.all = s.all := by
  unfold LSt.all
  show (s.cur ++ [s.op]).flatten ++ [] = _
  rw [List.append_nil, List.flatten_append, List.flatten_singleton]

theorem lineStep_all (d : Dims) (s : LSt) (e : Event) : (lineStep d s e).all = s.all ++ evRows d s.dims e := by
  cases e with
  | coords nv rows => exact (List.append_assoc _ _ _).symm
  | ringEnd => exact s.close_all.trans (List.append_nil _).symm
  | geomEnd =>
    refine Eq.trans ?_ (List.append_nil _).symm
    unfold lineStep
    dsimp only
    split
    · rfl
    split
    · exact s.close_all
    · rfl
  | featStart | nullFeat | geomStart | ringStart | featEnd => exact (List.append_nil _).symm

theorem lineStep_dims (d : Dims) (s : LSt) (e : Event) : (lineStep d s e).dims = nextDims s.dims e := by
  cases e with
  | geomEnd =>
    unfold lineStep
    dsimp only
    split
    · rfl
    split <;> rfl
  | featStart | nullFeat | geomStart | ringStart | featEnd | coords | ringEnd => rfl

theorem lineFold_all (d : Dims) : ∀ (t : List Event) (s : LSt), (t.foldl (lineStep d) s).all = s.all ++ delivered d s.dims t
  | [], s => (List.append_nil _).symm
  | e :: t, s => by
    rw [List.foldl_cons, lineFold_all d t, lineStep_all, lineStep_dims, List.append_assoc]
    rfl

section
variable {g : Int} {d : Dims} {k : CoordKind}

/-- The writer `w` has stored the lists `rows` and is in the middle of a feature. -/
structure LineR (g : Int) (d : Dims) (k : CoordKind) (rows : List (List Coord)) (fl : List Bool) (nl : Bool) (s : LSt) (w : NWriter) : Prop where
  nw : NW g d k w (ns3 ((rows ++ s.cur).map List.length) [] []) ((rows ++ s.cur).flatten ++ s.op) fl
  size : w.size 0 = s.cur.length
  level : w.level = s.level
  nesting : w.nesting = s.nesting
  dims : w.lastDims = s.dims
  null : w.featIsNull = nl
  max : (rows ++ s.cur).flatten.length ≤ 2147483647

/-- The writer between features; the coordinates `lo` belong to no feature. -/
structure LineRest (g : Int) (d : Dims) (k : CoordKind) (rows : List (List Coord)) (lo : List Coord) (fl : List Bool) (w : NWriter) : Prop where
  nw : NW g d k w (ns3 (rows.map List.length) [] []) (rows.flatten ++ lo) fl
  len : fl.length = rows.length
  max : rows.flatten.length ≤ 2147483647

theorem depth_line (hg : g = 4 ∨ g = 2) : listDepth g = 1 := by
  rcases hg with rfl | rfl <;> rfl

theorem line_total (rows : List (List Coord)) (s : LSt) : ((rows ++ s.cur).flatten ++ s.op).length = rows.flatten.length + s.all.length := by
  unfold LSt.all
  simp only [List.flatten_append, List.length_append]
  omega

theorem line_close (hg : g = 4 ∨ g = 2) {rows fl nl} {s : LSt} {w : NWriter} (h : LineR g d k rows fl nl s w) (junk : Nat → Byte) :
    (nwCloseLine junk w).Post (fun _ w' => LineR g d k rows fl nl s.close w') (fun rc _ => TooMany (rows.flatten.length + s.all.length) rc) := by
  unfold nwCloseLine
  rw [M.bind_run, M.modify_run, ← line_total]
  dsimp only
  have hd := depth_line hg
  refine (closeCoords_post (w := { w with level := w.level - 1, size := setAt w.size 0 (w.size 0 + 1) }) (h.nw.congr rfl rfl rfl) junk (i := 0) (by omega)
    (rings := rows ++ s.cur) (op := s.op) rfl rfl).imp ?_ fun _ _ h => h
  rintro _ w' ⟨h1, h2, h3, h4⟩
  rw [ns3_set0] at h1
  have e : rows ++ s.close.cur = rows ++ s.cur ++ [s.op] := (List.append_assoc _ _ _).symm
  have ef : (rows ++ s.close.cur).flatten = (rows ++ s.cur).flatten ++ s.op := by
    rw [e, List.flatten_append (L₂ := [s.op]), List.flatten_singleton]
  refine ⟨?_, ?_, ?_, h2.nesting.trans h.nesting, h2.dims.trans h.dims, h2.null.trans h.null, by rw [ef]; exact h4⟩
  · rw [ef, e]
    show NW g d k w' _ (_ ++ []) fl
    rw [List.append_nil]
    exact h1
  · rw [h3]
    show setAt w.size 0 (w.size 0 + 1) 0 = (s.cur ++ [s.op]).length
    rw [setAt_get, h.size, List.length_append]
    rfl
  · rw [h2.level]; show w.level - 1 = s.level - 1; rw [h.level]

/-- One event. -/
theorem line_step (hg : g = 4 ∨ g = 2) (junk : Nat → Byte) {rows fl nl} (s : LSt) (e : Event) (w : NWriter) (he : EvOk s.dims e) (h : LineR g d k rows fl nl s w) :
    (nwLine junk e w).Post (fun _ w' => LineR g d k rows fl nl (lineStep d s e) w')
      (fun rc _ => TooMany (rows.flatten.length + (lineStep d s e).all.length) rc) := by
  cases e with
  | featStart => exact he.elim
  | nullFeat => exact he.elim
  | featEnd => exact he.elim
  | geomStart gt dims =>
    refine ⟨h.nw.congr rfl rfl rfl, h.size, ?_, ?_, rfl, h.null, h.max⟩
    · show (if gt = 2 ∨ gt = 4 then w.level + 1 else w.level) = if gt = 2 ∨ gt = 4 then s.level + 1 else s.level
      rw [h.level]
    · show (if gt = 4 then 1 else if gt = 1 ∧ w.nesting ≠ 0 then w.nesting + 1 else w.nesting) =
        if gt = 4 then 1 else if gt = 1 ∧ s.nesting ≠ 0 then s.nesting + 1 else s.nesting
      rw [h.nesting]
  | ringStart => exact ⟨h.nw.congr rfl rfl rfl, h.size, congrArg (· + 1) h.level, h.nesting, h.dims, h.null, h.max⟩
  | coords nv cs =>
    obtain ⟨s', hs, hr⟩ := he
    refine (coords_post h.nw junk 1 nv (h.dims.trans hs) hr _).imp ?_ fun _ _ h => h
    rintro _ w' ⟨h1, h2, h3⟩
    refine ⟨?_, ?_, h2.level.trans h.level, h2.nesting.trans h.nesting, h2.dims.trans h.dims, h2.null.trans h.null, h.max⟩
    · show NW g d k w' _ (_ ++ (s.op ++ cs.map (mapCoord (dimsOf s.dims) d))) fl
      rw [hs, dimsOf_code, ← List.append_assoc]
      exact h1
    · rw [h3, setAt_ne _ _ (by omega)]
      exact h.size
  | ringEnd =>
    refine (line_close hg h junk).imp (fun _ _ h => h) fun rc _ ht => ?_
    show TooMany (_ + s.close.all.length) rc
    rw [s.close_all]
    exact ht
  | geomEnd =>
    show (nwGeomEndLine junk w).Post _ _
    unfold nwGeomEndLine lineStep
    rw [M.bind_run, M.get_run]
    dsimp only
    by_cases hn : s.nesting = 2
    · rw [if_pos (h.nesting.trans hn), if_pos hn]
      exact ⟨h.nw.congr rfl rfl rfl, h.size, h.level, rfl, h.dims, h.null, h.max⟩
    rw [if_neg (show ¬ w.nesting = 2 by rw [h.nesting]; exact hn), if_neg hn]
    by_cases hl : s.level = 1
    · rw [if_pos (h.level.trans hl), if_pos hl]
      refine (line_close hg h junk).imp (fun _ _ h => h) fun rc _ ht => ?_
      rw [s.close_all]
      exact ht
    · rw [if_neg (show ¬ w.level = 1 by rw [h.level]; exact hl), if_neg hl]
      exact h

/-- The list stored for the feature, and what is left. -/
def LSt.row (s : LSt) : List Coord := s.cur.headD s.op
def LSt.left (s : LSt) : List Coord := if s.cur = [] then [] else s.op

/-- The end of a feature. -/
theorem line_end (hg : g = 4 ∨ g = 2) (junk : Nat → Byte) {rows fl nl} {s : LSt} {w : NWriter} (h : LineR g d k rows fl nl s w) (hlen : fl.length = rows.length) :
    (nwLine junk .featEnd w).Post (fun _ w' => s.cur.length ≤ 1 ∧ LineRest g d k (rows ++ [s.row]) s.left (fl ++ [!nl]) w')
      (fun rc _ => (rc = EINVAL ∧ 1 < s.cur.length) ∨ TooMany (rows.flatten.length + s.all.length) rc) := by
  show (nwFeatEndLine junk w).Post _ _
  unfold nwFeatEndLine
  rw [M.bind_run, M.get_run, ← line_total]
  dsimp only
  have hd := depth_line hg
  have key : ((if w.size 0 = 0 then nwCloseCoords junk 0 else if w.size 0 ≠ 1 then M.fail EINVAL else pure () : M NWriter Unit) w).Post
      (fun _ w' => s.cur.length ≤ 1 ∧ NW g d k w' (ns3 ((rows ++ [s.row]).map List.length) [] []) ((rows ++ [s.row]).flatten ++ s.left) fl ∧ SameCtl w w' ∧
        (rows ++ [s.row]).flatten.length ≤ 2147483647)
      (fun rc _ => (rc = EINVAL ∧ 1 < s.cur.length) ∨ TooMany ((rows ++ s.cur).flatten ++ s.op).length rc) := by
    rw [h.size]
    obtain ⟨cur, op, level, nesting, dims⟩ := s
    match cur, h with
    | [], h =>
      rw [if_pos (show ([] : List (List Coord)).length = 0 from rfl)]
      have h0 := h.nw
      rw [List.append_nil] at h0
      refine (closeCoords_post h0 junk (i := 0) (by omega) (rings := rows) (op := op) rfl rfl).imp ?_ ?_
      · rintro _ w' ⟨h1, h2, -, h4⟩
        rw [ns3_set0] at h1
        refine ⟨Nat.zero_le _, ?_, h2, ?_⟩
        · show NW g d k w' (ns3 ((rows ++ [op]).map List.length) [] []) ((rows ++ [op]).flatten ++ []) fl
          rw [List.append_nil, List.flatten_append, List.flatten_singleton]
          exact h1
        · show (rows ++ [op]).flatten.length ≤ _
          rw [List.flatten_append, List.flatten_singleton]
          exact h4
      · intro rc _ ht
        dsimp only
        rw [List.append_nil]
        exact .inr ht
    | [r], h =>
      rw [if_neg (by simp), if_neg (by simp)]
      exact ⟨Nat.le_refl _, h.nw, .rfl' w, h.max⟩
    | c :: c' :: op, h =>
      rw [if_neg (by simp), if_pos (by simp)]
      exact .inl ⟨rfl, by simp⟩
  refine post_bind key ?_
  rintro _ w1 ⟨h0, h1, h2, h3⟩
  rw [M.bind_ok (count_nw h1 (by omega : 0 < listDepth g)), M.bind_run, M.get_run]
  dsimp only
  refine (mark_post h1 junk _ (len := (((ns3 ((rows ++ [s.row]).map List.length) [] []) 0).length : Int)) ?_ w1.featIsNull).imp ?_ fun _ _ h => h
  · show ((((rows ++ [s.row]).map List.length).length : Nat) : Int) = _
    rw [List.length_map, List.length_append, List.length_singleton, hlen]
    omega
  · intro _ w2 h4
    rw [h2.null, h.null] at h4
    exact ⟨h0, h4, by rw [List.length_append, List.length_append, hlen]; rfl, h3⟩

def LSt.init (lo : List Coord) (n : Nat) : LSt := ⟨[], lo, 0, 0, n⟩

/-- The start of a feature. -/
theorem line_start (junk : Nat → Byte) {rows lo fl} {w : NWriter} (h : LineRest g d k rows lo fl w) :
    ∃ w', nwLine junk .featStart w = .ok () w' ∧ LineR g d k rows fl false (.init lo w.lastDims) w' := by
  refine ⟨_, rfl, ?_, rfl, rfl, rfl, rfl, rfl, ?_⟩
  · show NW g d k _ (ns3 ((rows ++ []).map List.length) [] []) ((rows ++ []).flatten ++ lo) fl
    rw [List.append_nil]
    exact h.nw.congr rfl rfl rfl
  · show (rows ++ []).flatten.length ≤ _
    rw [List.append_nil]
    exact h.max

/-- A feature with any geometry. -/
theorem line_feature (hg : g = 4 ∨ g = 2) (junk : Nat → Byte) {rows lo fl} {w : NWriter} (h : LineRest g d k rows lo fl w) {t : List Event} (hb : ∀ n, BodyOk n t) :
    (feed (nwLine junk) (.featStart :: t ++ [.featEnd]) w).Post
      (fun _ w' => (t.foldl (lineStep d) (.init lo w.lastDims)).cur.length ≤ 1 ∧
        LineRest g d k (rows ++ [(t.foldl (lineStep d) (.init lo w.lastDims)).row]) (t.foldl (lineStep d) (.init lo w.lastDims)).left (fl ++ [true]) w')
      (fun rc _ => (rc = EINVAL ∧ 1 < (t.foldl (lineStep d) (.init lo w.lastDims)).cur.length) ∨
        TooMany (rows.flatten.length + lo.length + (delivered d w.lastDims t).length) rc) := by
  obtain ⟨w1, h1, h2⟩ := line_start junk h
  have hall : rows.flatten.length + (t.foldl (lineStep d) (.init lo w.lastDims)).all.length = rows.flatten.length + lo.length + (delivered d w.lastDims t).length := by
    rw [lineFold_all]
    show _ + ((lo ++ _).length) = _
    rw [List.length_append, ← Nat.add_assoc]
    rfl
  rw [List.cons_append, feed_cons_ok' h1]
  refine post_feed_append (Q := fun _ w' => LineR g d k rows fl false (t.foldl (lineStep d) (.init lo w.lastDims)) w') ?_ ?_
  · have := sim_feed (R := LineR g d k rows fl false) (step := lineStep d) (dims := LSt.dims)
      (total := fun s => rows.flatten.length + s.all.length) (E := TooMany) (h := nwLine junk)
      (fun s e w he hr => line_step hg junk s e w he hr) (lineStep_dims d) (fun s e => by
        rw [lineStep_all, List.length_append]
        omega) TooMany.mono t (.init lo w.lastDims) w1 (hb _) h2
    refine this.imp (fun _ _ h => h) fun rc _ ht => ?_
    rw [hall] at ht
    exact .inr ht
  · intro w2 h3
    have := line_end hg junk h3 h.len
    rw [hall] at this
    exact post_feed_cons this fun _ h => h

/-- A null feature. -/
theorem line_null (hg : g = 4 ∨ g = 2) (junk : Nat → Byte) {rows lo fl} {w : NWriter} (h : LineRest g d k rows lo fl w) :
    (feed (nwLine junk) [.featStart, .nullFeat, .featEnd] w).Post (fun _ w' => LineRest g d k (rows ++ [lo]) [] (fl ++ [false]) w')
      (fun rc _ => TooMany (rows.flatten.length + lo.length) rc) := by
  obtain ⟨w1, h1, h2⟩ := line_start junk h
  rw [feed_cons_ok' h1]
  have h3 : LineR g d k rows fl true (.init lo w.lastDims) { w1 with featIsNull := true } :=
    ⟨h2.nw.congr rfl rfl rfl, h2.size, h2.level, h2.nesting, h2.dims, rfl, h2.max⟩
  rw [feed_cons_ok' (rfl : nwLine junk .nullFeat w1 = .ok () { w1 with featIsNull := true })]
  refine post_feed_cons ((line_end hg junk h3 h.len).imp (fun _ _ h => h.2) fun rc _ ht => ?_) fun _ h => h
  rcases ht with ht | ht
  · have := ht.2
    simp [LSt.init] at this
  · exact ht

theorem line_begin {w : NWriter} (h : NW g d k w (fun _ => []) [] []) : LineRest g d k [] [] [] w := by
  rw [ns3_nil] at h
  exact ⟨h, rfl, by simp⟩

end

/-! ## Geometries that are not collections -/

theorem lineFold_chunks (d : Dims) (s : Dims) (nv : Nat) : ∀ (chunks : List (List Coord)) (p : LSt), p.dims = s.code →
    (chunks.map (Event.coords nv)).foldl (lineStep d) p = { p with op := p.op ++ chunks.flatten.map (mapCoord s d) }
  | [], p, _ => by simp
  | c :: cs, p, hp => by
    rw [List.map_cons, List.foldl_cons]
    refine (lineFold_chunks d s nv cs (lineStep d p (.coords nv c)) hp).trans ?_
    show LSt.mk p.cur (p.op ++ c.map (mapCoord (dimsOf p.dims) d) ++ _) p.level p.nesting p.dims = _
    rw [hp, dimsOf_code, List.flatten_cons, List.map_append, List.append_assoc]

theorem lineFold_rings (d s : Dims) (nv : Nat) : ∀ (rs : List (List Coord)) (t : List Event) (p : LSt), RingsTrace nv rs t → p.dims = s.code → p.op = [] →
    t.foldl (lineStep d) p = { p with cur := p.cur ++ rs.map (·.map (mapCoord s d)) }
  | [], t, p, h, _, _ => by
    cases h
    simp
  | r :: rs, t, p, h, hp, ho => by
    obtain ⟨t1, t2, ⟨chunks, rfl, rfl⟩, h2, rfl⟩ := h
    rw [List.cons_append, List.foldl_cons, List.foldl_append, List.foldl_cons]
    rw [lineFold_chunks d s nv chunks _ (by exact hp)]
    have e : lineStep d { lineStep d p .ringStart with op := (lineStep d p .ringStart).op ++ chunks.flatten.map (mapCoord s d) } .ringEnd =
        { p with cur := p.cur ++ [chunks.flatten.map (mapCoord s d)] } := by
      cases p with
      | mk cur op level nesting dims =>
        dsimp only at ho
        subst ho
        show LSt.mk _ _ (level + 1 - 1) _ _ = LSt.mk _ _ _ _ _
        rw [show level + 1 - 1 = level by omega]
        rfl
    rw [e]
    refine (lineFold_rings d s nv rs t2 (LSt.mk (p.cur ++ [chunks.flatten.map (mapCoord s d)]) p.op p.level p.nesting p.dims) h2 hp ho).trans ?_
    dsimp only
    rw [List.map_cons, List.append_assoc]
    rfl

theorem lineFold_polygon {d s : Dims} {rs : List (List Coord)} {t : List Event} (h : (Geom.polygon s rs).Trace t) (p : LSt) (hl : p.level = 0)
    (hn : p.nesting = 0) (ho : p.op = []) :
    t.foldl (lineStep d) p = { p with cur := p.cur ++ rs.map (·.map (mapCoord s d)), dims := s.code } := by
  obtain ⟨b, hb, rfl⟩ := h
  rw [List.cons_append, List.foldl_cons, List.foldl_append, lineFold_rings d s s.n rs b (lineStep d p (.geomStart 3 s.code)) hb rfl ho]
  cases p with
  | mk cur op level nesting dims =>
    dsimp only at ho hl hn
    subst ho hl hn
    rfl

theorem lineFold_line {d s : Dims} {cs : List Coord} {t : List Event} (h : (Geom.linestring s cs).Trace t) (p : LSt) (hl : p.level = 0)
    (hn : p.nesting = 0) (ho : p.op = []) :
    t.foldl (lineStep d) p = { p with cur := p.cur ++ [cs.map (mapCoord s d)], dims := s.code } := by
  obtain ⟨b, ⟨chunks, rfl, rfl⟩, rfl⟩ := h
  rw [List.cons_append, List.foldl_cons, List.foldl_append, lineFold_chunks d s s.n chunks (lineStep d p (.geomStart 2 s.code)) rfl]
  cases p with
  | mk cur op level nesting dims =>
    dsimp only at ho hl hn
    subst ho hl hn
    rfl

/-- A point: its coordinates stay open. -/
theorem lineFold_point {d s : Dims} {cs : List Coord} {t : List Event} (h : (Geom.point s cs).Trace t) (p : LSt)
    (hn : (p.level = 0 ∧ p.nesting = 0) ∨ p.nesting = 1) :
    t.foldl (lineStep d) p = { p with op := p.op ++ cs.map (mapCoord s d), dims := s.code } := by
  obtain ⟨b, ⟨chunks, rfl, rfl⟩, rfl⟩ := h
  rw [List.cons_append, List.foldl_cons, List.foldl_append, lineFold_chunks d s s.n chunks (lineStep d p (.geomStart 1 s.code)) rfl]
  cases p with
  | mk cur op level nesting dims =>
    dsimp only at hn
    rcases hn with ⟨rfl, rfl⟩ | rfl
    · rfl
    · rfl

theorem lineFold_points (d : Dims) : ∀ (ps : List Geom) (t : List Event) (p : LSt), Geom.TraceL ps t → (∀ x ∈ ps, ∃ s cs, x = .point s cs) →
    p.nesting = 1 → ∃ n, t.foldl (lineStep d) p = { p with op := p.op ++ mapped d (Geom.allCoordsL ps), dims := n }
  | [], t, p, h, _, _ => by
    cases h
    exact ⟨p.dims, by simp [Geom.allCoordsL, mapped]⟩
  | x :: ps, t, p, h, hx, hn => by
    obtain ⟨t1, t2, h1, h2, rfl⟩ := h
    obtain ⟨s, cs, rfl⟩ := hx x (by simp)
    obtain ⟨n', h4⟩ := lineFold_points d ps t2 { p with op := p.op ++ cs.map (mapCoord s d), dims := s.code } h2 (fun x' hx' => hx x' (by simp [hx'])) hn
    refine ⟨n', ?_⟩
    rw [List.foldl_append, lineFold_point h1 p (.inr hn), h4]
    simp [Geom.allCoordsL, Geom.allCoords, mapped]

theorem lineFold_multipoint {d s : Dims} {ps : List Geom} {t : List Event} (h : (Geom.multi .multipoint s ps).Trace t) (hx : ∀ x ∈ ps, ∃ s cs, x = .point s cs) (n : Nat) :
    ∃ n', t.foldl (lineStep d) (.init [] n) = ⟨[mapped d (Geom.allCoordsL ps)], [], 0, 1, n'⟩ := by
  obtain ⟨b, hb, rfl⟩ := h
  rw [List.cons_append, List.foldl_cons, List.foldl_append]
  obtain ⟨n', h1⟩ := lineFold_points d ps b (lineStep d (.init [] n) (.geomStart MultiKind.multipoint.code s.code)) hb hx rfl
  rw [h1]
  exact ⟨n', rfl⟩

theorem lineFold_lines (d : Dims) : ∀ (ps : List Geom) (t : List Event) (p : LSt), Geom.TraceL ps t →
    (∀ x ∈ ps, (∃ s cs, x = .linestring s cs) ∨ ∃ s rs, x = .polygon s rs) → p.level = 0 → p.nesting = 0 → p.op = [] →
    (t.foldl (lineStep d) p).op = []
  | [], t, p, h, _, _, _, ho => by
    cases h
    exact ho
  | x :: ps, t, p, h, hx, hl, hn, ho => by
    obtain ⟨t1, t2, h1, h2, rfl⟩ := h
    rw [List.foldl_append]
    rcases hx x (by simp) with ⟨s, cs, rfl⟩ | ⟨s, rs, rfl⟩
    · rw [lineFold_line h1 p hl hn ho]
      exact lineFold_lines d ps t2 _ h2 (fun x' hx' => hx x' (by simp [hx'])) hl hn ho
    · rw [lineFold_polygon h1 p hl hn ho]
      exact lineFold_lines d ps t2 _ h2 (fun x' hx' => hx x' (by simp [hx'])) hl hn ho

theorem lineFold_multi {d s : Dims} {kd : MultiKind} (hk : kd = .multilinestring ∨ kd = .multipolygon) {ps : List Geom} {t : List Event} (h : (Geom.multi kd s ps).Trace t)
    (hx : ∀ x ∈ ps, (∃ s cs, x = .linestring s cs) ∨ ∃ s rs, x = .polygon s rs) (n : Nat) : (t.foldl (lineStep d) (.init [] n)).op = [] := by
  obtain ⟨b, hb, rfl⟩ := h
  rw [List.cons_append, List.foldl_cons, List.foldl_append]
  have h1 := lineFold_lines d ps b (lineStep d (.init [] n) (.geomStart kd.code s.code)) hb hx (by rcases hk with rfl | rfl <;> rfl)
    (by rcases hk with rfl | rfl <;> rfl) rfl
  show (lineStep d _ .geomEnd).op = []
  generalize (b.foldl (lineStep d) (lineStep d (.init [] n) (.geomStart kd.code s.code))) = q at h1
  unfold lineStep
  dsimp only
  split
  · exact h1
  split
  · rfl
  · exact h1

end Verif
