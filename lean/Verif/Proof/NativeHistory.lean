import Verif.Proof.NativeRead
/-! # Native writer: histories of features -/
namespace Verif
open Spec

/-! ## Lists of coordinates as geometries -/

theorem allCoordsL_points (d : Dims) : ∀ cs : List Coord, Geom.allCoordsL (cs.map fun c => .point d [c]) = cs.map (d, ·)
  | [] => rfl
  | c :: cs => by
    show [(d, c)] ++ Geom.allCoordsL (cs.map _) = _
    rw [allCoordsL_points d cs]
    rfl

theorem allCoordsL_lines (d : Dims) : ∀ ls : List (List Coord), Geom.allCoordsL (ls.map (.linestring d)) = ls.flatten.map (d, ·)
  | [] => rfl
  | l :: ls => by
    show l.map (d, ·) ++ Geom.allCoordsL (ls.map _) = _
    rw [allCoordsL_lines d ls, List.flatten_cons, List.map_append]

theorem allCoordsL_polygons (d : Dims) : ∀ ps : List (List (List Coord)), Geom.allCoordsL (ps.map (.polygon d)) = ps.flatten.flatten.map (d, ·)
  | [] => rfl
  | p :: ps => by
    show p.flatten.map (d, ·) ++ Geom.allCoordsL (ps.map _) = _
    rw [allCoordsL_polygons d ps, List.flatten_cons, List.flatten_append, List.map_append]

theorem storedL_points (d : Dims) : ∀ ps : List Geom, (∀ p ∈ ps, ∃ s cs, p = .point s cs ∧ cs.length ≤ 1) →
    (mapped d (Geom.allCoordsL ps)).map (fun c => Geom.point d [c]) = Geom.storedL d ps
  | [], _ => rfl
  | p :: ps, h => by
    obtain ⟨s, cs, rfl, hl⟩ := h p (by simp)
    have ih := storedL_points d ps fun q hq => h q (by simp [hq])
    match cs, hl with
    | [], _ =>
      show _ = Geom.storedL d ps
      rw [← ih]
      rfl
    | [c], _ =>
      show _ = Geom.point d [mapCoord s d c] :: Geom.storedL d ps
      rw [← ih]
      rfl

theorem keptRings_nil (s d : Dims) (rs : List (List Coord)) : keptRings s d rs = [] ↔ rs.flatten = [] := by
  unfold keptRings
  rw [List.map_eq_nil_iff, List.filter_eq_nil_iff]
  constructor
  · intro h
    rw [List.flatten_eq_nil_iff]
    intro r hr
    have := h r hr
    simpa using this
  · intro h r hr
    rw [List.flatten_eq_nil_iff] at h
    rw [h r hr]
    simp

theorem storedL_lines (d : Dims) : ∀ ls : List Geom, (∀ p ∈ ls, ∃ s cs, p = .linestring s cs) →
    (ls.flatMap fun x => match x with | .linestring s cs => keptRings s d [cs] | _ => []).map (Geom.linestring d) = Geom.storedL d ls
  | [], _ => rfl
  | p :: ls, h => by
    obtain ⟨s, cs, rfl⟩ := h p (by simp)
    have ih := storedL_lines d ls fun q hq => h q (by simp [hq])
    cases cs with
    | nil =>
      show _ = Geom.storedL d ls
      rw [← ih]
      rfl
    | cons c cs =>
      show _ = Geom.linestring d ((c :: cs).map (mapCoord s d)) :: Geom.storedL d ls
      rw [← ih]
      rfl

theorem storedL_polygons (d : Dims) : ∀ ps : List Geom, (∀ p ∈ ps, ∃ s rs, p = .polygon s rs) →
    (ps.flatMap fun x => match x with | .polygon s rs => (if keptRings s d rs = [] then [] else [keptRings s d rs]) | _ => []).map (Geom.polygon d) = Geom.storedL d ps
  | [], _ => rfl
  | p :: ps, h => by
    obtain ⟨s, rs, rfl⟩ := h p (by simp)
    have ih := storedL_polygons d ps fun q hq => h q (by simp [hq])
    rw [List.flatMap_cons, List.map_append, ih]
    show _ = if (Geom.polygon s rs).allCoords.isEmpty = true then Geom.storedL d ps else (Geom.polygon s rs).stored d :: Geom.storedL d ps
    have e : ((Geom.polygon s rs).allCoords.isEmpty = true) ↔ keptRings s d rs = [] := by
      rw [keptRings_nil]
      unfold Geom.allCoords
      rw [List.isEmpty_iff, List.map_eq_nil_iff]
    dsimp only
    by_cases hk : keptRings s d rs = []
    · rw [if_pos (e.mpr hk), if_pos hk]
      rfl
    · rw [if_neg (mt e.mp hk), if_neg hk]
      rfl

/-! ## Features that are not collections -/

theorem typedL_mem {kd : MultiKind} : ∀ {ps : List Geom}, Geom.TypedL kd ps → ∀ p ∈ ps,
    match kd with
    | .multipoint => ∃ s cs, p = .point s cs
    | .multilinestring => ∃ s cs, p = .linestring s cs
    | .multipolygon => ∃ s rs, p = .polygon s rs
    | .collection => True
  | [], _, p, hp => by simp at hp
  | q :: ps, h, p, hp => by
    rcases List.mem_cons.mp hp with rfl | hp
    · have h1 := h.1
      cases kd <;> cases p <;> first | exact ⟨_, _, rfl⟩ | exact h1.elim | trivial
    · exact typedL_mem h.2.2 p hp

theorem lineFold_lines_count (d : Dims) : ∀ (ps : List Geom) (t : List Event) (p : LSt), Geom.TraceL ps t →
    (∀ x ∈ ps, (∃ s cs, x = .linestring s cs) ∨ ∃ s rs, x = .polygon s rs) → p.level = 0 → p.nesting = 0 → p.op = [] →
    ∃ q : LSt, t.foldl (lineStep d) p = q ∧ q.level = 0 ∧ q.nesting = 0 ∧
      q.cur.length = p.cur.length + (ps.map fun p => match p with | .linestring _ _ => 1 | .polygon _ rs => rs.length | _ => 0).sum
  | [], t, p, h, _, hl, hn, _ => by
    cases h
    exact ⟨p, rfl, hl, hn, rfl⟩
  | x :: ps, t, p, h, hx, hl, hn, ho => by
    obtain ⟨t1, t2, h1, h2, rfl⟩ := h
    rw [List.foldl_append]
    rcases hx x (by simp) with ⟨s, cs, rfl⟩ | ⟨s, rs, rfl⟩
    · rw [lineFold_line h1 p hl hn ho]
      obtain ⟨q, h3, h4, h5, h6⟩ := lineFold_lines_count d ps t2 ⟨p.cur ++ [cs.map (mapCoord s d)], p.op, p.level, p.nesting, s.code⟩ h2
        (fun x' hx' => hx x' (by simp [hx'])) hl hn ho
      refine ⟨q, h3, h4, h5, ?_⟩
      rw [h6]
      simp only [List.length_append, List.length_singleton, List.map_cons, List.sum_cons]
      omega
    · rw [lineFold_polygon h1 p hl hn ho]
      obtain ⟨q, h3, h4, h5, h6⟩ := lineFold_lines_count d ps t2 ⟨p.cur ++ rs.map (·.map (mapCoord s d)), p.op, p.level, p.nesting, s.code⟩ h2
        (fun x' hx' => hx x' (by simp [hx'])) hl hn ho
      refine ⟨q, h3, h4, h5, ?_⟩
      rw [h6]
      simp only [List.length_append, List.length_map, List.map_cons, List.sum_cons]
      omega

/-- A feature that is not a collection leaves nothing behind, and ends as many lists as it has sequences. -/
theorem lineFold_simple {d : Dims} {x : Geom} {t : List Event} (hs : Simple x) (h : x.Trace t) (n : Nat) :
    (t.foldl (lineStep d) (.init [] n)).left = [] ∧ (t.foldl (lineStep d) (.init [] n)).cur.length = sequences x := by
  have hleft : ∀ s : LSt, s.op = [] → s.left = [] := by
    intro s hs
    unfold LSt.left
    rw [hs]
    split <;> rfl
  have multi : ∀ kd s ps, (kd = .multilinestring ∨ kd = .multipolygon) → x = .multi kd s ps →
      (∀ x ∈ ps, (∃ s cs, x = .linestring s cs) ∨ ∃ s rs, x = .polygon s rs) →
      (t.foldl (lineStep d) (.init [] n)).left = [] ∧ (t.foldl (lineStep d) (.init [] n)).cur.length =
        (ps.map fun p => match p with | .linestring _ _ => 1 | .polygon _ rs => rs.length | _ => 0).sum := by
    rintro kd s ps hk rfl hx
    refine ⟨hleft _ (lineFold_multi hk h hx n), ?_⟩
    obtain ⟨b, hb, rfl⟩ := h
    rw [List.cons_append, List.foldl_cons, List.foldl_append]
    obtain ⟨q, h3, h4, h5, h6⟩ := lineFold_lines_count d ps b (lineStep d (.init [] n) (.geomStart kd.code s.code)) hb hx
      (by rcases hk with rfl | rfl <;> rfl) (by rcases hk with rfl | rfl <;> rfl) rfl
    rw [h3]
    show (lineStep d q .geomEnd).cur.length = _
    unfold lineStep
    dsimp only
    rw [h4, h5, if_neg (by omega), if_neg (by omega), h6]
    exact Nat.zero_add _
  cases x with
  | point s cs =>
    rw [lineFold_point h (.init [] n) (.inl ⟨rfl, rfl⟩)]
    exact ⟨rfl, rfl⟩
  | linestring s cs =>
    rw [lineFold_line h (.init [] n) rfl rfl rfl]
    exact ⟨rfl, rfl⟩
  | polygon s rs =>
    rw [lineFold_polygon h (.init [] n) rfl rfl rfl]
    refine ⟨hleft _ rfl, ?_⟩
    show ([] ++ rs.map _).length = _
    rw [List.nil_append, List.length_map]
    rfl
  | multi kd s ps =>
    cases kd with
    | multipoint =>
      obtain ⟨n', h1⟩ := lineFold_multipoint (d := d) h (typedL_mem (kd := .multipoint) hs) n
      rw [h1]
      exact ⟨rfl, rfl⟩
    | multilinestring => exact multi _ s ps (.inl rfl) rfl fun x hx => .inl (typedL_mem (kd := .multilinestring) hs x hx)
    | multipolygon => exact multi _ s ps (.inr rfl) rfl fun x hx => .inr (typedL_mem (kd := .multipolygon) hs x hx)
    | collection => exact hs.elim

/-! ## Histories -/

/-- Number of coordinates of a feature. -/
def cntOf : Option Geom → Nat
  | none => 0
  | some x => x.allCoords.length

theorem numCoords_eq (fs : List (Option Geom)) : numCoords fs = (fs.map cntOf).sum := by
  unfold numCoords
  congr 1

theorem length_mapped (d : Dims) (l : List (Dims × Coord)) : (mapped d l).length = l.length := List.length_map _

section
variable {g : Int} {d : Dims} {k : CoordKind} {w : NWriter} {okx : Geom → Prop} {fs : List (Option Geom)} {t : List Event}

def PointGood (d : Dims) : Option Geom → Coord → Prop
  | none, _ => True
  | some x, c => x.allCoords.length ≤ 1 ∧ c = pointRow d (mapped d x.allCoords)

theorem point_history (hok : ∀ x, okx x → x.WF) (junk : Nat → Byte) (h : PointRest d k [] [] w) (hfs : ∀ x, some x ∈ fs → okx x) (ht : FeaturesTrace fs t) :
    (feed (nwPoint junk) t w).Post (fun _ w' => ∃ rows, Pairs (PointGood d) fs rows ∧ PointRest d k rows (fs.map Option.isSome) w')
      (fun rc _ => rc = EINVAL ∧ ∃ x, okx x ∧ 1 < x.allCoords.length) := by
  refine features_feed (Rest := PointRest d k) (Good := PointGood d) (ok := fun f => ∀ x, f = some x → okx x) (cnt := fun _ => 0)
    (E := fun _ rc => rc = EINVAL ∧ ∃ x, okx x ∧ 1 < x.allCoords.length) (size := fun _ => 0) (h := nwPoint junk) ?_ (fun _ _ _ _ => rfl)
    (fun _ _ _ _ h => h) fs t [] [] w (fun f hf x hx => hfs x (hx ▸ hf)) ht h
  intro f t rows fl w hf ht hr
  cases f with
  | none =>
    cases ht
    exact (point_null junk hr _).imp (fun _ _ h => ⟨_, trivial, h⟩) fun _ _ h => h
  | some x =>
    obtain ⟨b, hb, rfl⟩ := ht
    have hx := hf x rfl
    have hbody := fun n => body_geom (d := d) hb (hok x hx) n
    have := point_feature junk hr (t := b) fun n => (hbody n).1
    rw [(hbody w.lastDims).2, length_mapped] at this
    exact this.imp (fun _ _ h => ⟨_, ⟨h.1, rfl⟩, h.2⟩) fun rc _ h => ⟨h.1, x, hx, h.2⟩

def LineGood (d : Dims) : Option Geom → List Coord → Prop
  | none, r => r = []
  | some x, r => r = mapped d x.allCoords ∧ sequences x ≤ 1

theorem line_history (hg : g = 4 ∨ g = 2) (hok : ∀ x, okx x → x.WF ∧ Simple x) (junk : Nat → Byte) (h : LineRest g d k [] [] [] w) (hfs : ∀ x, some x ∈ fs → okx x)
    (ht : FeaturesTrace fs t) :
    (feed (nwLine junk) t w).Post (fun _ w' => ∃ rows, Pairs (LineGood d) fs rows ∧ LineRest g d k rows [] (fs.map Option.isSome) w')
      (fun rc _ => (rc = EINVAL ∧ ∃ x, okx x ∧ 1 < sequences x) ∨ TooMany (numCoords fs) rc) := by
  rw [numCoords_eq]
  have := features_feed (Rest := fun rows fl w => LineRest g d k rows [] fl w) (Good := LineGood d) (ok := fun f => ∀ x, f = some x → okx x) (cnt := cntOf)
    (E := fun n rc => (rc = EINVAL ∧ ∃ x, okx x ∧ 1 < sequences x) ∨ TooMany n rc) (size := fun rows => rows.flatten.length) (h := nwLine junk) ?_ ?_
    (fun n m rc hn h => h.imp id (TooMany.mono n m rc hn)) fs t [] [] w (fun f hf x hx => hfs x (hx ▸ hf)) ht h
  · refine this.imp (fun _ _ h => h) fun rc _ h => ?_
    rw [show ([] : List (List Coord)).flatten.length + _ = _ from Nat.zero_add _] at h
    exact h
  · intro f t rows fl w hf ht hr
    cases f with
    | none =>
      cases ht
      exact (line_null hg junk hr).imp (fun _ _ h => ⟨_, rfl, h⟩) fun _ _ h => .inr h
    | some x =>
      obtain ⟨b, hb, rfl⟩ := ht
      have hx := hf x rfl
      have hbody := fun n => body_geom (d := d) hb (hok x hx).1 n
      have := line_feature hg junk hr (t := b) fun n => (hbody n).1
      obtain ⟨h1, h2⟩ := lineFold_simple (d := d) (hok x hx).2 hb w.lastDims
      have h3 := lineFold_all d b (.init [] w.lastDims)
      rw [show (LSt.init [] w.lastDims).dims = w.lastDims from rfl, (hbody w.lastDims).2] at h3
      rw [(hbody w.lastDims).2, length_mapped, h1, h2] at this
      refine this.imp ?_ ?_
      · rintro _ w' ⟨h4, h5⟩
        refine ⟨_, ⟨?_, h4⟩, h5⟩
        rw [show (LSt.init [] w.lastDims).all ++ _ = _ from List.nil_append _] at h3
        rw [← h3]
        generalize b.foldl (lineStep d) (.init [] w.lastDims) = q at *
        unfold LSt.row LSt.all
        rw [← h2] at h4
        obtain ⟨cur, op, level, nesting, dims⟩ := q
        match cur with
        | [] => rfl
        | [r] =>
          have : op = [] := h1
          subst this
          simp
        | _ :: _ :: _ => simp at h4
      · rintro rc _ (h | h)
        · exact .inl ⟨h.1, x, hx, h.2⟩
        · exact .inr h
  · intro rows row f hgood
    rw [List.flatten_append, List.flatten_singleton, List.length_append]
    congr 1
    cases f with
    | none => rw [show row = [] from hgood]; rfl
    | some x => rw [hgood.1, length_mapped]; rfl

/-- Coordinates of a feature with dimensions `d`. -/
def coordsIn (d : Dims) : Option Geom → List Coord
  | none => []
  | some x => mapped d x.allCoords

theorem LSt.row_left {s : LSt} (h : s.cur.length ≤ 1) : s.row ++ s.left = s.all := by
  obtain ⟨cur, op, level, nesting, dims⟩ := s
  unfold LSt.row LSt.left LSt.all
  match cur with
  | [] => simp
  | [r] => simp
  | _ :: _ :: _ => simp at h

/-- Any features: every coordinate stays in the order of writing. -/
theorem line_any_history (hg : g = 4 ∨ g = 2) (hok : ∀ x, okx x → x.WF) (junk : Nat → Byte) (h : LineRest g d k [] [] [] w) (hfs : ∀ x, some x ∈ fs → okx x)
    (ht : FeaturesTrace fs t) :
    (feed (nwLine junk) t w).Post (fun _ w' => ∃ rows : List (List Coord × List Coord), Pairs (fun f r => r.2 = coordsIn d f) fs rows ∧
        ∃ lo, LineRest g d k (rows.map (·.1)) lo (fs.map Option.isSome) w' ∧ (rows.map (·.1)).flatten ++ lo = (rows.map (·.2)).flatten)
      (fun rc _ => rc = EINVAL ∨ rc = EOVERFLOW) := by
  refine features_feed (Row := List Coord × List Coord)
    (Rest := fun rows fl w => ∃ lo, LineRest g d k (rows.map (·.1)) lo fl w ∧ (rows.map (·.1)).flatten ++ lo = (rows.map (·.2)).flatten)
    (Good := fun f r => r.2 = coordsIn d f) (ok := fun f => ∀ x, f = some x → okx x) (cnt := fun _ => 0)
    (E := fun _ rc => rc = EINVAL ∨ rc = EOVERFLOW) (size := fun _ => 0) (h := nwLine junk) ?_ (fun _ _ _ _ => rfl)
    (fun _ _ _ _ h => h) fs t [] [] w (fun f hf x hx => hfs x (hx ▸ hf)) ht ⟨[], h, rfl⟩
  rintro f t rows fl w hf ht ⟨lo, hr, he⟩
  cases f with
  | none =>
    cases ht
    refine (line_null hg junk hr).imp ?_ fun _ _ h => .inr h.1
    intro _ w' h1
    refine ⟨(lo, []), rfl, [], ?_, ?_⟩
    · rw [List.map_append]
      exact h1
    · simp only [List.map_append, List.flatten_append, List.map_cons, List.map_nil, List.flatten_singleton, List.append_nil]
      exact he
  | some x =>
    obtain ⟨b, hb, rfl⟩ := ht
    have hbody := fun n => body_geom (d := d) hb (hok x (hf x rfl)) n
    have h3 := lineFold_all d b (.init lo w.lastDims)
    rw [show (LSt.init lo w.lastDims).dims = w.lastDims from rfl, (hbody w.lastDims).2] at h3
    refine (line_feature hg junk hr (t := b) fun n => (hbody n).1).imp ?_ ?_
    · rintro _ w' ⟨h1, h2⟩
      refine ⟨((b.foldl (lineStep d) (.init lo w.lastDims)).row, mapped d x.allCoords), rfl,
        (b.foldl (lineStep d) (.init lo w.lastDims)).left, ?_, ?_⟩
      · rw [List.map_append]
        exact h2
      · simp only [List.map_append, List.flatten_append, List.map_cons, List.map_nil, List.flatten_singleton, List.append_assoc]
        rw [LSt.row_left h1, h3, ← he]
        simp only [List.append_assoc]
        rfl
    · rintro rc _ (h | h)
      · exact .inl h.1
      · exact .inr h.1

def PolyGood (g : Int) (d : Dims) : Option Geom → List (List Coord) → Prop
  | none, r => r = []
  | some x, r => r.flatten = mapped d x.allCoords ∧ (HasType 3 x → Geom.polygon d r = x.stored d) ∧
      (HasType 5 x → Geom.multi .multilinestring d (r.map (.linestring d)) = x.stored d)

theorem poly_history (hg : g = 5 ∨ g = 3) (hok : ∀ x, okx x → x.WF) (junk : Nat → Byte) (h : PolyRest g d k [] [] w) (hfs : ∀ x, some x ∈ fs → okx x)
    (ht : FeaturesTrace fs t) :
    (feed (nwPoly junk) t w).Post (fun _ w' => ∃ rows, Pairs (PolyGood g d) fs rows ∧ PolyRest g d k rows (fs.map Option.isSome) w')
      (fun rc _ => TooMany (numCoords fs) rc) := by
  rw [numCoords_eq]
  have := features_feed (Rest := PolyRest g d k) (Good := PolyGood g d) (ok := fun f => ∀ x, f = some x → okx x) (cnt := cntOf)
    (E := TooMany) (size := fun rows => rows.flatten.flatten.length) (h := nwPoly junk) ?_ ?_
    TooMany.mono fs t [] [] w (fun f hf x hx => hfs x (hx ▸ hf)) ht h
  · refine this.imp (fun _ _ h => h) fun rc _ h => ?_
    rw [show ([] : List (List (List Coord))).flatten.flatten.length + _ = _ from Nat.zero_add _] at h
    exact h
  · intro f t rows fl w hf ht hr
    cases f with
    | none =>
      cases ht
      exact (poly_null hg junk hr).imp (fun _ _ h => ⟨_, rfl, h⟩) fun _ _ h => h
    | some x =>
      obtain ⟨b, hb, rfl⟩ := ht
      have hx := hf x rfl
      have hbody := fun n => body_geom (d := d) hb (hok x hx) n
      have := poly_feature hg junk hr (t := b) fun n => (hbody n).1
      have h3 := polyFold_flat d b (.init w.lastDims)
      rw [show (PSt.init w.lastDims).dims = w.lastDims from rfl, (hbody w.lastDims).2] at h3
      rw [(hbody w.lastDims).2, length_mapped] at this
      refine this.imp ?_ fun _ _ h => h
      intro _ w' h5
      refine ⟨_, ⟨?_, ?_, ?_⟩, h5⟩
      · rw [PSt.rings_flatten]
        exact h3
      · intro ht
        cases x with
        | polygon s rs => rw [polyFold_polygon hb]; rfl
        | point => exact ht.elim
        | linestring => exact ht.elim
        | multi kd => cases kd <;> exact ht.elim
      · intro ht
        cases x with
        | multi kd s ls =>
          cases kd with
          | multilinestring =>
            rw [polyFold_multi hb ht]
            refine (congrArg (fun l : List (List Coord) => Geom.multi .multilinestring d (l.map (Geom.linestring d))) ?_).trans
              (congrArg (Geom.multi .multilinestring d) (storedL_lines d ls ht))
            congr 1
          | multipoint => exact ht.elim
          | multipolygon => exact ht.elim
          | collection => exact ht.elim
        | point => exact ht.elim
        | linestring => exact ht.elim
        | polygon => exact ht.elim
  · intro rows row f hgood
    rw [List.flatten_append, List.flatten_singleton, List.flatten_append, List.length_append]
    congr 1
    cases f with
    | none => rw [show row = [] from hgood]; rfl
    | some x => rw [hgood.1, length_mapped]; rfl

def MultiGood (d : Dims) : Option Geom → List (List (List Coord)) → Prop
  | none, r => r = []
  | some x, r => r.flatten.flatten = mapped d x.allCoords ∧ (HasType 6 x → Geom.multi .multipolygon d (r.map (.polygon d)) = x.stored d)

theorem multi_history (hok : ∀ x, okx x → x.WF) (junk : Nat → Byte) (h : MultiRest d k [] [] w) (hfs : ∀ x, some x ∈ fs → okx x)
    (ht : FeaturesTrace fs t) :
    (feed (nwMulti junk) t w).Post (fun _ w' => ∃ rows, Pairs (MultiGood d) fs rows ∧ MultiRest d k rows (fs.map Option.isSome) w')
      (fun rc _ => TooMany (numCoords fs) rc) := by
  rw [numCoords_eq]
  have := features_feed (Rest := MultiRest d k) (Good := MultiGood d) (ok := fun f => ∀ x, f = some x → okx x) (cnt := cntOf)
    (E := TooMany) (size := fun rows => rows.flatten.flatten.flatten.length) (h := nwMulti junk) ?_ ?_
    TooMany.mono fs t [] [] w (fun f hf x hx => hfs x (hx ▸ hf)) ht h
  · refine this.imp (fun _ _ h => h) fun rc _ h => ?_
    rw [show ([] : List (List (List (List Coord)))).flatten.flatten.flatten.length + _ = _ from Nat.zero_add _] at h
    exact h
  · intro f t rows fl w hf ht hr
    cases f with
    | none =>
      cases ht
      exact (multi_null junk hr).imp (fun _ _ h => ⟨_, rfl, h⟩) fun _ _ h => h
    | some x =>
      obtain ⟨b, hb, rfl⟩ := ht
      have hx := hf x rfl
      have hbody := fun n => body_geom (d := d) hb (hok x hx) n
      have := multi_feature junk hr (t := b) fun n => (hbody n).1
      have h3 := multiFold_all d b (.init w.lastDims)
      rw [show (QSt.init w.lastDims).dims = w.lastDims from rfl, (hbody w.lastDims).2] at h3
      rw [(hbody w.lastDims).2, length_mapped] at this
      refine this.imp ?_ fun _ _ h => h
      intro _ w' h5
      refine ⟨_, ⟨?_, ?_⟩, h5⟩
      · rw [QSt.polys_flatten]
        exact h3
      · intro ht
        cases x with
        | multi kd s ls =>
          cases kd with
          | multipolygon =>
            rw [multiFold_multi hb ht]
            refine (congrArg (fun l : List (List (List Coord)) => Geom.multi .multipolygon d (l.map (Geom.polygon d))) ?_).trans
              (congrArg (Geom.multi .multipolygon d) (storedL_polygons d ls ht))
            congr 1
          | multipoint => exact ht.elim
          | multilinestring => exact ht.elim
          | collection => exact ht.elim
        | point => exact ht.elim
        | linestring => exact ht.elim
        | polygon => exact ht.elim
  · intro rows row f hgood
    rw [List.flatten_append, List.flatten_singleton, List.flatten_append, List.flatten_append, List.length_append]
    congr 1
    cases f with
    | none => rw [show row = [] from hgood]; rfl
    | some x => rw [hgood.1, length_mapped]; rfl

theorem pairs_sum {β : Type} {Good : Option Geom → β → Prop} {size : List β → Nat} {one : β → Nat} (h0 : size [] = 0)
    (hs : ∀ r rs, size (r :: rs) = one r + size rs) (hg : ∀ f r, Good f r → one r = cntOf f) :
    ∀ (fs : List (Option Geom)) (rows : List β), Pairs Good fs rows → size rows = numCoords fs
  | [], [], _ => h0
  | [], _ :: _, h => h.elim
  | _ :: _, [], h => h.elim
  | f :: fs, r :: rows, h => by
    rw [hs, pairs_sum h0 hs hg fs rows h.2, hg f r h.1, numCoords_eq, numCoords_eq, List.map_cons, List.sum_cons]

/-! ## All types -/

/-- Geometries a writer of a type has room for. -/
def Fits (g : Int) (x : Geom) : Prop := (g = 1 → x.allCoords.length ≤ 1) ∧ (g = 4 ∨ g = 2 → sequences x ≤ 1)

/-- What slot `i` contains after writing a feature. -/
def SlotOk (g : Int) (d : Dims) (k : CoordKind) (a : AArray) (i : Nat) : Option Geom → Prop
  | none => NullAt a i
  | some x => Fits g x ∧ ValidAt a i ∧ ∃ y, GeomAt d k a i g y ∧
      (if g = 1 ∧ x.allCoords = [] then y = .point d [nanCoord d] else SameCoords d x y) ∧ (HasType g x → y = x.stored d)

theorem mapped_pairs (d : Dims) (l : List (Dims × Coord)) : (mapped d l).map (d, ·) = l.map fun c => (d, mapCoord c.1 d c.2) := by
  unfold mapped
  rw [List.map_map]
  rfl

theorem flag_get {fs : List (Option Geom)} {i : Nat} {f : Option Geom} (h : fs[i]? = some f) : (fs.map Option.isSome)[i]? = some f.isSome := by
  rw [List.getElem?_map, h]
  rfl

theorem history (hg : 1 ≤ g ∧ g ≤ 6) {w0 : NWriter} (h0 : NW g d k w0 (fun _ => []) [] []) {junk : Nat → Byte} {h : Handler NWriter}
    (hv : nwInitVisitor junk w0 = .ok h) (hfs : ∀ x, some x ∈ fs → x.WF ∧ (g = 4 ∨ g = 2 → Simple x)) (ht : FeaturesTrace fs t) (junk' : Nat → Byte) :
    (feed h t w0).Post (fun _ w => ∃ a w', nwFinish junk' w = .ok a w' ∧ Finished g d k (fs.map Option.isSome) a ∧
        (g ≠ 1 → numCoords fs ≤ 2147483647) ∧ ∀ (i : Nat) (f : Option Geom), fs[i]? = some f → SlotOk g d k a i f)
      (fun rc _ => (rc = EINVAL ∧ ∃ x, some x ∈ fs ∧ ¬ Fits g x) ∨ (TooMany (numCoords fs) rc ∧ g ≠ 1)) := by
  have hgt : w0.builder.schema.geometryType = g := h0.built.native.geometry
  rcases visitor_cases hv with ⟨e, rfl⟩ | ⟨e, rfl⟩ | ⟨e, rfl⟩ | ⟨e, rfl⟩ <;> rw [hgt] at e
  · subst e
    refine (point_history (okx := fun x => some x ∈ fs ∧ x.WF) (fun _ h => h.2) junk (point_begin h0) (fun x hx => ⟨hx, (hfs x hx).1⟩) ht).imp ?_ ?_
    · rintro _ w ⟨rows, hp, hr⟩
      obtain ⟨a, w', h1, h2, h3⟩ := point_finish hr junk'
      refine ⟨a, w', h1, h2, fun h => absurd rfl h, fun i f hf => ?_⟩
      obtain ⟨row, h4, h5⟩ := hp.get hf
      have hfl := flag_get hf
      cases f with
      | none => exact h2.null i hfl
      | some x =>
        refine ⟨⟨fun _ => h5.1, fun h => by omega⟩, h2.valid i hfl, _, .point (h3 i row h4), ?_, ?_⟩
        · by_cases hx : x.allCoords = []
          · rw [if_pos ⟨rfl, hx⟩, h5.2, hx]
            rfl
          · rw [if_neg (fun h => hx h.2), h5.2]
            unfold SameCoords
            rw [← mapped_pairs]
            have hl := h5.1
            rw [← length_mapped d] at hl
            have hne : mapped d x.allCoords ≠ [] := by unfold mapped; rw [Ne, List.map_eq_nil_iff]; exact hx
            generalize mapped d x.allCoords = m at hl hne
            match m, hl with
            | [], _ => exact absurd rfl hne
            | [c], _ => rfl
        · intro ht
          rw [h5.2]
          cases x with
          | point s cs =>
            match cs, (show cs.length ≤ 1 from ht) with
            | [], _ => rfl
            | [c], _ => rfl
          | linestring => exact ht.elim
          | polygon => exact ht.elim
          | multi kd => cases kd <;> exact ht.elim
    · rintro rc _ ⟨h1, x, h2, h3⟩
      exact .inl ⟨h1, x, h2.1, fun hf => by have := hf.1 rfl; omega⟩
  · refine (line_history e (okx := fun x => some x ∈ fs ∧ x.WF ∧ Simple x) (fun _ h => h.2) junk (line_begin h0)
      (fun x hx => ⟨hx, (hfs x hx).1, (hfs x hx).2 e⟩) ht).imp ?_ ?_
    · rintro _ w ⟨rows, hp, hr⟩
      obtain ⟨a, w', h1, h2, h3⟩ := line_finish e hr junk'
      have hmax : numCoords fs ≤ 2147483647 := by
        rw [← pairs_sum (size := fun rows : List (List Coord) => rows.flatten.length) (one := fun r => r.length) rfl
          (fun r rs => by simp) (fun f r h => ?_) fs rows hp]
        · exact hr.max
        · cases f with
          | none => rw [show r = [] from h]; rfl
          | some x => rw [h.1, length_mapped]; rfl
      refine ⟨a, w', h1, h2, fun _ => hmax, fun i f hf => ?_⟩
      obtain ⟨row, h4, h5⟩ := hp.get hf
      have hfl := flag_get hf
      cases f with
      | none => exact h2.null i hfl
      | some x =>
        refine ⟨⟨fun h => by omega, fun _ => h5.2⟩, h2.valid i hfl, ?_⟩
        have hp := h3 i row h4
        rw [h5.1] at hp
        rcases e with rfl | rfl
        · refine ⟨_, .multipoint hp, ?_, ?_⟩
          · rw [if_neg (by omega)]
            unfold SameCoords
            rw [← mapped_pairs]
            exact allCoordsL_points d _
          · intro ht
            cases x with
            | multi kd s ps =>
              cases kd with
              | multipoint => exact congrArg (Geom.multi .multipoint d) (storedL_points d ps ht)
              | multilinestring => exact ht.elim
              | multipolygon => exact ht.elim
              | collection => exact ht.elim
            | point => exact ht.elim
            | linestring => exact ht.elim
            | polygon => exact ht.elim
        · refine ⟨_, .linestring hp, ?_, ?_⟩
          · rw [if_neg (by omega)]
            unfold SameCoords
            rw [← mapped_pairs]
            rfl
          · intro ht
            cases x with
            | linestring s cs =>
              show Geom.linestring d (((cs.map (s, ·))).map _) = Geom.linestring d (cs.map (mapCoord s d))
              rw [List.map_map]
              rfl
            | point => exact ht.elim
            | polygon => exact ht.elim
            | multi kd => cases kd <;> exact ht.elim
    · rintro rc _ (⟨h1, x, h2, h3⟩ | h1)
      · exact .inl ⟨h1, x, h2.1, fun hf => by have := hf.2 e; omega⟩
      · exact .inr ⟨h1, by omega⟩
  · refine (poly_history e (okx := fun x => some x ∈ fs ∧ x.WF) (fun _ h => h.2) junk (poly_begin h0)
      (fun x hx => ⟨hx, (hfs x hx).1⟩) ht).imp ?_ fun rc _ h => .inr ⟨h, by omega⟩
    rintro _ w ⟨rows, hp, hr⟩
    obtain ⟨a, w', h1, h2, h3⟩ := poly_finish e hr junk'
    have hmax : numCoords fs ≤ 2147483647 := by
      rw [← pairs_sum (size := fun rows : List (List (List Coord)) => rows.flatten.flatten.length) (one := fun r => r.flatten.length) rfl
        (fun r rs => by simp) (fun f r h => ?_) fs rows hp]
      · exact hr.max
      · cases f with
        | none => rw [show r = [] from h]; rfl
        | some x => rw [h.1, length_mapped]; rfl
    refine ⟨a, w', h1, h2, fun _ => hmax, fun i f hf => ?_⟩
    obtain ⟨row, h4, h5⟩ := hp.get hf
    have hfl := flag_get hf
    cases f with
    | none => exact h2.null i hfl
    | some x =>
      refine ⟨⟨fun h => by omega, fun h => by omega⟩, h2.valid i hfl, ?_⟩
      have hq := h3 i row h4
      rcases e with rfl | rfl
      · refine ⟨_, .multilinestring hq, ?_, h5.2.2⟩
        rw [if_neg (by omega)]
        unfold SameCoords
        rw [← mapped_pairs, ← h5.1]
        exact allCoordsL_lines d _
      · refine ⟨_, .polygon hq, ?_, h5.2.1⟩
        rw [if_neg (by omega)]
        unfold SameCoords
        rw [← mapped_pairs, ← h5.1]
        rfl
  · subst e
    refine (multi_history (okx := fun x => some x ∈ fs ∧ x.WF) (fun _ h => h.2) junk (multi_begin h0)
      (fun x hx => ⟨hx, (hfs x hx).1⟩) ht).imp ?_ fun rc _ h => .inr ⟨h, by omega⟩
    rintro _ w ⟨rows, hp, hr⟩
    obtain ⟨a, w', h1, h2, h3⟩ := multi_finish hr junk'
    have hmax : numCoords fs ≤ 2147483647 := by
      rw [← pairs_sum (size := fun rows : List (List (List (List Coord))) => rows.flatten.flatten.flatten.length)
        (one := fun r => r.flatten.flatten.length) rfl (fun r rs => by simp) (fun f r h => ?_) fs rows hp]
      · exact hr.max
      · cases f with
        | none => rw [show r = [] from h]; rfl
        | some x => rw [h.1, length_mapped]; rfl
    refine ⟨a, w', h1, h2, fun _ => hmax, fun i f hf => ?_⟩
    obtain ⟨row, h4, h5⟩ := hp.get hf
    have hfl := flag_get hf
    cases f with
    | none => exact h2.null i hfl
    | some x =>
      refine ⟨⟨fun h => by omega, fun h => by omega⟩, h2.valid i hfl, _, .multipolygon (h3 i row h4), ?_, h5.2⟩
      rw [if_neg (by omega)]
      unfold SameCoords
      rw [← mapped_pairs, ← h5.1]
      exact allCoordsL_polygons d _

end
end Verif
