import Verif.Proof.NativePoly
/-! # Native writer: multipolygons -/
namespace Verif
open Spec

/-- A feature in progress: finished polygons, finished rings of the open polygon, the open ring, and the state of the visitor. -/
structure QSt where
  curP : List (List (List Coord))
  cur : List (List Coord)
  op : List Coord
  level : Int
  dims : Nat

def QSt.rings (s : QSt) : List (List Coord) := if s.op = [] then s.cur else s.cur ++ [s.op]

/-- The open ring ends. -/
def QSt.close (s : QSt) : QSt := { s with cur := s.rings, op := [], level := s.level - 1 }

/-- The open polygon ends. -/
def QSt.closeP (s : QSt) : QSt :=
  if s.cur = [] then { s with level := s.level - 1 } else { s with curP := s.curP ++ [s.cur], cur := [], level := s.level - 1 }

/-- The polygons, if the feature ends here. -/
def QSt.polys (s : QSt) : List (List (List Coord)) := if s.rings = [] then s.curP else s.curP ++ [s.rings]

def multiStep (d : Dims) (s : QSt) : Event → QSt
  | .geomStart gt dims => { s with dims := dims, level := if gt ∈ [5, 3, 2, 4] then s.level + 1 else s.level }
  | .ringStart => { s with level := s.level + 1 }
  | .coords _ rows => { s with op := s.op ++ rows.map (mapCoord (dimsOf s.dims) d) }
  | .ringEnd => s.close
  | .geomEnd => if s.level = 2 then s.close else if s.level = 1 then s.closeP else s
  | _ => s

/-- All coordinates of the feature. -/
def QSt.all (s : QSt) : List Coord := s.curP.flatten.flatten ++ (s.cur.flatten ++ s.op)

theorem QSt.rings_flatten (s : QSt) : s.rings.flatten = s.cur.flatten ++ s.op := by
  unfold QSt.rings
  split
  · rename_i h; rw [h, List.append_nil]
  · simp

theorem QSt.polys_flatten (s : QSt) : s.polys.flatten.flatten = s.all := by
  unfold QSt.polys QSt.all
  rw [← s.rings_flatten]
  split
  · rename_i h; rw [h]; simp
  · simp

theorem QSt.close_all (s : QSt) : s.close.all = s.all := by
  unfold QSt.all
  show _ ++ (s.rings.flatten ++ []) = _
  rw [s.rings_flatten, List.append_nil]
  rfl

theorem QSt.closeP_all (s : QSt) : s.closeP.all = s.all := by
  unfold QSt.closeP
  split
  · rfl
  · unfold QSt.all
    simp

theorem multiStep_all (d : Dims) (s : QSt) (e : Event) : (multiStep d s e).all = s.all ++ evRows d s.dims e := by
  cases e with
  | coords nv rows =>
    show _ ++ (_ ++ (s.op ++ _)) = (_ ++ (_ ++ _)) ++ _
    rw [List.append_assoc, List.append_assoc]
    rfl
  | ringEnd => exact s.close_all.trans (List.append_nil _).symm
  | geomEnd =>
    refine Eq.trans ?_ (List.append_nil _).symm
    unfold multiStep
    dsimp only
    split
    · exact s.close_all
    split
    · exact s.closeP_all
    · rfl
  | featStart | nullFeat | geomStart | ringStart | featEnd => exact (List.append_nil _).symm

theorem multiStep_dims (d : Dims) (s : QSt) (e : Event) : (multiStep d s e).dims = nextDims s.dims e := by
  cases e with
  | geomEnd =>
    unfold multiStep QSt.closeP
    dsimp only
    split
    · rfl
    split
    · split <;> rfl
    · rfl
  | featStart | nullFeat | geomStart | ringStart | featEnd | coords | ringEnd => rfl

theorem multiFold_all (d : Dims) : ∀ (t : List Event) (s : QSt), (t.foldl (multiStep d) s).all = s.all ++ delivered d s.dims t
  | [], s => (List.append_nil _).symm
  | e :: t, s => by
    rw [List.foldl_cons, multiFold_all d t, multiStep_all, multiStep_dims, List.append_assoc]
    rfl

section
variable {d : Dims} {k : CoordKind}

/-- The writer `w` has stored `rows` and is in the middle of a feature. -/
structure MultiR (d : Dims) (k : CoordKind) (rows : List (List (List (List Coord)))) (fl : List Bool) (nl : Bool) (s : QSt) (w : NWriter) : Prop where
  nw : NW 6 d k w (ns3 (rows.map List.length) ((rows.flatten ++ s.curP).map List.length) (((rows.flatten ++ s.curP).flatten ++ s.cur).map List.length))
    (((rows.flatten ++ s.curP).flatten ++ s.cur).flatten ++ s.op) fl
  size2 : w.size 2 = s.op.length
  size1 : w.size 1 = s.cur.length
  level : w.level = s.level
  dims : w.lastDims = s.dims
  null : w.featIsNull = nl
  ne : ∀ r ∈ (rows.flatten ++ s.curP).flatten ++ s.cur, r ≠ []
  neP : ∀ p ∈ rows.flatten ++ s.curP, p ≠ []
  max : ((rows.flatten ++ s.curP).flatten ++ s.cur).flatten.length ≤ 2147483647

/-- The writer between features. -/
structure MultiRest (d : Dims) (k : CoordKind) (rows : List (List (List (List Coord)))) (fl : List Bool) (w : NWriter) : Prop where
  nw : NW 6 d k w (ns3 (rows.map List.length) (rows.flatten.map List.length) (rows.flatten.flatten.map List.length)) rows.flatten.flatten.flatten fl
  len : fl.length = rows.length
  ne : ∀ r ∈ rows.flatten.flatten, r ≠ []
  neP : ∀ p ∈ rows.flatten, p ≠ []
  max : rows.flatten.flatten.flatten.length ≤ 2147483647

theorem depth_multi : listDepth 6 = 3 := rfl

/-- Number of coordinates. -/
theorem multi_total (rows : List (List (List (List Coord)))) (s : QSt) :
    (((rows.flatten ++ s.curP).flatten ++ s.cur).flatten ++ s.op).length = rows.flatten.flatten.flatten.length + s.all.length := by
  unfold QSt.all
  simp only [List.flatten_append, List.length_append]
  omega

theorem multi_closeSeq {rows fl nl} {s : QSt} {w : NWriter} (h : MultiR d k rows fl nl s w) (junk : Nat → Byte) :
    (do nwUp; nwCloseSeq junk 2 : M NWriter Unit) w |>.Post (fun _ w' => MultiR d k rows fl nl s.close w')
      (fun rc _ => TooMany (rows.flatten.flatten.flatten.length + s.all.length) rc) := by
  rw [M.bind_run]
  unfold nwUp
  rw [M.modify_run, ← multi_total]
  have h1 := closeSeq_post (w := { w with level := w.level - 1 }) (h.nw.congr rfl rfl rfl) junk (i := 2) (by rw [depth_multi]; omega)
    (rings := (rows.flatten ++ s.curP).flatten ++ s.cur) (op := s.op) rfl rfl h.size2
  refine h1.imp ?_ fun _ _ h => h
  rintro _ w' ⟨hc, h2⟩
  by_cases ho : s.op = []
  · rw [if_pos ho] at h2
    have e : s.close = { s with level := s.level - 1 } := by
      unfold QSt.close QSt.rings
      rw [if_pos ho]
      cases s
      dsimp only at ho
      subst ho
      rfl
    rw [e]
    refine ⟨h2.1, ?_, ?_, ?_, hc.dims.trans h.dims, hc.null.trans h.null, h.ne, h.neP, h.max⟩
    · rw [h2.2]; exact h.size2
    · rw [h2.2]; exact h.size1
    · rw [hc.level, ← h.level]
  · rw [if_neg ho] at h2
    obtain ⟨h3, h4, h5⟩ := h2
    have e : s.close.cur = s.cur ++ [s.op] := by
      unfold QSt.close QSt.rings
      exact if_neg ho
    have e2 : (rows.flatten ++ s.close.curP).flatten ++ s.close.cur = ((rows.flatten ++ s.curP).flatten ++ s.cur) ++ [s.op] := by
      rw [e, List.append_assoc]; rfl
    rw [ns3_set2] at h3
    refine ⟨?_, ?_, ?_, ?_, hc.dims.trans h.dims, hc.null.trans h.null, ?_, h.neP, ?_⟩
    · rw [e2]
      show NW 6 d k w' _ ((((rows.flatten ++ s.curP).flatten ++ s.cur) ++ [s.op]).flatten ++ []) fl
      rw [List.append_nil, List.flatten_append (L₂ := [s.op]), List.flatten_singleton]
      exact h3
    · rw [h5, setAt_get]; rfl
    · rw [h5, e]
      show setAt (setAt w.size 1 (w.size 1 + 1)) 2 0 1 = _
      rw [setAt_ne (setAt w.size 1 (w.size 1 + 1)) 0 (by omega : (1 : Nat) ≠ 2), setAt_get, h.size1, List.length_append]
      rfl
    · rw [hc.level]; show w.level - 1 = s.level - 1; rw [h.level]
    · rw [e2]
      intro r hr
      rcases List.mem_append.mp hr with hr | hr
      · exact h.ne r hr
      · rw [List.mem_singleton] at hr; rw [hr]; exact ho
    · rw [e2, List.flatten_append (L₂ := [s.op]), List.flatten_singleton]
      exact h4

theorem multi_closeP {rows fl nl} {s : QSt} {w : NWriter} (h : MultiR d k rows fl nl s w) (junk : Nat → Byte) (E : Code → NWriter → Prop) :
    (do nwUp; nwClosePolygon junk : M NWriter Unit) w |>.Post (fun _ w' => MultiR d k rows fl nl s.closeP w') E := by
  rw [M.bind_run]
  unfold nwUp
  rw [M.modify_run]
  dsimp only
  unfold nwClosePolygon
  rw [M.bind_run, M.get_run]
  dsimp only
  rw [h.size1]
  by_cases hc : s.cur = []
  · rw [if_neg (by rw [hc]; simp)]
    have e : s.closeP = { s with level := s.level - 1 } := if_pos hc
    rw [e]
    exact ⟨h.nw.congr rfl rfl rfl, h.size2, h.size1, congrArg (· - 1) h.level, h.dims, h.null, h.ne, h.neP, h.max⟩
  · rw [if_pos (List.length_pos_iff.mpr hc)]
    have e : s.closeP = { s with curP := s.curP ++ [s.cur], cur := [], level := s.level - 1 } := if_neg hc
    have hcount := length_le_flatten _ h.ne
    have hm := h.max
    refine post_bind (closeLists_post (w := { w with level := w.level - 1 }) (h.nw.congr rfl rfl rfl) junk (i := 1) (by rw [depth_multi]; omega)
      (polys := rows.flatten ++ s.curP) (cur := s.cur) rfl
      (by show ((((rows.flatten ++ s.curP).flatten ++ s.cur).map List.length)).length = _; rw [List.length_map, List.length_append])
      (by show ((((rows.flatten ++ s.curP).flatten ++ s.cur).map List.length)).length ≤ _; rw [List.length_map]; omega) _) ?_
    rintro _ w' ⟨h1, h2, h3⟩
    rw [ns3_set1] at h1
    have e1 : rows.flatten ++ (s.curP ++ [s.cur]) = rows.flatten ++ s.curP ++ [s.cur] := (List.append_assoc _ _ _).symm
    have e2 : (rows.flatten ++ (s.curP ++ [s.cur])).flatten ++ [] = (rows.flatten ++ s.curP).flatten ++ s.cur := by
      rw [e1, List.append_nil, List.flatten_append (L₂ := [s.cur]), List.flatten_singleton]
    rw [e]
    refine ⟨?_, ?_, ?_, ?_, ?_, ?_, ?_, ?_, ?_⟩
    · dsimp only
      rw [e2, e1]
      exact h1.congr rfl rfl rfl
    · show setAt (setAt w'.size 0 (w'.size 0 + 1)) 1 0 2 = _
      rw [setAt_ne _ _ (by omega), setAt_ne _ _ (by omega), h3]
      exact h.size2
    · show setAt (setAt w'.size 0 (w'.size 0 + 1)) 1 0 1 = _
      rw [setAt_get]; rfl
    · show w'.level = _
      rw [h2.level]; show w.level - 1 = s.level - 1; rw [h.level]
    · exact h2.dims.trans h.dims
    · exact h2.null.trans h.null
    · dsimp only
      rw [e2]
      exact h.ne
    · dsimp only
      rw [e1]
      intro r hr
      rcases List.mem_append.mp hr with hr | hr
      · exact h.neP r hr
      · rw [List.mem_singleton] at hr; rw [hr]; exact hc
    · dsimp only
      rw [e2]
      exact h.max

/-- One event. -/
theorem multi_step (junk : Nat → Byte) {rows fl nl} (s : QSt) (e : Event) (w : NWriter) (he : EvOk s.dims e) (h : MultiR d k rows fl nl s w) :
    (nwMulti junk e w).Post (fun _ w' => MultiR d k rows fl nl (multiStep d s e) w')
      (fun rc _ => TooMany (rows.flatten.flatten.flatten.length + (multiStep d s e).all.length) rc) := by
  cases e with
  | featStart => exact he.elim
  | nullFeat => exact he.elim
  | featEnd => exact he.elim
  | geomStart gt dims =>
    refine ⟨h.nw.congr rfl rfl rfl, h.size2, h.size1, ?_, rfl, h.null, h.ne, h.neP, h.max⟩
    show (if gt ∈ [5, 3, 2, 4] then w.level + 1 else w.level) = if gt ∈ [5, 3, 2, 4] then s.level + 1 else s.level
    rw [h.level]
  | ringStart => exact ⟨h.nw.congr rfl rfl rfl, h.size2, h.size1, congrArg (· + 1) h.level, h.dims, h.null, h.ne, h.neP, h.max⟩
  | coords nv cs =>
    obtain ⟨s', hs, hr⟩ := he
    refine (coords_post h.nw junk 2 nv (h.dims.trans hs) hr _).imp ?_ fun _ _ h => h
    rintro _ w' ⟨h1, h2, h3⟩
    refine ⟨?_, ?_, ?_, h2.level.trans h.level, h2.dims.trans h.dims, h2.null.trans h.null, h.ne, h.neP, h.max⟩
    · show NW 6 d k w' _ (_ ++ (s.op ++ cs.map (mapCoord (dimsOf s.dims) d))) fl
      rw [hs, dimsOf_code, ← List.append_assoc]
      exact h1
    · rw [h3, setAt_get, h.size2]
      show _ = (s.op ++ cs.map _).length
      rw [List.length_append, List.length_map]
    · rw [h3, setAt_ne _ _ (by omega)]
      exact h.size1
  | ringEnd =>
    refine (multi_closeSeq h junk).imp (fun _ _ h => h) fun rc _ ht => ?_
    show TooMany (_ + s.close.all.length) rc
    rw [s.close_all]
    exact ht
  | geomEnd =>
    show (nwGeomEndMulti junk w).Post _ _
    unfold nwGeomEndMulti multiStep
    rw [M.bind_run, M.get_run]
    dsimp only
    by_cases hl : s.level = 2
    · rw [if_pos (h.level.trans hl), if_pos hl]
      refine (multi_closeSeq h junk).imp (fun _ _ h => h) fun rc _ ht => ?_
      rw [s.close_all]
      exact ht
    · rw [if_neg (show ¬ w.level = 2 by rw [h.level]; exact hl), if_neg hl]
      by_cases hl1 : s.level = 1
      · rw [if_pos (h.level.trans hl1), if_pos hl1]
        exact multi_closeP h junk _
      · rw [if_neg (show ¬ w.level = 1 by rw [h.level]; exact hl1), if_neg hl1]
        exact h

/-- The end of a feature. -/
theorem multi_end (junk : Nat → Byte) {rows fl nl} {s : QSt} {w : NWriter} (h : MultiR d k rows fl nl s w) (hlen : fl.length = rows.length) :
    (nwMulti junk .featEnd w).Post (fun _ w' => MultiRest d k (rows ++ [s.polys]) (fl ++ [!nl]) w')
      (fun rc _ => TooMany (rows.flatten.flatten.flatten.length + s.all.length) rc) := by
  show (nwFeatEndMulti junk w).Post _ _
  unfold nwFeatEndMulti
  rw [M.bind_run, M.get_run, ← multi_total]
  dsimp only
  have hd := depth_multi
  -- the open ring
  have key : ((if 0 < w.size 2 then (do nwCloseCoords junk 2; M.modify fun w => { w with size := setAt w.size 1 (w.size 1 + 1) }) else pure () : M NWriter Unit) w).Post
      (fun _ w' => NW 6 d k w' (ns3 (rows.map List.length) ((rows.flatten ++ s.curP).map List.length) (((rows.flatten ++ s.curP).flatten ++ s.rings).map List.length))
          (((rows.flatten ++ s.curP).flatten ++ s.rings).flatten) fl ∧ SameCtl w w' ∧ w'.size 1 = s.rings.length ∧
        (∀ r ∈ (rows.flatten ++ s.curP).flatten ++ s.rings, r ≠ []) ∧ ((rows.flatten ++ s.curP).flatten ++ s.rings).flatten.length ≤ 2147483647)
      (fun rc _ => TooMany (((rows.flatten ++ s.curP).flatten ++ s.cur).flatten ++ s.op).length rc) := by
    rw [h.size2]
    by_cases ho : s.op = []
    · rw [if_neg (by rw [ho]; simp)]
      have e : s.rings = s.cur := if_pos ho
      have hn := h.nw
      rw [ho, List.append_nil] at hn
      show _ ∧ _
      rw [e]
      exact ⟨hn, .rfl' w, h.size1, h.ne, h.max⟩
    · rw [if_pos (List.length_pos_iff.mpr ho)]
      have e : s.rings = s.cur ++ [s.op] := if_neg ho
      refine post_bind (closeCoords_post h.nw junk (i := 2) (by omega) (rings := (rows.flatten ++ s.curP).flatten ++ s.cur) (op := s.op) rfl rfl) ?_
      rintro _ w' ⟨h1, h2, h3, h4⟩
      rw [ns3_set2] at h1
      rw [e, ← List.append_assoc, List.flatten_append (L₂ := [s.op]), List.flatten_singleton]
      refine ⟨h1.congr rfl rfl rfl, ⟨h2.1, h2.2, h2.3, h2.4⟩, ?_, ?_, h4⟩
      · show setAt w'.size 1 (w'.size 1 + 1) 1 = _
        rw [setAt_get, h3, h.size1, List.length_append]
        rfl
      · intro r hr
        rcases List.mem_append.mp hr with hr | hr
        · exact h.ne r hr
        · rw [List.mem_singleton] at hr; rw [hr]; exact ho
  refine post_bind key ?_
  rintro _ w1 ⟨h1, h2, hs1, h3, h4⟩
  rw [M.bind_run, M.get_run]
  dsimp only
  have hcount := length_le_flatten _ h3
  -- the open polygon
  have ef : (rows.flatten ++ s.polys).flatten = (rows.flatten ++ s.curP).flatten ++ s.rings := by
    unfold QSt.polys
    split
    · rename_i hr; rw [hr, List.append_nil]
    · rw [← List.append_assoc, List.flatten_append (L₂ := [s.rings]), List.flatten_singleton]
  have key2 : ((if 0 < w1.size 1 then nwCloseLists junk 1 else pure () : M NWriter Unit) w1).Post
      (fun _ w' => NW 6 d k w' (ns3 (rows.map List.length) ((rows.flatten ++ s.polys).map List.length) ((rows.flatten ++ s.polys).flatten.map List.length))
          ((rows.flatten ++ s.polys).flatten.flatten) fl ∧ SameCtl w1 w' ∧ (∀ p ∈ rows.flatten ++ s.polys, p ≠ []))
      (fun rc _ => TooMany (((rows.flatten ++ s.curP).flatten ++ s.cur).flatten ++ s.op).length rc) := by
    rw [ef, hs1]
    by_cases hr : s.rings = []
    · rw [if_neg (by rw [hr]; simp)]
      have e : s.polys = s.curP := if_pos hr
      rw [e]
      exact ⟨h1, .rfl' w1, h.neP⟩
    · rw [if_pos (List.length_pos_iff.mpr hr)]
      have e : s.polys = s.curP ++ [s.rings] := if_neg hr
      refine (closeLists_post h1 junk (i := 1) (by omega) (polys := rows.flatten ++ s.curP) (cur := s.rings) rfl
        (by show ((((rows.flatten ++ s.curP).flatten ++ s.rings).map List.length)).length = _; rw [List.length_map, List.length_append])
        (by show ((((rows.flatten ++ s.curP).flatten ++ s.rings).map List.length)).length ≤ _; rw [List.length_map]; omega) _).imp ?_ fun _ _ h => h
      rintro _ w' ⟨h5, h6, -⟩
      rw [ns3_set1] at h5
      rw [e, ← List.append_assoc]
      refine ⟨h5, h6, ?_⟩
      intro r hr'
      rcases List.mem_append.mp hr' with hr' | hr'
      · exact h.neP r hr'
      · rw [List.mem_singleton] at hr'; rw [hr']; exact hr
  refine post_bind key2 ?_
  rintro _ w2 ⟨h5, h6, h7⟩
  have hcount2 := length_le_flatten _ h7
  rw [ef] at hcount2
  refine post_bind (closeLists_post h5 junk (i := 0) (by omega) (polys := rows) (cur := s.polys) rfl
    (by show ((rows.flatten ++ s.polys).map List.length).length = _; rw [List.length_map, List.length_append])
    (by show ((rows.flatten ++ s.polys).map List.length).length ≤ _; rw [List.length_map]; omega) _) ?_
  rintro _ w3 ⟨h8, h9, -⟩
  rw [ns3_set0] at h8
  rw [M.bind_ok (count_nw h8 (by omega : 0 < listDepth 6)), M.bind_run, M.get_run]
  dsimp only
  refine (mark_post h8 junk (fun rc _ => TooMany (((rows.flatten ++ s.curP).flatten ++ s.cur).flatten ++ s.op).length rc)
    (len := (((ns3 ((rows ++ [s.polys]).map List.length) ((rows.flatten ++ s.polys).map List.length) ((rows.flatten ++ s.polys).flatten.map List.length)) 0).length : Int)) ?_ w3.featIsNull).imp ?_ fun _ _ h => h
  · show ((((rows ++ [s.polys]).map List.length).length : Nat) : Int) = _
    rw [List.length_map, List.length_append, List.length_singleton, hlen]
    omega
  · intro _ w4 h10
    rw [h9.null, h6.null, h2.null, h.null] at h10
    have eg : (rows ++ [s.polys]).flatten = rows.flatten ++ s.polys := by rw [List.flatten_append, List.flatten_singleton]
    refine ⟨?_, by rw [List.length_append, List.length_append, hlen]; rfl, by rw [eg, ef]; exact h3, by rw [eg]; exact h7, by rw [eg, ef]; exact h4⟩
    rw [eg]
    exact h10

def QSt.init (n : Nat) : QSt := ⟨[], [], [], 0, n⟩

/-- The start of a feature. -/
theorem multi_start (junk : Nat → Byte) {rows fl} {w : NWriter} (h : MultiRest d k rows fl w) :
    ∃ w', nwMulti junk .featStart w = .ok () w' ∧ MultiR d k rows fl false (.init w.lastDims) w' := by
  have e : rows.flatten ++ (QSt.init w.lastDims).curP = rows.flatten := List.append_nil _
  have e2 : (rows.flatten ++ (QSt.init w.lastDims).curP).flatten ++ (QSt.init w.lastDims).cur = rows.flatten.flatten := by
    rw [e]; exact List.append_nil _
  refine ⟨_, rfl, ?_, rfl, rfl, rfl, rfl, rfl, ?_, ?_, ?_⟩
  · rw [e2, e]
    show NW 6 d k _ _ (_ ++ []) fl
    rw [List.append_nil]
    exact h.nw.congr rfl rfl rfl
  · rw [e2]; exact h.ne
  · rw [e]; exact h.neP
  · rw [e2]; exact h.max

/-- A feature with any geometry. -/
theorem multi_feature (junk : Nat → Byte) {rows fl} {w : NWriter} (h : MultiRest d k rows fl w) {t : List Event} (hb : ∀ n, BodyOk n t) :
    (feed (nwMulti junk) (.featStart :: t ++ [.featEnd]) w).Post
      (fun _ w' => MultiRest d k (rows ++ [(t.foldl (multiStep d) (.init w.lastDims)).polys]) (fl ++ [true]) w')
      (fun rc _ => TooMany (rows.flatten.flatten.flatten.length + (delivered d w.lastDims t).length) rc) := by
  obtain ⟨w1, h1, h2⟩ := multi_start junk h
  have hall : (t.foldl (multiStep d) (.init w.lastDims)).all = delivered d w.lastDims t := multiFold_all d t (.init w.lastDims)
  rw [List.cons_append, feed_cons_ok' h1]
  refine post_feed_append (Q := fun _ w' => MultiR d k rows fl false (t.foldl (multiStep d) (.init w.lastDims)) w') ?_ ?_
  · have := sim_feed (R := MultiR d k rows fl false) (step := multiStep d) (dims := QSt.dims)
      (total := fun s => rows.flatten.flatten.flatten.length + s.all.length) (E := TooMany) (h := nwMulti junk)
      (fun s e w he hr => multi_step junk s e w he hr) (multiStep_dims d) (fun s e => by
        rw [multiStep_all, List.length_append]
        omega) TooMany.mono t (.init w.lastDims) w1 (hb _) h2
    refine this.imp (fun _ _ h => h) fun rc _ ht => ?_
    rw [hall] at ht
    exact ht
  · intro w2 h3
    refine post_feed_cons ((multi_end junk h3 h.len).imp (fun _ _ h => h) fun rc _ ht => ?_) fun _ h => h
    rw [hall] at ht
    exact ht

/-- A null feature. -/
theorem multi_null (junk : Nat → Byte) {rows fl} {w : NWriter} (h : MultiRest d k rows fl w) :
    (feed (nwMulti junk) [.featStart, .nullFeat, .featEnd] w).Post (fun _ w' => MultiRest d k (rows ++ [[]]) (fl ++ [false]) w')
      (fun rc _ => TooMany rows.flatten.flatten.flatten.length rc) := by
  obtain ⟨w1, h1, h2⟩ := multi_start junk h
  rw [feed_cons_ok' h1]
  have h3 : MultiR d k rows fl true (.init w.lastDims) { w1 with featIsNull := true } :=
    ⟨h2.nw.congr rfl rfl rfl, h2.size2, h2.size1, h2.level, h2.dims, rfl, h2.ne, h2.neP, h2.max⟩
  rw [feed_cons_ok' (rfl : nwMulti junk .nullFeat w1 = .ok () { w1 with featIsNull := true })]
  exact post_feed_cons ((multi_end junk h3 h.len).imp (fun _ _ h => h) fun rc _ ht => ht) fun _ h => h

theorem multi_begin {w : NWriter} (h : NW 6 d k w (fun _ => []) [] []) : MultiRest d k [] [] w := by
  rw [ns3_nil] at h
  exact ⟨h, rfl, by simp, by simp, by simp⟩

end

/-! ## Multipolygons -/

theorem multiFold_chunks (d : Dims) (s : Dims) (nv : Nat) : ∀ (chunks : List (List Coord)) (p : QSt), p.dims = s.code →
    (chunks.map (Event.coords nv)).foldl (multiStep d) p = { p with op := p.op ++ chunks.flatten.map (mapCoord s d) }
  | [], p, _ => by simp
  | c :: cs, p, hp => by
    rw [List.map_cons, List.foldl_cons]
    refine (multiFold_chunks d s nv cs (multiStep d p (.coords nv c)) hp).trans ?_
    show QSt.mk p.curP p.cur (p.op ++ c.map (mapCoord (dimsOf p.dims) d) ++ _) p.level p.dims = _
    rw [hp, dimsOf_code, List.flatten_cons, List.map_append, List.append_assoc]

theorem multiFold_rings (d s : Dims) (nv : Nat) : ∀ (rs : List (List Coord)) (t : List Event) (p : QSt), RingsTrace nv rs t → p.dims = s.code → p.op = [] →
    t.foldl (multiStep d) p = { p with cur := p.cur ++ keptRings s d rs }
  | [], t, p, h, _, _ => by
    cases h
    simp [keptRings]
  | r :: rs, t, p, h, hp, ho => by
    obtain ⟨t1, t2, ⟨chunks, rfl, rfl⟩, h2, rfl⟩ := h
    rw [List.cons_append, List.foldl_cons, List.foldl_append, List.foldl_cons]
    rw [multiFold_chunks d s nv chunks _ (by exact hp)]
    have e : multiStep d { multiStep d p .ringStart with op := (multiStep d p .ringStart).op ++ chunks.flatten.map (mapCoord s d) } .ringEnd =
        { p with cur := p.cur ++ (if chunks.flatten = [] then [] else [chunks.flatten.map (mapCoord s d)]) } := by
      cases p with
      | mk curP cur op level dims =>
        dsimp only at ho
        subst ho
        show QSt.mk _ _ _ _ _ = QSt.mk _ _ _ _ _
        unfold QSt.rings multiStep
        dsimp only
        by_cases hc : chunks.flatten = []
        · rw [hc]
          simp
        · rw [if_neg hc, if_neg (show ¬ ([] ++ chunks.flatten.map (mapCoord s d) = []) by rw [List.nil_append, List.map_eq_nil_iff]; exact hc), List.nil_append,
            show level + 1 - 1 = level by omega]
    rw [e]
    refine (multiFold_rings d s nv rs t2 (QSt.mk p.curP (p.cur ++ if chunks.flatten = [] then [] else [chunks.flatten.map (mapCoord s d)]) p.op p.level p.dims) h2 hp ho).trans ?_
    rw [keptRings_cons, List.append_assoc]

/-- A polygon inside of a multipolygon. -/
theorem multiFold_polygon {d s : Dims} {rs : List (List Coord)} {t : List Event} (h : (Geom.polygon s rs).Trace t) (p : QSt) (hl : p.level = 0)
    (hc : p.cur = []) (ho : p.op = []) :
    ∃ n, t.foldl (multiStep d) p = { p with curP := p.curP ++ (if keptRings s d rs = [] then [] else [keptRings s d rs]), dims := n } := by
  obtain ⟨b, hb, rfl⟩ := h
  refine ⟨s.code, ?_⟩
  rw [List.cons_append, List.foldl_cons, List.foldl_append, multiFold_rings d s s.n rs b (multiStep d p (.geomStart 3 s.code)) hb rfl ho]
  cases p with
  | mk curP cur op level dims =>
    dsimp only at ho hl hc
    subst ho hl hc
    show multiStep d ⟨curP, [] ++ keptRings s d rs, [], 0 + 1, s.code⟩ .geomEnd = _
    unfold multiStep QSt.closeP
    dsimp only
    rw [if_neg (by omega), if_pos (by omega), List.nil_append]
    by_cases hk : keptRings s d rs = []
    · rw [hk]; simp
    · rw [if_neg hk, if_neg hk]; rfl

theorem multiFold_polygons (d : Dims) : ∀ (ps : List Geom) (t : List Event) (p : QSt), Geom.TraceL ps t → (∀ x ∈ ps, ∃ s rs, x = .polygon s rs) →
    p.level = 0 → p.cur = [] → p.op = [] → ∃ n, t.foldl (multiStep d) p =
      { p with curP := p.curP ++ (ps.flatMap fun x => match x with | .polygon s rs => (if keptRings s d rs = [] then [] else [keptRings s d rs]) | _ => []), dims := n }
  | [], t, p, h, _, _, _, _ => by
    cases h
    exact ⟨p.dims, by simp⟩
  | x :: ps, t, p, h, hx, hl, hc, ho => by
    obtain ⟨t1, t2, h1, h2, rfl⟩ := h
    obtain ⟨s, rs, rfl⟩ := hx x (by simp)
    obtain ⟨n, h3⟩ := multiFold_polygon (d := d) h1 p hl hc ho
    obtain ⟨n', h4⟩ := multiFold_polygons d ps t2 { p with curP := p.curP ++ (if keptRings s d rs = [] then [] else [keptRings s d rs]), dims := n } h2
      (fun x' hx' => hx x' (by simp [hx'])) hl hc ho
    refine ⟨n', ?_⟩
    rw [List.foldl_append, h3, h4]
    simp

theorem multiFold_multi {d s : Dims} {ps : List Geom} {t : List Event} (h : (Geom.multi .multipolygon s ps).Trace t) (hx : ∀ x ∈ ps, ∃ s rs, x = .polygon s rs) (n : Nat) :
    (t.foldl (multiStep d) (.init n)).polys =
      ps.flatMap fun x => match x with | .polygon s rs => (if keptRings s d rs = [] then [] else [keptRings s d rs]) | _ => [] := by
  obtain ⟨b, hb, rfl⟩ := h
  rw [List.cons_append, List.foldl_cons, List.foldl_append]
  obtain ⟨n', h1⟩ := multiFold_polygons d ps b (multiStep d (.init n) (.geomStart MultiKind.multipolygon.code s.code)) hb hx rfl rfl rfl
  rw [h1]
  rfl

end Verif
