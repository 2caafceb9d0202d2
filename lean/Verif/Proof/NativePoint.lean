import Verif.Proof.NativeVisit
/-! # Native writer: points -/
namespace Verif
open Spec

theorem mapDimensions_dimsOf (n d : Nat) : mapDimensions n d = mapDimensions (dimsOf n).code d := by
  unfold dimsOf
  by_cases h2 : n = 2
  · subst h2; rfl
  by_cases h3 : n = 3
  · subst h3; rfl
  by_cases h4 : n = 4
  · subst h4; rfl
  unfold mapDimensions
  simp [h2, h3, h4, Dims.code]

theorem coordsAppend_dimsOf (junk : Nat → Byte) (S : DMem) (src : CoordView) (n off c : Nat) :
    bCoordsAppend junk S src n off c = bCoordsAppend junk S src (dimsOf n).code off c := by
  have e : ∀ D dst d o c, coordViewCopy S src n off D dst d o c = coordViewCopy S src (dimsOf n).code off D dst d o c := by
    intros
    unfold coordViewCopy
    rw [mapDimensions_dimsOf]
  unfold bCoordsAppend bCoordsAppendUnsafe
  simp only [e]

theorem mapCoord_nan (s d : Dims) : mapCoord s d (nanCoord s) = nanCoord d := by
  cases s <;> cases d <;> rfl

theorem holds_empty (nv : Nat) (s : Dims) : Holds (rowsMem [emptyRow]) (rowsView nv) 0 s [nanCoord s] := by
  intro t c hc
  cases t with
  | succ t => simp at hc
  | zero =>
    cases hc
    refine ⟨List.length_replicate, fun j x hx => ?_⟩
    unfold nanCoord at hx
    rw [List.getElem?_replicate] at hx
    split at hx
    · rename_i hj
      cases hx
      have h4 : j = 0 ∨ j = 1 ∨ j = 2 ∨ j = 3 := by have := Dims.n_le s; omega
      rcases h4 with rfl | rfl | rfl | rfl <;> exact congrArg some nan_bytes
    · cases hx

section
variable {g : Int} {d : Dims} {k : CoordKind} {w : NWriter} {ns : Nat → List Nat} {cs : List Coord} {fl : List Bool}

/-- Coordinates from anywhere are appended. -/
theorem nwB_coords (h : NW g d k w ns cs fl) (junk : Nat → Byte) {S : DMem} {src : CoordView} {s : Dims} {off : Nat} {rows : List Coord}
    (hh : Holds S src off s rows) :
    ∃ b', nwB (bCoordsAppend junk S src s.code off rows.length) w = .ok () { w with builder := b' } ∧ SameType w.builder b' ∧
      NW g d k { w with builder := b' } ns (cs ++ rows.map (mapCoord s d)) fl := by
  obtain ⟨b', h1, h2, h3, h4⟩ := coordsAppend_run junk h.built.native h.built.coords hh
  refine ⟨b', nwB_ok h1, h2, ⟨h.built.native.of_same h2, fun j hj => ?_, h4⟩, ?_, h.bits, h.nulls⟩
  · show Has (b'.bufs (j + 1)) _
    rw [h3 _ (by omega)]
    exact h.built.offsets j hj
  · show (b'.bufs 0).mem = [] ∧ _
    rw [h3 0 (by omega)]
    exact h.blank

/-- The coordinate of an empty point is appended, whatever the dimensions. -/
theorem nwB_empty (h : NW g d k w ns cs fl) (junk : Nat → Byte) (nv n : Nat) :
    ∃ b', nwB (bCoordsAppend junk (rowsMem [emptyRow]) (rowsView nv) n 0 1) w = .ok () { w with builder := b' } ∧ SameType w.builder b' ∧
      NW g d k { w with builder := b' } ns (cs ++ [nanCoord d]) fl := by
  rw [coordsAppend_dimsOf]
  have := nwB_coords h junk (holds_empty nv (dimsOf n))
  rw [List.map_singleton, mapCoord_nan] at this
  exact this

/-- The writer in the middle of a feature with coordinates `op` so far. -/
structure PointR (d : Dims) (k : CoordKind) (rows : List Coord) (fl : List Bool) (nl : Bool) (s : List Coord × Nat) (w : NWriter) : Prop where
  nw : NW 1 d k w (ns3 [] [] []) (rows ++ s.1) fl
  size : w.size 0 = s.1.length
  dims : w.lastDims = s.2
  null : w.featIsNull = nl

/-- The writer between features. -/
structure PointRest (d : Dims) (k : CoordKind) (rows : List Coord) (fl : List Bool) (w : NWriter) : Prop where
  nw : NW 1 d k w (ns3 [] [] []) rows fl
  len : fl.length = rows.length

def pointStep (d : Dims) (s : List Coord × Nat) (e : Event) : List Coord × Nat := (s.1 ++ evRows d s.2 e, nextDims s.2 e)

theorem pointFold (d : Dims) : ∀ (t : List Event) (s : List Coord × Nat), (t.foldl (pointStep d) s).1 = s.1 ++ delivered d s.2 t
  | [], s => (List.append_nil _).symm
  | e :: t, s => by
    rw [List.foldl_cons, pointFold d t]
    show s.1 ++ evRows d s.2 e ++ _ = _
    rw [List.append_assoc]
    rfl

theorem point_step (junk : Nat → Byte) {rows fl nl} (s : List Coord × Nat) (e : Event) (w : NWriter) (he : EvOk s.2 e) (h : PointR d k rows fl nl s w)
    (E : Code → NWriter → Prop) : (nwPoint junk e w).Post (fun _ w' => PointR d k rows fl nl (pointStep d s e) w') E := by
  have e0 : ∀ w' : NWriter, w'.builder = w.builder → w'.validity = w.validity → w'.nullCount = w.nullCount → w'.size = w.size → w'.featIsNull = w.featIsNull →
      PointR d k rows fl nl (s.1 ++ [], w'.lastDims) w' := by
    intro w' h1 h2 h3 h4 h5
    refine ⟨?_, ?_, rfl, h5.trans h.null⟩
    · rw [List.append_nil]; exact h.nw.congr h1 h2 h3
    · rw [h4, List.append_nil]; exact h.size
  have e1 : PointR d k rows fl nl (s.1 ++ [], s.2) w := by
    have := e0 w rfl rfl rfl rfl rfl
    rw [h.dims] at this
    exact this
  cases e with
  | featStart => exact he.elim
  | nullFeat => exact he.elim
  | featEnd => exact he.elim
  | geomStart gt dims => exact e0 { w with lastDims := dims, level := if gt ∈ [] then w.level + 1 else w.level } rfl rfl rfl rfl rfl
  | ringStart => exact e1
  | ringEnd => exact e1
  | geomEnd => exact e1
  | coords nv cs =>
    obtain ⟨s', hs, hr⟩ := he
    refine (coords_post h.nw junk 0 nv (h.dims.trans hs) hr _).imp ?_ fun _ _ h => h
    rintro _ w' ⟨h1, h2, h3⟩
    refine ⟨?_, ?_, h2.dims.trans h.dims, h2.null.trans h.null⟩
    · show NW 1 d k w' _ (rows ++ (s.1 ++ cs.map (mapCoord (dimsOf s.2) d))) fl
      rw [hs, dimsOf_code, ← List.append_assoc]
      exact h1
    · rw [h3, setAt_get, h.size]
      show _ = (s.1 ++ cs.map _).length
      rw [List.length_append, List.length_map]

/-- What is stored for a feature with these coordinates. -/
def pointRow (d : Dims) (op : List Coord) : Coord := op.headD (nanCoord d)

/-- The end of a feature. -/
theorem point_end (junk : Nat → Byte) {rows fl nl} {s : List Coord × Nat} {w : NWriter} (h : PointR d k rows fl nl s w) (hlen : fl.length = rows.length) :
    (nwPoint junk .featEnd w).Post (fun _ w' => s.1.length ≤ 1 ∧ PointRest d k (rows ++ [pointRow d s.1]) (fl ++ [!nl]) w')
      (fun rc _ => rc = EINVAL ∧ 1 < s.1.length) := by
  show (nwFeatEndPoint junk w).Post _ _
  unfold nwFeatEndPoint
  rw [M.bind_run, M.get_run]
  dsimp only
  have key : ((if w.size 0 = 0 then nwCoords junk 0 w.builder.nValues [emptyRow] else if w.size 0 ≠ 1 then M.fail EINVAL else pure () : M NWriter Unit) w).Post
      (fun _ w' => s.1.length ≤ 1 ∧ NW 1 d k w' (ns3 [] [] []) (rows ++ [pointRow d s.1]) fl ∧ w'.featIsNull = nl) (fun rc _ => rc = EINVAL ∧ 1 < s.1.length) := by
    rw [h.size]
    obtain ⟨op, n⟩ := s
    match op, h with
    | [], h =>
      rw [if_pos (show ([] : List Coord).length = 0 from rfl)]
      have hn := h.nw
      rw [List.append_nil] at hn
      unfold nwCoords
      rw [M.bind_run, M.modify_run]
      dsimp only
      rw [M.bind_run, M.get_run]
      dsimp only
      obtain ⟨b', h1, -, h2⟩ := nwB_empty (w := { w with size := setAt w.size 0 (w.size 0 + [emptyRow].length) }) (hn.congr rfl rfl rfl) junk w.builder.nValues w.lastDims
      refine Eq.mpr (congrArg (fun r => Res.Post _ _ r) h1) ?_
      exact ⟨Nat.zero_le _, h2, h.null⟩
    | [c], h =>
      rw [if_neg (by simp), if_neg (by simp)]
      exact ⟨Nat.le_refl _, h.nw, h.null⟩
    | c :: c' :: op, h =>
      rw [if_neg (by simp), if_pos (by simp)]
      exact ⟨rfl, by simp⟩
  refine post_bind key ?_
  rintro _ w1 ⟨h0, h1, h2⟩
  rw [M.bind_run, M.get_run]
  dsimp only
  refine (mark_post h1 junk _ (by rw [h1.sizeCoords, List.length_append, List.length_singleton, hlen]; omega) w1.featIsNull).imp ?_ fun _ _ h => h
  intro _ w2 h3
  rw [h2] at h3
  exact ⟨h0, h3, by rw [List.length_append, List.length_append, hlen]; rfl⟩

theorem point_start (junk : Nat → Byte) {rows fl} {w : NWriter} (h : PointRest d k rows fl w) :
    ∃ w', nwPoint junk .featStart w = .ok () w' ∧ PointR d k rows fl false ([], w.lastDims) w' := by
  refine ⟨_, rfl, ?_, rfl, rfl, rfl⟩
  rw [List.append_nil]
  exact h.nw.congr rfl rfl rfl

/-- A feature with any geometry. -/
theorem point_feature (junk : Nat → Byte) {rows fl} {w : NWriter} (h : PointRest d k rows fl w) {t : List Event} (hb : ∀ n, BodyOk n t) :
    (feed (nwPoint junk) (.featStart :: t ++ [.featEnd]) w).Post
      (fun _ w' => (delivered d w.lastDims t).length ≤ 1 ∧ PointRest d k (rows ++ [pointRow d (delivered d w.lastDims t)]) (fl ++ [true]) w')
      (fun rc _ => rc = EINVAL ∧ 1 < (delivered d w.lastDims t).length) := by
  obtain ⟨w1, h1, h2⟩ := point_start junk h
  have hall : (t.foldl (pointStep d) ([], w.lastDims)).1 = delivered d w.lastDims t := pointFold d t ([], w.lastDims)
  rw [List.cons_append, feed_cons_ok' h1]
  refine post_feed_append (Q := fun _ w' => PointR d k rows fl false (t.foldl (pointStep d) ([], w.lastDims)) w') ?_ ?_
  · have := sim_feed (R := PointR d k rows fl false) (step := pointStep d) (dims := Prod.snd)
      (total := fun _ => 0) (E := fun _ _ => False) (h := nwPoint junk)
      (fun s e w he hr => point_step junk s e w he hr _) (fun _ _ => rfl) (fun s e => Nat.le_refl _) (fun _ _ _ _ h => h) t ([], w.lastDims) w1 (hb _) h2
    exact this.imp (fun _ _ h => h) fun rc _ ht => ht.elim
  · intro w2 h3
    have := point_end junk h3 h.len
    rw [hall] at this
    exact post_feed_cons this fun _ h => h

/-- A null feature. -/
theorem point_null (junk : Nat → Byte) {rows fl} {w : NWriter} (h : PointRest d k rows fl w) (E : Code → NWriter → Prop) :
    (feed (nwPoint junk) [.featStart, .nullFeat, .featEnd] w).Post (fun _ w' => PointRest d k (rows ++ [nanCoord d]) (fl ++ [false]) w') E := by
  obtain ⟨w1, h1, h2⟩ := point_start junk h
  rw [feed_cons_ok' h1]
  have h3 : PointR d k rows fl true ([], w.lastDims) { w1 with featIsNull := true } :=
    ⟨h2.nw.congr rfl rfl rfl, h2.size, h2.dims, rfl⟩
  rw [feed_cons_ok' (rfl : nwPoint junk .nullFeat w1 = .ok () { w1 with featIsNull := true })]
  refine post_feed_cons ((point_end junk h3 h.len).imp (fun _ _ h => h.2) fun rc _ ht => ?_) fun _ h => h
  have := ht.2
  simp at this

theorem point_begin {w : NWriter} (h : NW 1 d k w (fun _ => []) [] []) : PointRest d k [] [] w := by
  rw [ns3_nil] at h
  exact ⟨h, rfl⟩

end
end Verif
