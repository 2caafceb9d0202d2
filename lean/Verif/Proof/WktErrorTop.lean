import Verif.Proof.WktErrorViable
/-!
# Where the WKT reader stops: tagged geometries and the whole text
-/
namespace Verif
open Spec

section
variable {parse : List Byte → Option Dbl} {blob : List Byte}

theorem eptag_run {r d} (h : RdPos blob r d) (hn : NotWord blob r) :
    (∃ r1 rc, wkrTag blob r = .err rc r1 ∧ RdPos blob r1 d ∧ NotWord blob r1) ∨
    ∃ gt dc r' kw dm, wkrTag blob r = .ok (gt, dc) r' ∧ wkrType kw = some gt ∧ RdPos blob r' (d ++ .word kw :: dimToks dm) ∧ r'.nv = dm.n := by
  obtain ⟨r1, e1, p1, _, v1, n1⟩ := rdpos_skip h
  obtain ⟨hs, hall, hedge⟩ := span_word (blob.drop r1.pos)
  have hr : wkrTag blob r = (match wkrType (((blob.drop r1.pos).takeWhile isWordChar).take 19) with
      | none => .err EINVAL r1
      | some gt => (do
          wkrAdvance (((blob.drop r1.pos).takeWhile isWordChar).take 19).length
          wkrSkip blob
          let w ← wkrWord blob 3
          M.modify fun r => { r with nv := (wkrDims w).2.1 }
          wkrAdvance (wkrDims w).2.2
          pure (gt, (wkrDims w).1)) r1) := by
    unfold wkrTag
    rw [M.bind_ok e1, M.bind_ok (word_at p1.at 19)]
    cases wkrType (((blob.drop r1.pos).takeWhile isWordChar).take 19) <;> rfl
  rw [type_take] at hr
  generalize hw : (blob.drop r1.pos).takeWhile isWordChar = w at hr hs hall
  cases hg : wkrType w with
  | none => rw [hg] at hr; exact Or.inl ⟨r1, _, hr, p1, n1 hn⟩
  | some gt =>
    rw [hg] at hr
    simp only [] at hr
    rw [type_take_len hg] at hr
    have hne : w ≠ [] := by rintro rfl; cases hg
    obtain ⟨p2, _⟩ := rdpos_word p1 hs hne hall hedge
    obtain ⟨r3, e3, p3, _, v3, _⟩ := rdpos_skip p2
    rw [M.bind_ok (m := wkrAdvance w.length) (s := r1) (a := ()) (s' := r1.move w.length) rfl, M.bind_ok e3, M.bind_ok (word_at p3.at 3), dims_take] at hr
    obtain ⟨hs', hall', hedge'⟩ := span_word (blob.drop r3.pos)
    generalize hw' : (blob.drop r3.pos).takeWhile isWordChar = w' at hr hs' hall'
    refine Or.inr ?_
    have hd : (∃ dm, dm ≠ .xy ∧ dimToks dm = [.word w'] ∧ (wkrDims w').2.1 = dm.n ∧ (wkrDims w').2.2 = w'.length ∧ w' ≠ []) ∨
        ((wkrDims w').2.1 = 2 ∧ (wkrDims w').2.2 = 0) := by
      by_cases hz : w' = str "Z"
      · subst hz; exact Or.inl ⟨.xyz, by decide, by decide, by decide, by decide, by decide⟩
      by_cases hm : w' = str "M"
      · subst hm; exact Or.inl ⟨.xym, by decide, by decide, by decide, by decide, by decide⟩
      by_cases hzm : w' = str "ZM"
      · subst hzm; exact Or.inl ⟨.xyzm, by decide, by decide, by decide, by decide, by decide⟩
      · refine Or.inr ?_
        unfold wkrDims
        rw [if_neg hz, if_neg hm, if_neg hzm]
        exact ⟨rfl, rfl⟩
    rcases hd with ⟨dm, _, h1, h2, h3, h4⟩ | ⟨h2, h3⟩
    · obtain ⟨p4, _⟩ := rdpos_word p3 hs' h4 hall' hedge'
      refine ⟨gt, _, _, w, dm, hr, hg, ?_, h2⟩
      rw [List.append_assoc] at p4
      rw [h1]
      refine p4.same ?_ ?_
      · show r3.pos + _ = r3.pos + _; rw [h3]
      · show r3.left - _ = r3.left - _; rw [h3]
    · refine ⟨gt, _, _, w, .xy, hr, hg, p3.same ?_ ?_, h2⟩
      · show r3.pos + _ = r3.pos; rw [h3]; rfl
      · show r3.left - _ = r3.left; rw [h3]; simp

/-- What follows a tag. -/
def BodyLang (parse : List Byte → Option Dbl) (kw : List Byte) (dm : Dims) (t : List Tok) : Prop :=
  ∃ g, BodyToks parse g t ∧ g.keyword = kw ∧ g.dims = dm

/-- A geometry. -/
def GeomLang (parse : List Byte → Option Dbl) (t : List Tok) : Prop := ∃ g, GeomToks parse g t

section
variable (hpe : parse [] = none) {w0 : List Byte} (hw0 : ANumber parse w0) (dm : Dims)

theorem lines_of {t : List Tok} (h : ListLang (CoordLang parse dm) t) : ∃ cs, Listed (CoordToks parse dm) cs t := listed_of h

theorem polygon_of {t : List Tok} (h : ListLang (ListLang (CoordLang parse dm)) t) : ∃ rs, Listed (Listed (CoordToks parse dm)) rs t :=
  listed_of (listLang_mono (fun _ hu => lines_of dm hu) h)

theorem mem_line {t : List Tok} (h : ListLang (CoordLang parse dm) t) : MemLang parse .multilinestring dm t := by
  obtain ⟨cs, hcs⟩ := lines_of dm h
  exact ⟨.linestring dm cs, t, rfl, by simp only [BodyToks]; exact hcs, rfl⟩

theorem mem_polygon {t : List Tok} (h : ListLang (ListLang (CoordLang parse dm)) t) : MemLang parse .multipolygon dm t := by
  obtain ⟨rs, hrs⟩ := polygon_of dm h
  exact ⟨.polygon dm rs, t, rfl, by simp only [BodyToks]; exact hrs, rfl⟩

theorem mem_geom {t : List Tok} (h : GeomLang parse t) : MemLang parse .collection dm t := by
  obtain ⟨g, b, hb, rfl⟩ := h
  exact ⟨g, b, by cases g <;> trivial, hb, rfl⟩

include hw0 in
theorem geom_wit : ∃ tl, GeomLang parse (.word (str "POINT") :: tl) ∧ PlainToks (.word (str "POINT") :: tl) := by
  obtain ⟨t, ⟨cs, h1⟩, h2⟩ := point_wit' hw0 .xy
  exact ⟨t, ⟨.point .xy cs, t, by simp only [BodyToks]; exact h1, rfl⟩,
    PlainToks.cons (plain_word (by decide) (by decide)) h2⟩

include hpe hw0 in
theorem vres_content {tagged : Ep Unit} (ht : ∀ r d, RdPos blob r d → NotWord blob r → VRes parse blob (fun _ => True) d (GeomLang parse) (tagged r))
    {kw : List Byte} {gt : Nat} (hg : wkrType kw = some gt) {r d} (h : RdPos blob r d) (hv : r.nv = dm.n) :
    VRes parse blob (fun _ => True) d (BodyLang parse kw dm) (epContent parse blob tagged gt r) := by
  have hlw := list_wit' (coord_wit hw0 dm)
  have hci : ItemOk parse blob (· = dm.n) (epCoordinates parse blob) (ListLang (CoordLang parse dm)) :=
    fun _ _ h _ hk => vres_coordinates hpe hw0 dm h hk
  have hpi : ItemOk parse blob (· = dm.n) (epList blob (epCoordinates parse blob)) (ListLang (ListLang (CoordLang parse dm))) :=
    fun _ _ h _ hk => vres_list hci hlw h hk
  unfold wkrType at hg
  split at hg
  · rename_i hkw; cases hg; subst hkw
    refine (vres_point hpe hw0 dm h hv).mono ?_ fun _ _ => trivial
    rintro t ⟨cs, hcs⟩
    exact ⟨.point dm cs, by simp only [BodyToks]; exact hcs, rfl, rfl⟩
  split at hg
  · rename_i hkw; cases hg; subst hkw
    refine (vres_coordinates hpe hw0 dm h hv).mono ?_ fun _ _ => trivial
    intro t h
    obtain ⟨cs, hcs⟩ := lines_of dm h
    exact ⟨.linestring dm cs, by simp only [BodyToks]; exact hcs, rfl, rfl⟩
  split at hg
  · rename_i hkw; cases hg; subst hkw
    refine (vres_list hci hlw h hv).mono ?_ fun _ _ => trivial
    intro t h
    obtain ⟨rs, hrs⟩ := polygon_of dm h
    exact ⟨.polygon dm rs, by simp only [BodyToks]; exact hrs, rfl, rfl⟩
  split at hg
  · rename_i hkw; cases hg; subst hkw
    refine (vres_multipoint hpe hw0 dm h hv).mono ?_ fun _ _ => trivial
    rintro t ⟨ps, hps⟩
    exact ⟨_, hps, rfl, rfl⟩
  split at hg
  · rename_i hkw; cases hg; subst hkw
    refine (vres_list hci hlw h hv).mono ?_ fun _ _ => trivial
    intro t h
    obtain ⟨ps, hps⟩ := multi_of_list (listLang_mono (fun _ hu => mem_line dm hu) h)
    exact ⟨_, hps, rfl, rfl⟩
  split at hg
  · rename_i hkw; cases hg; subst hkw
    refine (vres_list hpi (list_wit' hlw) h hv).mono ?_ fun _ _ => trivial
    intro t h
    obtain ⟨ps, hps⟩ := multi_of_list (listLang_mono (fun _ hu => mem_polygon dm hu) h)
    exact ⟨_, hps, rfl, rfl⟩
  split at hg
  · rename_i hkw; cases hg; subst hkw
    obtain ⟨tl, w1, w2⟩ := geom_wit hw0
    refine (vres_list (K := fun _ => True) (L := GeomLang parse) (item := tagged) (fun r d h hn _ => ht r d h hn) ⟨_, w1, w2⟩ h trivial).mono ?_ fun _ _ => trivial
    intro t h
    obtain ⟨ps, hps⟩ := multi_of_list (listLang_mono (fun _ hu => mem_geom dm hu) h)
    exact ⟨_, hps, rfl, rfl⟩
  · cases hg

include hpe hw0 in
theorem vres_tagged : ∀ (fuel : Nat) (r : WktR) (d : List Tok), RdPos blob r d → NotWord blob r →
    VRes parse blob (fun _ => True) d (GeomLang parse) (epTagged parse blob fuel r) := by
  intro fuel
  induction fuel with
  | zero => intro r d _ _; trivial
  | succ f ih =>
    intro r d h hn
    rw [epTagged]
    rcases eptag_run h hn with ⟨r1, rc, e, p1, n1⟩ | ⟨gt, dc, r1, kw, dm, e, hg, p1, v1⟩
    · rw [Ep.bind_err (Ep.of_err e)]
      obtain ⟨tl, w1, w2⟩ := geom_wit hw0
      exact ⟨p1.le, [], _, by rw [List.append_nil]; exact p1.lexed, w1, w2, n1, tl, rfl⟩
    · rw [Ep.bind_ok (Ep.of_ok e)]
      refine VRes.shift (.word kw :: dimToks dm) ?_
      refine (vres_content hpe hw0 dm ih hg p1 v1).mono ?_ fun _ h => h
      rintro t ⟨g, hb, rfl, rfl⟩
      exact ⟨g, t, hb, rfl⟩
end

/-! ## Writing tokens down -/

/-- Tokens as text: a space between words, and nothing else. -/
def writeToks : List Tok → List Byte
  | [] => []
  | .opening _ :: ts => 40 :: writeToks ts
  | .closing :: ts => 41 :: writeToks ts
  | .comma :: ts => 44 :: writeToks ts
  | .word w :: ts => match ts with
    | .word _ :: _ => w ++ 32 :: writeToks ts
    | _ => w ++ writeToks ts

theorem PlainToks.tail {t ts} (h : PlainToks (t :: ts)) : PlainToks ts := fun x hx => h x (by simp [hx])

theorem writeToks_tight {ts : List Tok} (h : PlainToks ts) : startsTight (writeToks ts) = true := by
  have hw : ∀ (w rest : List Byte), w ≠ [] → (∀ c ∈ w, isWordChar c = true) → startsTight (w ++ rest) = true := by
    intro w rest hw hall
    cases w with
    | nil => exact absurd rfl hw
    | cons x w =>
      have := hall x (by simp)
      simp only [List.cons_append, startsTight]
      cases hs : isSpace x with
      | false => rfl
      | true => rw [space_not_word hs] at this; cases this
  cases ts with
  | nil => rfl
  | cons t ts =>
    cases t with
    | opening b => rfl
    | closing => rfl
    | comma => rfl
    | word w =>
      have := h (.word w) (by simp)
      cases ts with
      | nil => exact hw w _ this.1 this.2
      | cons t' ts' => cases t' <;> exact hw w _ this.1 this.2

theorem lex_writeToks {ts : List Tok} (h : PlainToks ts) : lex (writeToks ts) = ts := by
  induction ts with
  | nil => rfl
  | cons t ts ih =>
    have iht := ih h.tail
    cases t with
    | opening b =>
      have hb : b = true := h (.opening b) (by simp)
      simp only [writeToks]
      rw [lex_open, iht, writeToks_tight h.tail, hb]
    | closing => simp only [writeToks]; rw [lex_close, iht]
    | comma => simp only [writeToks]; rw [lex_comma, iht]
    | word w =>
      have hw := h (.word w) (by simp)
      cases ts with
      | nil => exact lex_word hw.2 hw.1 rfl
      | cons t' ts' =>
        cases t' with
        | word w' =>
          show lex (w ++ 32 :: writeToks _) = _
          rw [lex_word hw.2 hw.1 (by rfl), lex_space (by rfl), iht]
        | opening b => show lex (w ++ writeToks _) = _; rw [lex_word hw.2 hw.1 (by rfl), iht]
        | closing => show lex (w ++ writeToks _) = _; rw [lex_word hw.2 hw.1 (by rfl), iht]
        | comma => show lex (w ++ writeToks _) = _; rw [lex_word hw.2 hw.1 (by rfl), iht]

theorem writeToks_word (w : List Byte) (ts : List Tok) : ∃ rest, writeToks (.word w :: ts) = w ++ rest ∧ startsEdge rest = true := by
  cases ts with
  | nil => exact ⟨[], rfl, rfl⟩
  | cons t' ts' => cases t' <;> exact ⟨_, rfl, rfl⟩

/-! ## The whole text -/

theorem epfeature_run (hpe : parse [] = none) {w0 : List Byte} (hw0 : ANumber parse w0) {r : WktR} {fuel : Nat} {w : WkWant} {k : Nat}
    (h : epFeature parse blob fuel { r with pos := 0, left := blob.length } = .err w k) : k ≤ blob.length ∧
    ((w = .endOfInput ∧ GeomLang parse (lex (blob.take k))) ∨
     ∃ t1 t2, Lexed (blob.take k) t1 ∧ GeomLang parse (t1 ++ t2) ∧ PlainToks t2 ∧ GoesOn parse (blob.take k) w t2) := by
  have hp : RdPos blob { r with pos := 0, left := blob.length } [] := by
    refine ⟨Nat.zero_le _, by simp, ?_, ?_⟩
    · intro c _; rfl
    · exact ⟨fun ⟨x, hx, _⟩ => by simp at hx, fun hx => by simp at hx⟩
  have hn : NotWord blob { r with pos := 0, left := blob.length } := by
    rintro ⟨x, hx, _⟩; simp at hx
  have ht := vres_tagged hpe hw0 fuel _ _ hp hn
  unfold epFeature at h
  cases he : epTagged parse blob fuel { r with pos := 0, left := blob.length } with
  | ub => rw [Ep.bind_ub he] at h; cases h
  | err w' k' =>
    rw [Ep.bind_err he] at h
    cases h
    rw [he] at ht
    obtain ⟨hk, t1, t2, h1, h2, h3, h4⟩ := ht
    exact ⟨hk, Or.inr ⟨t1, t2, h1, h2, h3, h4⟩⟩
  | ok a r1 =>
    rw [Ep.bind_ok he] at h
    rw [he] at ht
    obtain ⟨t, h1, h2, _⟩ := ht
    obtain ⟨r2, e2, p2, _⟩ := rdpos_skip h2
    rw [Ep.bind_ok (Ep.safe_ok e2), Ep.bind_ok (Ep.safe_ok (peek_at p2.at))] at h
    split at h
    · have : Ep.of .endOfInput (M.fail EINVAL : M WktR Unit) r2 = .err .endOfInput r2.pos := rfl
      rw [this] at h
      cases h
      refine ⟨p2.le, Or.inl ⟨rfl, ?_⟩⟩
      have := p2.lexed [] ⟨fun _ => rfl, fun _ => rfl⟩
      rw [List.append_nil, lex_nil, List.append_nil, List.nil_append] at this
      rw [this]; exact h1
    · cases h
end

end Verif
