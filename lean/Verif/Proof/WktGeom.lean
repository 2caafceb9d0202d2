import Verif.Proof.WktWriter
/-!
# The WKT writer visitor on whole geometries
-/
namespace Verif
open Spec

theorem parens_congr {c : Nat} {s s' : WktW} (hk : WKeep s s') (hg : ∀ j, j < c → s'.geometryType j = s.geometryType j) :
    wktParens c s' = wktParens c s := by
  unfold wktParens
  by_cases h0 : c < 1
  · simp [h0]
  · rw [hg (c - 1) (by omega), hk.flat]

/-- The state after opening a level for something of type `k`. -/
structure Opened (c k : Nat) (s s1 : WktW) : Prop where
  keep : WKeep s s1
  level : s1.level = (c : Int)
  zero : s1.i c = 0
  type : s1.geometryType c = k
  gt : ∀ j, j < c → s1.geometryType j = s.geometryType j
  cnt : ∀ j, j + 1 < c → s1.i j = s.i j
  outer : 0 < c → s1.i (c - 1) = s.i (c - 1) + 1

theorem opened_mk (c k : Nat) (s : WktW) (v : List Byte) (cap : Nat) : Opened c k s { s with
      values := v
      cap := cap
      level := (c : Int)
      geometryType := upd s.geometryType c k
      i := upd (if 0 < c then upd s.i (c - 1) (s.i (c - 1) + 1) else s.i) c 0 } := by
  refine ⟨⟨rfl, rfl, rfl, rfl, rfl, rfl, rfl, rfl, rfl⟩, rfl, upd_same _ _ _, upd_same _ _ _, fun j hj => upd_ne _ _ (by omega), ?_, ?_⟩
  · intro j hj
    simp only []
    rw [upd_ne _ _ (by omega), if_pos (by omega), upd_ne _ _ (by omega)]
  · intro h0
    simp only []
    rw [upd_ne _ _ (by omega), if_pos h0, upd_same]

/-- After the content of an opened level and its closing. -/
theorem closed_at {c k : Nat} {s s1 s2 s' : WktW} (h : Opened c k s s1) (hs : s.level = (c : Int) - 1) (a : WAt (c + 1) s1 s2)
    (h1 : s'.level = (c : Int) - 1) (h2 : s'.geometryType = s2.geometryType) (h3 : s'.i = s2.i) :
    WAt c s s' ∧ (0 < c → s'.i (c - 1) = s.i (c - 1) + 1) := by
  refine ⟨⟨h1.trans hs.symm, ?_, ?_⟩, ?_⟩
  · intro j hj; rw [h2, a.gt j (by omega), h.gt j hj]
  · intro j hj; rw [h3, a.cnt j (by omega), h.cnt j hj]
  · intro h0; rw [h3, a.cnt (c - 1) (by omega), h.outer h0]

/-- Opening a geometry, writing items, closing it. -/
theorem shell_run (print : Nat → Dbl → List Byte) {s : WktW} {c k : Nat} (hlv : s.level = (c : Int) - 1) (hc : c ≤ 31) (h1 : 1 ≤ k) (h7 : k ≤ 7)
    (d : Dims) (es : List Event) (ts : List (List Byte))
    (hb : ∀ s1 : WktW, s1.level = (c : Int) → s1.i c = 0 → s1.geometryType c = k → WKeep s s1 →
      (∀ j, j < c → s1.geometryType j = s.geometryType j) →
      Grow s1 (itemsFrom (wktParens c s) 0 ts) (fun s2 => WAt (c + 1) s1 s2 ∧ s2.i c = ts.length) (feed (wktHandler print) es s1)) :
    Grow s (before c s ++ ((if outerType c s = 7 then tagText k d else []) ++
        (itemsFrom (wktParens c s) 0 ts ++ closing (wktParens c s) ts.length)))
      (fun s' => WAt c s s' ∧ (0 < c → s'.i (c - 1) = s.i (c - 1) + 1))
      (feed (wktHandler print) (.geomStart k d.code :: es ++ [.geomEnd]) s) := by
  obtain ⟨cap, e1⟩ := wktGeomStart_run print hlv hc h1 h7 d
  have ho := opened_mk c k s (s.values ++ (before c s ++ (if outerType c s = 7 then tagText k d else []))) cap
  generalize hs1 : WktW.mk _ _ _ _ _ _ _ _ _ _ _ _ _ _ = s1 at ho
  rw [hs1] at e1
  rw [← List.append_assoc, List.cons_append, feed_cons_ok e1]
  refine Grow.after (s1 := s1) (by rw [← hs1]) ho.keep ?_
  refine (hb s1 ho.level ho.zero ho.type ho.keep ho.gt).feed_append ?_
  rintro s2 a1 a2 ⟨a3, a4⟩
  obtain ⟨cap2, e2⟩ := wktGeomEnd_run print (a3.level.trans ho.level) hc
  rw [feed_cons_ok e2]
  have hpar : wktParens c s2 = wktParens c s :=
    parens_congr (ho.keep.trans a2) (fun j hj => (a3.gt j (by omega)).trans (ho.gt j hj))
  rw [hpar, a4]
  exact ⟨rfl, ⟨rfl, rfl, rfl, rfl, rfl, rfl, rfl, rfl, rfl⟩, closed_at ho hlv a3 rfl rfl rfl⟩

section
variable {print : Nat → Dbl → List Byte} (hp : ∀ n x, (print n x).length ≤ 40)
include hp

theorem rings_run {nv c : Nat} (hnv : 1 ≤ nv) (hc : c + 1 ≤ 31) (rs : List (List Coord)) : ∀ (t : List Event) (s : WktW),
    RingsTrace nv rs t → (∀ r ∈ rs, ∀ x ∈ r, x.length = nv) → s.level = (c : Int) → s.geometryType c = 3 →
    Grow s (itemsFrom true (s.i c) (rs.map (wktSequence (print s.precision))))
      (fun s' => WAt (c + 1) s s' ∧ s'.i c = s.i c + rs.length) (feed (wktHandler print) t s) := by
  induction rs with
  | nil =>
    intro t s ht _ _ _
    simp only [RingsTrace] at ht; subst ht
    exact ⟨by simp [itemsFrom], WKeep.refl _, WAt.refl _ _, rfl⟩
  | cons r rs ih =>
    intro t s ht hw hlv hg
    obtain ⟨t1, t2, ⟨chunks, hc1, hc2⟩, h2, rfl⟩ := ht
    obtain ⟨cap, e1⟩ := wktRingStart_run print (s := s) (c := c + 1) (by omega) hc (by omega)
    have ho := opened_mk (c + 1) 0 s (s.values ++ before (c + 1) s) cap
    generalize hs1 : WktW.mk _ _ _ _ _ _ _ _ _ _ _ _ _ _ = s1 at ho
    rw [hs1] at e1
    rw [List.cons_append, feed_cons_ok e1, List.map_cons, itemsFrom]
    have hbef : before (c + 1) s = lead true (s.i c) := by simp [before]
    rw [List.append_assoc]
    refine Grow.after (s1 := s1) (by rw [← hs1, hbef]) ho.keep ?_
    have hs : wktSequence (print s.precision) r = itemsFrom true 0 (r.map (wktCoordinate (print s.precision))) ++ closing true r.length := by
      rw [wktSequence, ← items_list, List.length_map]
    rw [hs, List.append_assoc, hc2]
    have hch := chunks_run hp (l := c + 1) hnv hc chunks s1 (by rw [hc1]; exact hw r (by simp)) ho.level
    have hpar : wktParens (c + 1) s1 = true := by
      unfold wktParens
      rw [Nat.add_sub_cancel, ho.gt c (by omega), hg]; simp
    rw [hpar, hc1, ho.zero, ho.keep.precision] at hch
    refine hch.feed_append ?_
    rintro s2 a1 a2 ⟨a3, a4⟩
    obtain ⟨cap2, e2⟩ := wktRingEnd_run print (a3.level.trans ho.level) hc
    have hcl := closed_at (s' := { s2 with values := s2.values ++ closing true (s2.i (c + 1)), cap := cap2, level := ((c + 1 : Nat) : Int) - 1 })
      ho (by omega) a3 rfl rfl rfl
    rw [feed_cons_ok e2]
    have hv : ({ s2 with values := s2.values ++ closing true (s2.i (c + 1)), cap := cap2, level := ((c + 1 : Nat) : Int) - 1 } : WktW).values =
        s2.values ++ closing true r.length := by simp only []; rw [a4, Nat.zero_add]
    have hk2 : WKeep s2 { s2 with values := s2.values ++ closing true (s2.i (c + 1)), cap := cap2, level := ((c + 1 : Nat) : Int) - 1 } :=
      ⟨rfl, rfl, rfl, rfl, rfl, rfl, rfl, rfl, rfl⟩
    generalize hs3 : WktW.mk _ _ _ _ _ _ _ _ _ _ _ _ _ _ = s3 at hcl hv hk2
    refine Grow.after (s1 := s3) hv hk2 ?_
    have hk3 := ho.keep.trans (a2.trans hk2)
    have hcnt : s3.i c = s.i c + 1 := hcl.2 (by omega)
    have h3 := ih t2 s3 h2 (fun r' hr' => hw r' (by simp [hr'])) (hcl.1.level.trans hlv) ((hcl.1.gt c (by omega)).trans hg)
    rw [hcnt, hk3.precision] at h3
    refine h3.imp ?_
    rintro s' - - ⟨b1, b2⟩
    exact ⟨hcl.1.trans b1, by rw [b2, List.length_cons]; omega⟩
end

/-- The text of a geometry inside one of type `par`. -/
def ctxText (pr : Dbl → List Byte) (flat : Bool) (par : Nat) (g : Geom) : List Byte :=
  if par = 7 then wktText pr flat g
  else if par = 4 ∧ flat = true then wktFlatMember pr g (wktBody pr flat g)
  else wktBody pr flat g

theorem members_eq (pr : Dbl → List Byte) (flat : Bool) (k : MultiKind) (gs : List Geom) :
    wktMembers pr flat k gs = gs.map (ctxText pr flat k.code) := by
  induction gs with
  | nil => simp [wktMembers]
  | cons g gs ih =>
    rw [wktMembers, ih, List.map_cons]
    congr 1
    cases flat <;> cases k <;> rfl

theorem keyword_multi (k : MultiKind) (d : Dims) (ps : List Geom) : (Geom.multi k d ps).keyword = wktTypeName k.code := by
  cases k <;> rfl

/-- Only points occur inside flat multipoints. -/
def FitsIn (flat : Bool) (par : Nat) (g : Geom) : Prop := flat = true → par = 4 → ∃ d cs, g = .point d cs

theorem ctx_parens {pr : Dbl → List Byte} {flat : Bool} {par : Nat} {g : Geom} {k : Nat} (hk : g.keyword = wktTypeName k)
    {ts : List (List Byte)} (hb : wktBody pr flat g = wktList ts) (hf : ¬ (par = 4 ∧ flat = true)) :
    ctxText pr flat par g = (if par = 7 then tagText k g.dims else []) ++ (itemsFrom true 0 ts ++ closing true ts.length) := by
  unfold ctxText
  rw [if_neg hf, items_list, ← hb]
  split
  · simp [wktText, tagText, hk]
  · rfl

theorem ctx_flat {pr : Dbl → List Byte} {d : Dims} {cs : List Coord} :
    ctxText pr true 4 (.point d cs) = itemsFrom false 0 (cs.map (wktCoordinate pr)) ++ closing false (cs.map (wktCoordinate pr)).length := by
  unfold ctxText
  rw [if_neg (by decide), if_pos (by decide)]
  cases cs with
  | nil => simp [wktFlatMember, wktBody, wktSequence, wktList, itemsFrom, closing]
  | cons c cs => rw [List.map_cons, items_flat]; rfl

theorem parens_eq (c : Nat) (s : WktW) : wktParens c s = !decide (outerType c s = 4 ∧ s.flat = true) := by
  unfold wktParens outerType
  by_cases h0 : c = 0
  · simp [h0]
  · rw [if_neg h0]
    have : ¬ c < 1 := by omega
    cases hf : s.flat <;> simp [this, bne]
    cases h : decide (s.geometryType (c - 1) = 4) <;> simp at h <;> simp [h]

section
variable {print : Nat → Dbl → List Byte} (hp : ∀ n x, (print n x).length ≤ 40)
include hp

mutual
theorem wktw_geom : ∀ (g : Geom) (t : List Event) (s : WktW) (c : Nat), g.Trace t → g.WF → g.Typed → s.level = (c : Int) - 1 →
    c + g.height ≤ 31 → FitsIn s.flat (outerType c s) g →
    Grow s (before c s ++ ctxText (print s.precision) s.flat (outerType c s) g)
      (fun s' => WAt c s s' ∧ (0 < c → s'.i (c - 1) = s.i (c - 1) + 1)) (feed (wktHandler print) t s)
  | .point d cs, t, s, c, ht, hw, hty, hlv, hh, hfit => by
    obtain ⟨b, ⟨chunks, hc1, rfl⟩, rfl⟩ := ht
    simp only [Geom.height] at hh
    have hs := shell_run print hlv (by omega) (show 1 ≤ 1 by omega) (by omega) d (chunks.map (Event.coords d.n))
      (cs.map (wktCoordinate (print s.precision))) (by
        intro s1 a1 a2 a3 a4 a5
        have := chunks_run hp (l := c) (nv := d.n) (by cases d <;> decide) (by omega) chunks s1 (by rw [hc1]; exact hw) a1
        rw [parens_congr a4 a5, a2, a4.precision, hc1] at this
        refine this.imp ?_
        rintro s2 - - ⟨b1, b2⟩
        exact ⟨b1, by rw [b2, List.length_map]; omega⟩)
    have htxt : ctxText (print s.precision) s.flat (outerType c s) (.point d cs) =
        (if outerType c s = 7 then tagText 1 d else []) ++ (itemsFrom (wktParens c s) 0 (cs.map (wktCoordinate (print s.precision))) ++
          closing (wktParens c s) (cs.map (wktCoordinate (print s.precision))).length) := by
      rw [parens_eq]
      by_cases hf : outerType c s = 4 ∧ s.flat = true
      · rw [decide_eq_true hf, hf.1, hf.2, ctx_flat]; rfl
      · rw [decide_eq_false hf]
        exact ctx_parens (g := .point d cs) (k := 1) rfl (by simp [wktBody, wktSequence]) hf
    rw [htxt]
    exact hs
  | .linestring d cs, t, s, c, ht, hw, hty, hlv, hh, hfit => by
    obtain ⟨b, ⟨chunks, hc1, rfl⟩, rfl⟩ := ht
    simp only [Geom.height] at hh
    have hs := shell_run print hlv (by omega) (show 1 ≤ 2 by omega) (by omega) d (chunks.map (Event.coords d.n))
      (cs.map (wktCoordinate (print s.precision))) (by
        intro s1 a1 a2 a3 a4 a5
        have := chunks_run hp (l := c) (nv := d.n) (by cases d <;> decide) (by omega) chunks s1 (by rw [hc1]; exact hw) a1
        rw [parens_congr a4 a5, a2, a4.precision, hc1] at this
        refine this.imp ?_
        rintro s2 - - ⟨b1, b2⟩
        exact ⟨b1, by rw [b2, List.length_map]; omega⟩)
    have hf : ¬ (outerType c s = 4 ∧ s.flat = true) := by
      intro h; obtain ⟨d', cs', h'⟩ := hfit h.2 h.1; cases h'
    rw [ctx_parens (g := .linestring d cs) (k := 2) rfl (ts := cs.map (wktCoordinate (print s.precision))) (by simp [wktBody, wktSequence]) hf]
    rw [parens_eq, decide_eq_false hf] at hs
    exact hs
  | .polygon d rs, t, s, c, ht, hw, hty, hlv, hh, hfit => by
    obtain ⟨b, hb, rfl⟩ := ht
    simp only [Geom.height] at hh
    have hf : ¬ (outerType c s = 4 ∧ s.flat = true) := by
      intro h; obtain ⟨d', cs', h'⟩ := hfit h.2 h.1; cases h'
    have hs := shell_run print hlv (by omega) (show 1 ≤ 3 by omega) (by omega) d b
      (rs.map (wktSequence (print s.precision))) (by
        intro s1 a1 a2 a3 a4 a5
        have := rings_run hp (c := c) (nv := d.n) (by cases d <;> decide) (by omega) rs b s1 hb hw a1 a3
        rw [a2, a4.precision] at this
        rw [parens_eq, decide_eq_false hf]
        refine this.imp ?_
        rintro s2 - - ⟨b1, b2⟩
        exact ⟨b1, by rw [b2, List.length_map]; omega⟩)
    rw [ctx_parens (g := .polygon d rs) (k := 3) rfl (ts := rs.map (wktSequence (print s.precision))) (by simp [wktBody]) hf]
    rw [parens_eq, decide_eq_false hf] at hs
    exact hs
  | .multi k d ps, t, s, c, ht, hw, hty, hlv, hh, hfit => by
    obtain ⟨b, hb, rfl⟩ := ht
    simp only [Geom.height] at hh
    have hf : ¬ (outerType c s = 4 ∧ s.flat = true) := by
      intro h; obtain ⟨d', cs', h'⟩ := hfit h.2 h.1; cases h'
    have hk : 4 ≤ k.code ∧ k.code ≤ 7 := by cases k <;> simp [MultiKind.code]
    have hs := shell_run print hlv (by omega) (show 1 ≤ k.code by omega) hk.2 d b
      (ps.map (ctxText (print s.precision) s.flat k.code)) (by
        intro s1 a1 a2 a3 a4 a5
        have := wktw_geoms ps b s1 c k hb hw hty a1 (by omega) a3
        rw [a2, a4.precision, a4.flat] at this
        rw [parens_eq, decide_eq_false hf]
        refine this.imp ?_
        rintro s2 - - ⟨b1, b2⟩
        exact ⟨b1, by rw [b2, List.length_map]; omega⟩)
    rw [ctx_parens (g := .multi k d ps) (k := k.code) (keyword_multi k d ps) (ts := ps.map (ctxText (print s.precision) s.flat k.code))
      (by simp [wktBody, members_eq]) hf]
    rw [parens_eq, decide_eq_false hf] at hs
    exact hs
theorem wktw_geoms : ∀ (gs : List Geom) (t : List Event) (s : WktW) (c : Nat) (k : MultiKind), Geom.TraceL gs t → Geom.WFL gs → Geom.TypedL k gs →
    s.level = (c : Int) → c + 1 + Geom.heightL gs ≤ 31 → s.geometryType c = k.code →
    Grow s (itemsFrom true (s.i c) (gs.map (ctxText (print s.precision) s.flat k.code)))
      (fun s' => WAt (c + 1) s s' ∧ s'.i c = s.i c + gs.length) (feed (wktHandler print) t s)
  | [], t, s, c, k, ht, hw, hty, hlv, hh, hg => by
    simp only [Geom.TraceL] at ht; subst ht
    exact ⟨by simp [itemsFrom], WKeep.refl _, WAt.refl _ _, rfl⟩
  | g :: gs, t, s, c, k, ht, hw, hty, hlv, hh, hg => by
    obtain ⟨t1, t2, h1, h2, rfl⟩ := ht
    simp only [Geom.heightL] at hh
    have hout : outerType (c + 1) s = k.code := by simp [outerType, hg]
    have hfit : FitsIn s.flat (outerType (c + 1) s) g := by
      intro _ h4
      rw [hout] at h4
      have hk4 : k = .multipoint := by cases k <;> simp [MultiKind.code] at h4 ⊢
      subst hk4
      have := hty.1
      cases g with
      | point d cs => exact ⟨d, cs, rfl⟩
      | _ => exact this.elim
    have a := wktw_geom g t1 s (c + 1) h1 hw.1 hty.2.1 (by omega) (by omega) hfit
    rw [List.map_cons, itemsFrom]
    have hbef : before (c + 1) s = lead true (s.i c) := by simp [before]
    rw [hbef, hout] at a
    refine a.feed_append ?_
    rintro s1 b1 b2 ⟨b3, b4⟩
    have b4 : s1.i c = s.i c + 1 := b4 (by omega)
    have r := wktw_geoms gs t2 s1 c k h2 hw.2 hty.2.2 (b3.level.trans hlv) (by omega) ((b3.gt c (by omega)).trans hg)
    rw [b4, b2.precision, b2.flat] at r
    refine r.imp ?_
    rintro s2 - - ⟨c1, c2⟩
    exact ⟨b3.trans c1, by rw [c2, List.length_cons]; omega⟩
end
end

end Verif
