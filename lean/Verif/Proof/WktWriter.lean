import Verif.Model.WktWriter
import Verif.Spec.Wkt
import Verif.Spec.Program
import Verif.Proof.WkbWriter
/-!
# The WKT writer visitor on the callbacks of a geometry
-/
namespace Verif
open Spec

/-- What no callback inside a feature changes. -/
structure WKeep (s s' : WktW) : Prop where
  validity : s'.validity = s.validity
  offsets : s'.offsets = s.offsets
  length : s'.length = s.length
  nullCount : s'.nullCount = s.nullCount
  featStart : s'.featStart = s.featStart
  precision : s'.precision = s.precision
  flat : s'.flat = s.flat
  maxSize : s'.maxSize = s.maxSize
  featIsNull : s'.featIsNull = s.featIsNull

theorem WKeep.refl (s) : WKeep s s := ⟨rfl, rfl, rfl, rfl, rfl, rfl, rfl, rfl, rfl⟩
theorem WKeep.trans {s s' s''} (a : WKeep s s') (b : WKeep s' s'') : WKeep s s'' :=
  ⟨b.1.trans a.1, b.2.trans a.2, b.3.trans a.3, b.4.trans a.4, b.5.trans a.5, b.6.trans a.6, b.7.trans a.7, b.8.trans a.8,
    b.9.trans a.9⟩

/-- Either the text was appended and `P` holds, or a prefix was appended and the size limit stopped it. -/
def Grow (s : WktW) (txt : List Byte) (P : WktW → Prop) : Res WktW Unit → Prop
  | .ok _ s' => s'.values = s.values ++ txt ∧ WKeep s s' ∧ P s'
  | .err rc s' => rc = EAGAIN ∧ s'.limitReached = true ∧ (∃ p, p <+: txt ∧ s'.values = s.values ++ p) ∧ WKeep s s'
  | .ub => False

theorem Grow.of_ok {s s' : WktW} {txt P r} (h : r = .ok () s') (h1 : s'.values = s.values ++ txt) (h2 : WKeep s s') (h3 : P s') :
    Grow s txt P r := by subst h; exact ⟨h1, h2, h3⟩

theorem Grow.imp {s txt P Q} {r : Res WktW Unit} (h : Grow s txt P r) (hi : ∀ s', s'.values = s.values ++ txt → WKeep s s' → P s' → Q s') :
    Grow s txt Q r := by
  cases r with
  | ok a s' => exact ⟨h.1, h.2.1, hi s' h.1 h.2.1 h.2.2⟩
  | err rc s' => exact h
  | ub => exact h

/-- Continue after success. -/
def Res.andThen (r : Res WktW Unit) (f : WktW → Res WktW Unit) : Res WktW Unit :=
  match r with
  | .ok _ s' => f s'
  | .err rc s' => .err rc s'
  | .ub => .ub

theorem Grow.chain {s t1 t2} {P Q} {r : Res WktW Unit} {f : WktW → Res WktW Unit} (h : Grow s t1 P r)
    (hf : ∀ s', s'.values = s.values ++ t1 → WKeep s s' → P s' → Grow s' t2 Q (f s')) :
    Grow s (t1 ++ t2) Q (r.andThen f) := by
  cases r with
  | ok a s' =>
    obtain ⟨h1, h2, h3⟩ := h
    have := hf s' h1 h2 h3
    simp only [Res.andThen]
    cases hr : f s' with
    | ok a s'' =>
      rw [hr] at this
      exact ⟨by rw [this.1, h1, List.append_assoc], h2.trans this.2.1, this.2.2⟩
    | err rc s'' =>
      rw [hr] at this
      obtain ⟨g1, g2, ⟨p, g3, g4⟩, g5⟩ := this
      exact ⟨g1, g2, ⟨t1 ++ p, (List.prefix_append_right_inj t1).mpr g3, by rw [g4, h1, List.append_assoc]⟩, h2.trans g5⟩
    | ub => rw [hr] at this; exact this
  | err rc s' =>
    obtain ⟨g1, g2, ⟨p, g3, g4⟩, g5⟩ := h
    exact ⟨g1, g2, ⟨p, g3.trans (List.prefix_append _ _), g4⟩, g5⟩
  | ub => exact h

theorem Grow.bind {s t1 t2} {P Q} {m : M WktW Unit} {f : Unit → M WktW Unit} (h : Grow s t1 P (m s))
    (hf : ∀ s', s'.values = s.values ++ t1 → WKeep s s' → P s' → Grow s' t2 Q (f () s')) :
    Grow s (t1 ++ t2) Q ((m >>= f) s) := by
  have : (m >>= f) s = (m s).andThen (f ()) := by rw [M.bind_run]; cases m s <;> rfl
  rw [this]
  exact h.chain hf

/-- Text already appended on the way to `s1`. -/
theorem Grow.after {s s1 p t} {Q} {r : Res WktW Unit} (hv : s1.values = s.values ++ p) (hk : WKeep s s1) (h : Grow s1 t Q r) :
    Grow s (p ++ t) Q r :=
  Grow.chain (r := .ok () s1) (f := fun _ => r) (P := fun s' => s' = s1) ⟨hv, hk, rfl⟩ (fun s' _ _ h' => by subst h'; exact h)

theorem feed_append' {h : Handler WktW} (es es' : List Event) (s : WktW) :
    feed h (es ++ es') s = (feed h es s).andThen (feed h es') := by
  rw [feed_append]; cases feed h es s <;> rfl

theorem Grow.feed_append {s t1 t2} {P Q} {h : Handler WktW} {es es' : List Event} (h1 : Grow s t1 P (feed h es s))
    (hf : ∀ s', s'.values = s.values ++ t1 → WKeep s s' → P s' → Grow s' t2 Q (feed h es' s')) :
    Grow s (t1 ++ t2) Q (feed h (es ++ es') s) := by
  rw [feed_append']
  exact h1.chain (f := feed h es') hf

theorem Grow.feed_cons {s t1 t2} {P Q} {h : Handler WktW} {e : Event} {es' : List Event} (h1 : Grow s t1 P (h e s))
    (hf : ∀ s', s'.values = s.values ++ t1 → WKeep s s' → P s' → Grow s' t2 Q (feed h es' s')) :
    Grow s (t1 ++ t2) Q (feed h (e :: es') s) := by
  have : feed h (e :: es') s = (h e s).andThen (feed h es') := by simp only [feed]; cases h e s <;> rfl
  rw [this]
  exact h1.chain hf

/-! ## Writing -/

theorem reserve_run (n : Nat) (s : WktW) : ∃ cap, wktReserve n s = .ok () { s with cap := cap } ∧ s.values.length + n ≤ cap := by
  unfold wktReserve
  split
  · exact ⟨s.cap, rfl, by assumption⟩
  · exact ⟨_, rfl, by unfold growByFactor; split <;> omega⟩

theorem write_run (bs : List Byte) (s : WktW) :
    ∃ cap, wktWrite bs s = .ok () { s with values := s.values ++ bs, cap := cap } := by
  obtain ⟨cap, h1, h2⟩ := reserve_run bs.length s
  refine ⟨cap, ?_⟩
  unfold wktWrite
  rw [M.bind_ok h1]
  unfold wktUnsafe
  rw [if_pos h2]

theorem intercalate_cons (sep a : List Byte) (as : List (List Byte)) :
    sep.intercalate (a :: as) = a ++ as.flatMap (sep ++ ·) := by
  induction as generalizing a with
  | nil => simp [List.intercalate]
  | cons b bs ih =>
    have : sep.intercalate (a :: b :: bs) = a ++ sep ++ sep.intercalate (b :: bs) := by simp [List.intercalate]
    rw [this, ih]; simp

section
variable {print : Nat → Dbl → List Byte} (hp : ∀ n x, (print n x).length ≤ 40)
include hp

theorem ordinates_run (xs : List Dbl) : ∀ (s : WktW), s.values.length + 41 * xs.length ≤ s.cap →
    wktOrdinates print xs s = .ok () { s with values := s.values ++ xs.flatMap fun x => str " " ++ print s.precision x } := by
  have hsp : (str " ").length = 1 := by decide
  induction xs with
  | nil => intro s _; simp [wktOrdinates]
  | cons x xs ih =>
    intro s h
    simp only [List.length_cons] at h
    have := hp s.precision x
    unfold wktOrdinates
    rw [M.bind_ok (s' := { s with values := s.values ++ str " " }) (a := ()) (by unfold wktUnsafe; rw [if_pos (by rw [hsp]; omega)])]
    rw [M.bind_ok (s' := { s with values := s.values ++ str " " ++ print s.precision x }) (a := ())
      (by unfold wktDouble; rw [if_pos (by simp only [List.length_append, hsp]; omega)])]
    rw [ih _ (by simp only [List.length_append, hsp]; omega)]
    simp

theorem coord_run (c : List Dbl) (hc : c ≠ []) (s : WktW) (h : s.values.length + 41 * c.length ≤ s.cap + 1) :
    wktCoord print c s = .ok () { s with values := s.values ++ wktCoordinate (print s.precision) c } := by
  cases c with
  | nil => exact absurd rfl hc
  | cons x xs =>
    simp only [List.length_cons] at h
    have := hp s.precision x
    simp only [wktCoord]
    rw [M.bind_ok (s' := { s with values := s.values ++ print s.precision x }) (a := ())
      (by unfold wktDouble; rw [if_pos (by omega)])]
    rw [ordinates_run hp _ _ (by simp only [List.length_append]; omega)]
    simp only [wktCoordinate, List.map_cons, intercalate_cons, List.flatMap_map, List.append_assoc]

theorem more_run (R nv : Nat) (hR : 41 * nv + 1 ≤ R) (hnv : 1 ≤ nv) (cs : List (List Dbl)) : ∀ (s : WktW), (∀ c ∈ cs, c.length = nv ∧ c ≠ []) →
    Grow s (cs.flatMap fun c => str ", " ++ wktCoordinate (print s.precision) c)
      (fun s' => ∃ v cap, s' = { s with values := v, cap := cap }) (wktMore print R cs s) := by
  have hsp : (str ", ").length = 2 := by decide
  induction cs with
  | nil => intro s _; exact ⟨by simp, WKeep.refl _, s.values, s.cap, rfl⟩
  | cons c cs ih =>
    intro s h
    unfold wktMore
    split
    · rename_i hl
      exact ⟨rfl, hl, ⟨[], List.nil_prefix, by simp⟩, WKeep.refl _⟩
    · obtain ⟨cap, h1, h2⟩ := reserve_run R s
      rw [List.flatMap_cons, M.bind_ok h1]
      have hc := h c (by simp)
      rw [M.bind_ok (s' := { s with cap := cap, values := s.values ++ str ", " }) (a := ())
        (by unfold wktUnsafe; rw [if_pos (by simp only [hsp]; omega)])]
      have hcr := coord_run hp c hc.2 { s with cap := cap, values := s.values ++ str ", " }
        (by simp only [List.length_append, hsp, hc.1]; omega)
      refine Grow.bind (P := fun s' => s' = { s with cap := cap, values := s.values ++ str ", " ++ wktCoordinate (print s.precision) c })
        (s := s) (m := fun _ => wktCoord print c { s with cap := cap, values := s.values ++ str ", " }) ?_ ?_
      · exact .of_ok hcr (by simp) ⟨rfl, rfl, rfl, rfl, rfl, rfl, rfl, rfl, rfl⟩ rfl
      · intro s' h3 h4 h5
        subst h5
        refine (ih _ (fun c' hc' => h c' (by simp [hc']))).imp ?_
        rintro s'' - - ⟨v, cap', rfl⟩
        exact ⟨v, cap', rfl⟩
end

/-! ## Items -/

/-- What precedes the item after `n` others. -/
def lead (par : Bool) (n : Nat) : List Byte := if n ≠ 0 then str ", " else if par then str "(" else []
/-- The text of items following `n` others. -/
def itemsFrom (par : Bool) : Nat → List (List Byte) → List Byte
  | _, [] => []
  | n, t :: ts => lead par n ++ t ++ itemsFrom par (n + 1) ts
/-- What closes `n` items. -/
def closing (par : Bool) (n : Nat) : List Byte := if n = 0 then str "EMPTY" else if par then str ")" else []

theorem itemsFrom_append (par : Bool) (a b : List (List Byte)) : ∀ n,
    itemsFrom par n (a ++ b) = itemsFrom par n a ++ itemsFrom par (n + a.length) b := by
  induction a with
  | nil => intro n; simp [itemsFrom]
  | cons x xs ih =>
    intro n
    simp only [List.cons_append, itemsFrom, ih, List.length_cons, List.append_assoc]
    rw [show n + 1 + xs.length = n + (xs.length + 1) by omega]

theorem itemsFrom_pos (par : Bool) (ts : List (List Byte)) : ∀ n, n ≠ 0 → itemsFrom par n ts = ts.flatMap (str ", " ++ ·) := by
  induction ts with
  | nil => intros; rfl
  | cons t ts ih =>
    intro n hn
    rw [itemsFrom, ih (n + 1) (by omega), lead, if_pos hn, List.flatMap_cons]

theorem itemsFrom_cons (par : Bool) (n : Nat) (t : List Byte) (ts : List (List Byte)) :
    itemsFrom par n (t :: ts) = lead par n ++ (t ++ ts.flatMap (str ", " ++ ·)) := by
  rw [itemsFrom, itemsFrom_pos _ _ _ (by omega), List.append_assoc]

theorem items_list (ts : List (List Byte)) : itemsFrom true 0 ts ++ closing true ts.length = wktList ts := by
  cases ts with
  | nil => rfl
  | cons t ts =>
    rw [itemsFrom_cons, wktList, if_neg (by simp), intercalate_cons]
    simp [lead, closing]

theorem items_flat (t : List Byte) (ts : List (List Byte)) :
    itemsFrom false 0 (t :: ts) ++ closing false (t :: ts).length = (str ", ").intercalate (t :: ts) := by
  rw [itemsFrom_cons, intercalate_cons]
  simp [lead, closing]

/-! ## Levels -/

/-- With `c` open levels: everything of the enclosing levels is untouched. -/
structure WAt (c : Nat) (s s' : WktW) : Prop where
  level : s'.level = s.level
  gt : ∀ j, j < c → s'.geometryType j = s.geometryType j
  cnt : ∀ j, j + 1 < c → s'.i j = s.i j

theorem WAt.refl (c s) : WAt c s s := ⟨rfl, fun _ _ => rfl, fun _ _ => rfl⟩
theorem WAt.trans {c s s' s''} (a : WAt c s s') (b : WAt c s' s'') : WAt c s s'' :=
  ⟨b.1.trans a.1, fun j h => (b.2 j h).trans (a.2 j h), fun j h => (b.3 j h).trans (a.3 j h)⟩

theorem wktCheck_run {s : WktW} {l : Nat} (h : s.level = (l : Int)) (hl : l ≤ 31) : wktCheckLevel s = .ok l s := by
  unfold wktCheckLevel
  rw [if_pos (by omega), h]; rfl

section
variable {print : Nat → Dbl → List Byte} (hp : ∀ n x, (print n x).length ≤ 40)
include hp

theorem coords_run {nv l : Nat} (cs : List Coord) (s : WktW) (hcs : ∀ c ∈ cs, c.length = nv) (hnv : 1 ≤ nv)
    (hlv : s.level = (l : Int)) (hl : l ≤ 31) :
    Grow s (itemsFrom (wktParens l s) (s.i l) (cs.map (wktCoordinate (print s.precision))))
      (fun s' => WAt (l + 1) s s' ∧ s'.i l = s.i l + cs.length) (wktHandler print (.coords nv cs) s) := by
  simp only [wktHandler]
  have hne : ∀ c : List Dbl, c.length = nv → c ≠ [] := by
    intro c h hc; subst hc; simp at h; omega
  cases cs with
  | nil => exact ⟨by simp [itemsFrom], WKeep.refl _, WAt.refl _ _, rfl⟩
  | cons c rest =>
    have hR : 41 * nv + 1 ≤ (c :: rest).length * 2 + (c :: rest).length * (nv - 1) + 40 * nv := by
      have : 1 * (nv - 1) ≤ (c :: rest).length * (nv - 1) := Nat.mul_le_mul_right _ (by simp)
      simp only [List.length_cons] at this ⊢
      omega
    generalize hT : (c :: rest).length * 2 + (c :: rest).length * (nv - 1) + 40 * nv = T at hR
    simp only [wktCoords]
    rw [M.bind_ok (wktCheck_run hlv hl), M.bind_ok (M.get_run _), hT]
    obtain ⟨cap, h1, h2⟩ := reserve_run ((c :: rest).length * 2 + (c :: rest).length * (nv - 1) +
      (s.precision + 1 + 8) * (c :: rest).length * nv + T) s
    rw [M.bind_ok h1, M.bind_ok (levelEntry_run (by omega) _)]
    have h3 : (if s.i l ≠ 0 then wktUnsafe (str ", ") else if wktParens l s then wktUnsafe (str "(") else pure ())
        { s with cap := cap } = .ok () { s with cap := cap, values := s.values ++ lead (wktParens l s) (s.i l) } := by
      have hx : (str ", ").length = 2 := by decide
      have hy : (str "(").length = 1 := by decide
      have h2' : s.values.length + 2 ≤ cap := by
        have hz : 0 ≤ (s.precision + 1 + 8) * (c :: rest).length * nv := Nat.zero_le _
        generalize (s.precision + 1 + 8) * (c :: rest).length * nv = z at h2 hz
        omega
      unfold lead
      split
      · unfold wktUnsafe; rw [if_pos (by simp only [hx]; omega)]
      · split
        · unfold wktUnsafe; rw [if_pos (by simp only [hy]; omega)]
        · simp
    rw [M.bind_ok h3]
    obtain ⟨cap2, h4, h5⟩ := reserve_run T { s with cap := cap, values := s.values ++ lead (wktParens l s) (s.i l) }
    rw [M.bind_ok h4]
    have hc : c.length = nv := hcs c (by simp)
    rw [M.bind_ok (coord_run hp c (hne c hc) _ (by simp only [hc] at h5 ⊢; omega))]
    rw [List.map_cons, itemsFrom_cons, ← List.append_assoc]
    refine Grow.after (s1 := { s with cap := cap2, values := s.values ++ lead (wktParens l s) (s.i l) ++ wktCoordinate (print s.precision) c })
      (by simp) ⟨rfl, rfl, rfl, rfl, rfl, rfl, rfl, rfl, rfl⟩ ?_
    rw [← List.append_nil (List.flatMap _ _), List.flatMap_map]
    refine (more_run hp T nv hR hnv rest _
      (fun c' hc' => ⟨hcs c' (by simp [hc']), hne c' (hcs c' (by simp [hc']))⟩)).bind ?_
    rintro s' h6 h7 ⟨v, cap3, rfl⟩
    exact ⟨by simp, ⟨rfl, rfl, rfl, rfl, rfl, rfl, rfl, rfl, rfl⟩, ⟨rfl, fun _ _ => rfl, fun j hj => upd_ne _ _ (by omega)⟩, upd_same _ _ _⟩

theorem chunks_run {nv l : Nat} (hnv : 1 ≤ nv) (hl : l ≤ 31) (chunks : List (List Coord)) : ∀ (s : WktW),
    (∀ c ∈ chunks.flatten, c.length = nv) → s.level = (l : Int) →
    Grow s (itemsFrom (wktParens l s) (s.i l) (chunks.flatten.map (wktCoordinate (print s.precision))))
      (fun s' => WAt (l + 1) s s' ∧ s'.i l = s.i l + chunks.flatten.length)
      (feed (wktHandler print) (chunks.map (Event.coords nv)) s) := by
  induction chunks with
  | nil => intro s _ _; exact ⟨by simp [itemsFrom], WKeep.refl _, WAt.refl _ _, rfl⟩
  | cons c cs ih =>
    intro s h hlv
    have h1 := coords_run hp (l := l) c s (fun x hx => h x (by simp [hx])) hnv hlv hl
    rw [List.flatten_cons, List.map_append, itemsFrom_append, List.map_cons, List.length_map]
    refine h1.feed_cons ?_
    rintro s' h2 h3 ⟨h4, h5⟩
    have h6 := ih s' (fun x hx => h x (by rw [List.flatten_cons]; exact List.mem_append_right _ hx)) (h4.level.trans hlv)
    have hpar : wktParens l s' = wktParens l s := by
      unfold wktParens
      by_cases h0 : l < 1
      · simp [h0]
      · rw [h4.gt (l - 1) (by omega), h3.flat]
    rw [hpar, h5, h3.precision] at h6
    refine h6.imp ?_
    rintro s'' - - ⟨h7, h8⟩
    exact ⟨h4.trans h7, by rw [h8, List.length_append]; omega⟩
end

/-! ## Opening and closing -/

/-- The text written before a member: opening parenthesis or comma, nothing at the outermost level. -/
def before (c : Nat) (s : WktW) : List Byte := if c = 0 then [] else lead true (s.i (c - 1))

/-- Type of the enclosing geometry; the outermost one behaves as a member of a collection. -/
def outerType (c : Nat) (s : WktW) : Nat := if c = 0 then 7 else s.geometryType (c - 1)

theorem open_run {c k : Nat} (hc : c ≤ 31) (s : WktW) :
    wktOpen c k s = .ok () { s with
      geometryType := upd s.geometryType c k
      i := upd (if 0 < c then upd s.i (c - 1) (s.i (c - 1) + 1) else s.i) c 0 } := by
  unfold wktOpen
  rw [M.bind_ok (levelEntry_run (by omega) _)]
  rfl

theorem before_run (c : Nat) (hc : c ≤ 31) (s : WktW) (z : M WktW Unit) (hz : c = 0 → ∃ cap, z s = .ok () { s with cap := cap }) :
    ∃ cap, wktBefore c z s =
      .ok () { s with values := s.values ++ before c s, cap := cap } := by
  unfold before wktBefore
  by_cases h0 : c = 0
  · subst h0
    obtain ⟨cap, h⟩ := hz rfl
    refine ⟨cap, ?_⟩
    rw [M.bind_ok (m := wktOuter 0) (a := none) (s' := s) rfl]
    simp [h]
  · have : wktOuter c s = .ok (some (s.i (c - 1))) s := by
      unfold wktOuter
      rw [if_pos (by omega), M.bind_ok (levelEntry_run (by omega) _)]; rfl
    rw [M.bind_ok this, if_neg h0]
    unfold lead
    by_cases hn : s.i (c - 1) = 0
    · obtain ⟨cap, h⟩ := write_run (str "(") s
      refine ⟨cap, ?_⟩
      simp only [hn, Nat.lt_irrefl, if_false]
      simpa using h
    · obtain ⟨cap, h⟩ := write_run (str ", ") s
      refine ⟨cap, ?_⟩
      simp only [show 0 < s.i (c - 1) by omega, if_true]
      rw [if_pos hn]
      exact h

/-- The tag of a geometry of type `k`. -/
def tagText (k : Nat) (d : Dims) : List Byte := wktTypeName k ++ d.suffix ++ str " "

theorem tag_run {k : Nat} (h1 : 1 ≤ k) (h7 : k ≤ 7) (d : Dims) (s : WktW) :
    ∃ cap, wktTag k d.code s = .ok () { s with values := s.values ++ tagText k d, cap := cap } := by
  unfold wktTag
  rw [if_neg (by omega)]
  obtain ⟨c1, e1⟩ := write_run (wktTypeName k) s
  rw [M.bind_ok e1]
  have : ∃ cap, wktDims d.code { s with values := s.values ++ wktTypeName k, cap := c1 } =
      .ok () { s with values := s.values ++ wktTypeName k ++ d.suffix, cap := cap } := by
    cases d with
    | xy => exact ⟨c1, by simp [wktDims, Dims.code, Dims.suffix, str]⟩
    | xyz => exact write_run (str " Z") _
    | xym => exact write_run (str " M") _
    | xyzm => exact write_run (str " ZM") _
  obtain ⟨c2, e2⟩ := this
  rw [M.bind_ok e2]
  obtain ⟨c3, e3⟩ := write_run (str " ") { s with values := s.values ++ wktTypeName k ++ d.suffix, cap := c2 }
  refine ⟨c3, e3.trans ?_⟩
  simp [tagText]

theorem wktGeomStart_run (print : Nat → Dbl → List Byte) {s : WktW} {c k : Nat} (hlv : s.level = (c : Int) - 1) (hc : c ≤ 31) (h1 : 1 ≤ k)
    (h7 : k ≤ 7) (d : Dims) :
    ∃ cap, wktHandler print (.geomStart k d.code) s = .ok () { s with
      values := s.values ++ (before c s ++ (if outerType c s = 7 then tagText k d else []))
      cap := cap
      level := (c : Int)
      geometryType := upd s.geometryType c k
      i := upd (if 0 < c then upd s.i (c - 1) (s.i (c - 1) + 1) else s.i) c 0 } := by
  simp only [wktHandler, wktGeomStart]
  rw [M.bind_ok (M.modify_run _ _)]
  have hl1 : s.level + 1 = (c : Int) := by omega
  rw [hl1, M.bind_ok (wktCheck_run (l := c) rfl hc)]
  obtain ⟨c1, e1⟩ := before_run c hc { s with level := (c : Int) } (pure ()) (fun _ => ⟨_, rfl⟩)
  rw [M.bind_ok e1, M.bind_ok (M.get_run _)]
  by_cases ht : outerType c s = 7
  · have hcond : c = 0 ∨ s.geometryType (c - 1) = 7 := by
      unfold outerType at ht
      by_cases h0 : c = 0
      · exact Or.inl h0
      · rw [if_neg h0] at ht; exact Or.inr ht
    simp only [hcond, if_true, ht]
    obtain ⟨c2, e4⟩ := tag_run h1 h7 d { s with level := (c : Int), values := s.values ++ before c s, cap := c1 }
    refine ⟨c2, ?_⟩
    refine (M.bind_ok e4).trans ?_
    rw [open_run hc]
    simp
  · have hcond : ¬ (c = 0 ∨ s.geometryType (c - 1) = 7) := by
      unfold outerType at ht
      by_cases h0 : c = 0
      · rw [if_pos h0] at ht; exact absurd rfl ht
      · rw [if_neg h0] at ht; exact fun h => h.elim h0 ht
    simp only [hcond, if_false, ht]
    refine ⟨c1, ?_⟩
    refine (M.bind_ok (M.pure_run _ _)).trans ?_
    rw [open_run hc]
    simp [before]

theorem wktRingStart_run (print : Nat → Dbl → List Byte) {s : WktW} {c : Nat} (hlv : s.level = (c : Int) - 1) (hc : c ≤ 31) (h0 : 1 ≤ c) :
    ∃ cap, wktHandler print .ringStart s = .ok () { s with
      values := s.values ++ before c s
      cap := cap
      level := (c : Int)
      geometryType := upd s.geometryType c 0
      i := upd (if 0 < c then upd s.i (c - 1) (s.i (c - 1) + 1) else s.i) c 0 } := by
  simp only [wktHandler, wktRingStart]
  rw [M.bind_ok (M.modify_run _ _)]
  have hl1 : s.level + 1 = (c : Int) := by omega
  rw [hl1, M.bind_ok (wktCheck_run (l := c) rfl hc)]
  obtain ⟨c1, e1⟩ := before_run c hc { s with level := (c : Int) } (wktWrite (str "(")) (fun h => by omega)
  rw [M.bind_ok e1]
  refine ⟨c1, ?_⟩
  rw [open_run hc]
  simp [before]

theorem wktGeomEnd_run (print : Nat → Dbl → List Byte) {s : WktW} {l : Nat} (hlv : s.level = (l : Int)) (hl : l ≤ 31) :
    ∃ cap, wktHandler print .geomEnd s = .ok () { s with
      values := s.values ++ closing (wktParens l s) (s.i l), cap := cap, level := (l : Int) - 1 } := by
  simp only [wktHandler, wktGeomEnd]
  rw [M.bind_ok (wktCheck_run hlv hl), M.bind_ok (levelEntry_run (by omega) _), M.bind_ok (M.get_run _), M.bind_ok (M.modify_run _ _),
    hlv]
  unfold closing
  split
  · exact write_run (str "EMPTY") _
  · split
    · exact write_run (str ")") _
    · exact ⟨s.cap, by simp⟩

theorem wktRingEnd_run (print : Nat → Dbl → List Byte) {s : WktW} {l : Nat} (hlv : s.level = (l : Int)) (hl : l ≤ 31) :
    ∃ cap, wktHandler print .ringEnd s = .ok () { s with
      values := s.values ++ closing true (s.i l), cap := cap, level := (l : Int) - 1 } := by
  simp only [wktHandler, wktRingEnd]
  rw [M.bind_ok (wktCheck_run hlv hl), M.bind_ok (levelEntry_run (by omega) _), M.bind_ok (M.get_run _), M.bind_ok (M.modify_run _ _),
    hlv]
  unfold closing
  split
  · exact write_run (str "EMPTY") _
  · exact write_run (str ")") _

end Verif
