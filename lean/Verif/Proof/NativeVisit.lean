import Verif.Proof.NativeFinish
import Verif.Proof.Program
/-! # Native writer: events of a feature, and features one after the other -/
namespace Verif
open Spec

/-! ## Events between the start and the end of a feature -/

def dimsOf (n : Nat) : Dims := if n = 2 then .xyz else if n = 3 then .xym else if n = 4 then .xyzm else .xy

theorem dimsOf_code (s : Dims) : dimsOf s.code = s := by cases s <;> rfl

def nextDims (n : Nat) : Event → Nat
  | .geomStart _ dims => dims
  | _ => n

/-- An event of a feature with a geometry, coordinates being of the dimensions last announced. -/
def EvOk (n : Nat) : Event → Prop
  | .featStart => False
  | .nullFeat => False
  | .featEnd => False
  | .coords _ rows => ∃ s : Dims, n = s.code ∧ ∀ c ∈ rows, c.length = s.n
  | _ => True

def BodyOk : Nat → List Event → Prop
  | _, [] => True
  | n, e :: t => EvOk n e ∧ BodyOk (nextDims n e) t

def evRows (d : Dims) (n : Nat) : Event → List Coord
  | .coords _ rows => rows.map (mapCoord (dimsOf n) d)
  | _ => []

/-- The coordinates delivered, by name of dimension. -/
def delivered (d : Dims) : Nat → List Event → List Coord
  | _, [] => []
  | n, e :: t => evRows d n e ++ delivered d (nextDims n e) t

def mapped (d : Dims) (l : List (Dims × Coord)) : List Coord := l.map fun p => mapCoord p.1 d p.2

/-- What the events of a geometry do to the dimensions, and what they deliver. -/
def Passes (d : Dims) (cs : List (Dims × Coord)) (t : List Event) (n n' : Nat) : Prop :=
  ∀ t2, (BodyOk n' t2 → BodyOk n (t ++ t2)) ∧ delivered d n (t ++ t2) = mapped d cs ++ delivered d n' t2

theorem Passes.nil (d : Dims) (n : Nat) : Passes d [] [] n n := fun t2 => ⟨fun h => h, rfl⟩

theorem Passes.trans {d cs cs' t t' n n' n''} (h : Passes d cs t n n') (h' : Passes d cs' t' n' n'') :
    Passes d (cs ++ cs') (t ++ t') n n'' := by
  intro t2
  obtain ⟨h1, h2⟩ := h (t' ++ t2)
  obtain ⟨h3, h4⟩ := h' t2
  rw [List.append_assoc]
  refine ⟨fun h => h1 (h3 h), ?_⟩
  rw [h2, h4]
  unfold mapped
  rw [List.map_append, List.append_assoc]

theorem Passes.cons {d : Dims} {cs t n n'} {e : Event} (he : ∀ m, EvOk m e) (hr : ∀ m, evRows d m e = []) (h : Passes d cs t (nextDims n e) n') :
    Passes d cs (e :: t) n n' := by
  intro t2
  obtain ⟨h1, h2⟩ := h t2
  refine ⟨fun h => ⟨he n, h1 h⟩, ?_⟩
  show evRows d n e ++ delivered d (nextDims n e) (t ++ t2) = _
  rw [hr, List.nil_append, h2]

theorem Passes.snoc {d : Dims} {cs t n n'} {e : Event} (he : ∀ m, EvOk m e) (hr : ∀ m, evRows d m e = []) (hn : nextDims n' e = n') (h : Passes d cs t n n') :
    Passes d cs (t ++ [e]) n n' := by
  have := h.trans (Passes.cons (n := n') he hr (by rw [hn]; exact .nil d n'))
  rwa [List.append_nil] at this

theorem passes_chunks (d s : Dims) (nv : Nat) : ∀ chunks : List (List Coord), (∀ c ∈ chunks.flatten, c.length = s.n) →
    Passes d (chunks.flatten.map (s, ·)) (chunks.map (Event.coords nv)) s.code s.code
  | [], _ => .nil d _
  | c :: cs, h => by
    have ih := passes_chunks d s nv cs fun x hx => h x (by rw [List.flatten_cons]; exact List.mem_append_right _ hx)
    intro t2
    obtain ⟨h1, h2⟩ := ih t2
    refine ⟨fun hb => ⟨⟨s, rfl, fun x hx => h x (by rw [List.flatten_cons]; exact List.mem_append_left _ hx)⟩, h1 hb⟩, ?_⟩
    show c.map (mapCoord (dimsOf s.code) d) ++ delivered d s.code (cs.map (Event.coords nv) ++ t2) = _
    rw [h2, dimsOf_code]
    unfold mapped
    simp

theorem passes_chunked {d s : Dims} {nv : Nat} {cs : List Coord} {t : List Event} (h : Chunked nv cs t) (hw : ∀ c ∈ cs, c.length = s.n) :
    Passes d (cs.map (s, ·)) t s.code s.code := by
  obtain ⟨chunks, rfl, rfl⟩ := h
  exact passes_chunks d s nv chunks hw

theorem passes_rings {d s : Dims} {nv : Nat} : ∀ (rs : List (List Coord)) (t : List Event), RingsTrace nv rs t → (∀ r ∈ rs, ∀ c ∈ r, c.length = s.n) →
    Passes d (rs.flatten.map (s, ·)) t s.code s.code
  | [], t, h, _ => by
    cases h
    exact .nil d _
  | r :: rs, t, h, hw => by
    obtain ⟨t1, t2, h1, h2, rfl⟩ := h
    have p1 := passes_chunked (d := d) h1 fun c hc => hw r (by simp) c hc
    have p2 := passes_rings (d := d) rs t2 h2 fun r' hr' => hw r' (by simp [hr'])
    rw [List.flatten_cons, List.map_append]
    exact Passes.cons (fun _ => trivial) (fun _ => rfl) (p1.trans (Passes.cons (fun _ => trivial) (fun _ => rfl) p2))

mutual
theorem passes_geom (d : Dims) : ∀ (x : Geom) (t : List Event), x.Trace t → x.WF → ∀ n, ∃ n', Passes d x.allCoords t n n'
  | .point s cs, t, h, hw, n => by
    obtain ⟨b, h1, rfl⟩ := h
    exact ⟨s.code, Passes.snoc (fun _ => trivial) (fun _ => rfl) rfl (Passes.cons (fun _ => trivial) (fun _ => rfl) (passes_chunked h1 hw))⟩
  | .linestring s cs, t, h, hw, n => by
    obtain ⟨b, h1, rfl⟩ := h
    exact ⟨s.code, Passes.snoc (fun _ => trivial) (fun _ => rfl) rfl (Passes.cons (fun _ => trivial) (fun _ => rfl) (passes_chunked h1 hw))⟩
  | .polygon s rs, t, h, hw, n => by
    obtain ⟨b, h1, rfl⟩ := h
    exact ⟨s.code, Passes.snoc (fun _ => trivial) (fun _ => rfl) rfl (Passes.cons (fun _ => trivial) (fun _ => rfl) (passes_rings rs b h1 hw))⟩
  | .multi k s ps, t, h, hw, n => by
    obtain ⟨b, h1, rfl⟩ := h
    obtain ⟨n', h2⟩ := passes_geoms d ps b h1 hw s.code
    exact ⟨n', Passes.snoc (fun _ => trivial) (fun _ => rfl) rfl (Passes.cons (fun _ => trivial) (fun _ => rfl) h2)⟩
theorem passes_geoms (d : Dims) : ∀ (xs : List Geom) (t : List Event), Geom.TraceL xs t → Geom.WFL xs → ∀ n, ∃ n', Passes d (Geom.allCoordsL xs) t n n'
  | [], t, h, _, n => by
    cases h
    exact ⟨n, .nil d n⟩
  | x :: xs, t, h, hw, n => by
    obtain ⟨t1, t2, h1, h2, rfl⟩ := h
    obtain ⟨n1, p1⟩ := passes_geom d x t1 h1 hw.1 n
    obtain ⟨n2, p2⟩ := passes_geoms d xs t2 h2 hw.2 n1
    exact ⟨n2, p1.trans p2⟩
end

theorem body_geom {d : Dims} {x : Geom} {t : List Event} (h : x.Trace t) (hw : x.WF) (n : Nat) :
    BodyOk n t ∧ delivered d n t = mapped d x.allCoords := by
  obtain ⟨n', hp⟩ := passes_geom d x t h hw n
  obtain ⟨h1, h2⟩ := hp []
  rw [List.append_nil] at h1 h2
  exact ⟨h1 trivial, by rw [h2]; exact List.append_nil _⟩

/-! ## Simulation by an abstract machine -/

section
variable {σ : Type}

theorem post_feed_cons {Q Q' : Unit → σ → Prop} {E : Code → σ → Prop} {h : Handler σ} {e : Event} {t : List Event} {s : σ}
    (h1 : (h e s).Post Q E) (h2 : ∀ s', Q () s' → (feed h t s').Post Q' E) : (feed h (e :: t) s).Post Q' E := by
  cases he : h e s with
  | ok a s' => rw [he] at h1; simp only [feed, he]; exact h2 s' h1
  | err rc s' => rw [he] at h1; simp only [feed, he]; exact h1
  | ub => rw [he] at h1; exact h1.elim

theorem feed_cons_ok' {h : Handler σ} {e : Event} {t : List Event} {s s' : σ} (he : h e s = .ok () s') :
    feed h (e :: t) s = feed h t s' := by simp [feed, he]

theorem post_feed_append {Q Q' : Unit → σ → Prop} {E : Code → σ → Prop} {h : Handler σ} {t t' : List Event} {s : σ}
    (h1 : (feed h t s).Post Q E) (h2 : ∀ s', Q () s' → (feed h t' s').Post Q' E) : (feed h (t ++ t') s).Post Q' E := by
  rw [feed_append]
  cases he : feed h t s with
  | ok a s' => rw [he] at h1; exact h2 s' h1
  | err rc s' => rw [he] at h1; exact h1
  | ub => rw [he] at h1; exact h1.elim

/-- The machine follows the writer through the events of a feature; `E` allows failures with so many coordinates. -/
theorem sim_feed {A : Type} {R : A → σ → Prop} {step : A → Event → A} {dims : A → Nat} {total : A → Nat} {E : Nat → Code → Prop} {h : Handler σ}
    (hstep : ∀ a e w, EvOk (dims a) e → R a w → (h e w).Post (fun _ w' => R (step a e) w') (fun rc _ => E (total (step a e)) rc))
    (hdims : ∀ a e, dims (step a e) = nextDims (dims a) e) (hmono : ∀ a e, total a ≤ total (step a e))
    (hE : ∀ n m rc, n ≤ m → E n rc → E m rc) : ∀ (t : List Event) (a : A) (w : σ), BodyOk (dims a) t → R a w →
    (feed h t w).Post (fun _ w' => R (t.foldl step a) w') (fun rc _ => E (total (t.foldl step a)) rc)
  | [], a, w, _, hr => hr
  | e :: t, a, w, hb, hr => by
    have hm : ∀ (t : List Event) (a : A), total a ≤ total (t.foldl step a) := by
      intro t
      induction t with
      | nil => intro a; exact Nat.le_refl _
      | cons e t ih => intro a; exact Nat.le_trans (hmono a e) (ih _)
    refine post_feed_cons ((hstep a e w hb.1 hr).imp (fun _ _ h => h) fun rc _ h => hE _ _ rc (hm t _) h) ?_
    intro w' hw'
    have := sim_feed hstep hdims hmono hE t (step a e) w' (by rw [hdims]; exact hb.2) hw'
    exact this

/-- Two lists of the same length, elements at the same place related. -/
def Pairs {α β : Type} (P : α → β → Prop) : List α → List β → Prop
  | [], [] => True
  | x :: xs, y :: ys => P x y ∧ Pairs P xs ys
  | _, _ => False

theorem Pairs.length {α β : Type} {P : α → β → Prop} : ∀ {xs : List α} {ys : List β}, Pairs P xs ys → xs.length = ys.length
  | [], [], _ => rfl
  | _ :: _, _ :: _, h => by rw [List.length_cons, List.length_cons, Pairs.length h.2]
  | [], _ :: _, h => h.elim
  | _ :: _, [], h => h.elim

theorem Pairs.get {α β : Type} {P : α → β → Prop} : ∀ {xs : List α} {ys : List β}, Pairs P xs ys → ∀ {i : Nat} {x : α}, xs[i]? = some x → ∃ y, ys[i]? = some y ∧ P x y
  | [], [], _, i, x, h => by simp at h
  | x' :: _, y :: _, h, 0, x, hx => by cases hx; exact ⟨y, rfl, h.1⟩
  | _ :: _, _ :: _, h, i + 1, x, hx => by
    obtain ⟨y, h1, h2⟩ := Pairs.get h.2 (i := i) (x := x) (by simpa using hx)
    exact ⟨y, by simpa using h1, h2⟩
  | [], _ :: _, h, _, _, _ => h.elim
  | _ :: _, [], h, _, _, _ => h.elim

/-- Features one after the other. -/
theorem features_feed {Row : Type} {Rest : List Row → List Bool → σ → Prop} {Good : Option Geom → Row → Prop} {ok : Option Geom → Prop}
    {cnt : Option Geom → Nat} {E : Nat → Code → Prop} {size : List Row → Nat} {h : Handler σ}
    (hfeat : ∀ f t rows fl w, ok f → OptFeatureTrace f t → Rest rows fl w →
      (feed h t w).Post (fun _ w' => ∃ row, Good f row ∧ Rest (rows ++ [row]) (fl ++ [f.isSome]) w') (fun rc _ => E (size rows + cnt f) rc))
    (hsize : ∀ rows row f, Good f row → size (rows ++ [row]) = size rows + cnt f)
    (hE : ∀ n m rc, n ≤ m → E n rc → E m rc) :
    ∀ (fs : List (Option Geom)) (t : List Event) (rows : List Row) (fl : List Bool) (w : σ), (∀ f ∈ fs, ok f) → FeaturesTrace fs t → Rest rows fl w →
    (feed h t w).Post (fun _ w' => ∃ rows', Pairs Good fs rows' ∧ Rest (rows ++ rows') (fl ++ fs.map Option.isSome) w')
      (fun rc _ => E (size rows + (fs.map cnt).sum) rc)
  | [], t, rows, fl, w, _, ht, hr => by
    cases ht
    exact ⟨[], trivial, by simpa using hr⟩
  | f :: fs, t, rows, fl, w, hok, ht, hr => by
    obtain ⟨t1, t2, h1, h2, rfl⟩ := ht
    have hf := hfeat f t1 rows fl w (hok f (by simp)) h1 hr
    refine post_feed_append (hf.imp (fun _ _ h => h) fun rc _ h => hE _ _ rc (by simp only [List.map_cons, List.sum_cons]; omega) h) ?_
    rintro w' ⟨row, hg, hr'⟩
    have ih := features_feed hfeat hsize hE fs t2 (rows ++ [row]) (fl ++ [f.isSome]) w' (fun f' hf' => hok f' (by simp [hf'])) h2 hr'
    refine ih.imp ?_ ?_
    · rintro _ w'' ⟨rows', hp, hr''⟩
      refine ⟨row :: rows', ⟨hg, hp⟩, ?_⟩
      rw [List.append_assoc, List.append_assoc] at hr''
      exact hr''
    · intro rc _ he
      rw [hsize rows row f hg] at he
      refine hE _ _ rc ?_ he
      simp only [List.map_cons, List.sum_cons]
      omega

end

/-! ## Shared parts of the four visitors -/

/-- Lengths of lists at three levels. -/
def ns3 (a b c : List Nat) : Nat → List Nat := fun i => if i = 0 then a else if i = 1 then b else if i = 2 then c else []

theorem ns3_nil : (fun _ => []) = ns3 [] [] [] := by
  funext i
  unfold ns3
  split
  · rfl
  split
  · rfl
  split <;> rfl

theorem ns3_set0 (a b c x : List Nat) : setAt (ns3 a b c) 0 x = ns3 x b c := by
  funext i
  unfold setAt ns3
  by_cases h : i = 0
  · simp [h]
  · simp [h]

theorem ns3_set1 (a b c x : List Nat) : setAt (ns3 a b c) 1 x = ns3 a x c := by
  funext i
  unfold setAt ns3
  by_cases h : i = 1
  · subst h; rfl
  · simp [h]

theorem ns3_set2 (a b c x : List Nat) : setAt (ns3 a b c) 2 x = ns3 a b x := by
  funext i
  unfold setAt ns3
  by_cases h : i = 2
  · subst h; rfl
  · simp [h]

/-- Fields other than the data and the sizes. -/
structure SameCtl (w w' : NWriter) : Prop where
  level : w'.level = w.level
  dims : w'.lastDims = w.lastDims
  null : w'.featIsNull = w.featIsNull
  nesting : w'.nesting = w.nesting

theorem SameCtl.rfl' (w : NWriter) : SameCtl w w := ⟨rfl, rfl, rfl, rfl⟩

theorem SameCtl.trans {a b c : NWriter} (h : SameCtl a b) (h' : SameCtl b c) : SameCtl a c :=
  ⟨h'.1.trans h.1, h'.2.trans h.2, h'.3.trans h.3, h'.4.trans h.4⟩

/-- Too many coordinates. -/
def TooMany (n : Nat) (rc : Code) : Prop := rc = EOVERFLOW ∧ 2147483647 < n

theorem TooMany.mono (n m : Nat) (rc : Code) (h : n ≤ m) (ht : TooMany n rc) : TooMany m rc := ⟨ht.1, by have := ht.2; omega⟩

section
variable {g : Int} {d : Dims} {k : CoordKind} {w : NWriter} {ns : Nat → List Nat} {cs : List Coord} {fl : List Bool}

theorem coords_post (h : NW g d k w ns cs fl) (junk : Nat → Byte) (i nv : Nat) {s : Dims} (hs : w.lastDims = s.code) {rows : List (List Dbl)}
    (hr : ∀ c ∈ rows, c.length = s.n) (E : Code → NWriter → Prop) :
    (nwCoords junk i nv rows w).Post (fun _ w' => NW g d k w' ns (cs ++ rows.map (mapCoord s d)) fl ∧ SameCtl w w' ∧
      w'.size = setAt w.size i (w.size i + rows.length)) E := by
  obtain ⟨b', h1, h2, h3⟩ := coords_nw h junk i nv hs hr
  rw [h1]
  exact ⟨h3, ⟨rfl, rfl, rfl, rfl⟩, rfl⟩

theorem closeCoords_post (h : NW g d k w ns cs fl) (junk : Nat → Byte) {i : Nat} (hi : i < listDepth g) {rings : List (List Coord)} {op : List Coord}
    (hn : ns i = rings.map List.length) (hc : cs = rings.flatten ++ op) :
    (nwCloseCoords junk i w).Post (fun _ w' => NW g d k w' (setAt ns i ((rings ++ [op]).map List.length)) cs fl ∧ SameCtl w w' ∧ w'.size = w.size ∧
      cs.length ≤ 2147483647) (fun rc _ => TooMany cs.length rc) := by
  have hs : (ns i).sum = rings.flatten.length := by rw [hn, List.length_flatten]
  have hl : cs.length = rings.flatten.length + op.length := by rw [hc, List.length_append]
  rcases closeCoords_nw h junk hi (by omega) with ⟨h1, h2⟩ | ⟨h1, b', h2, -, h3⟩
  · rw [h2]
    exact ⟨rfl, h1⟩
  · rw [h2]
    refine ⟨?_, ⟨rfl, rfl, rfl, rfl⟩, rfl, h1⟩
    rw [show cs.length - (ns i).sum = op.length by omega, hn] at h3
    rw [List.map_append]
    exact h3

theorem closeLists_post {α : Type} (h : NW g d k w ns cs fl) (junk : Nat → Byte) {i : Nat} (hi : i + 1 < listDepth g) {polys : List (List α)} {cur : List α}
    (hn : ns i = polys.map List.length) (hl : (ns (i + 1)).length = polys.flatten.length + cur.length) (hm : (ns (i + 1)).length ≤ 2147483647)
    (E : Code → NWriter → Prop) :
    (nwCloseLists junk i w).Post (fun _ w' => NW g d k w' (setAt ns i ((polys ++ [cur]).map List.length)) cs fl ∧ SameCtl w w' ∧ w'.size = w.size) E := by
  have hs : (ns i).sum = polys.flatten.length := by rw [hn, List.length_flatten]
  obtain ⟨b', h2, -, h3⟩ := closeLists_nw h junk hi (by omega) hm
  rw [h2]
  refine ⟨?_, ⟨rfl, rfl, rfl, rfl⟩, rfl⟩
  rw [show (ns (i + 1)).length - (ns i).sum = cur.length by omega, hn] at h3
  rw [List.map_append]
  exact h3

/-- A sequence ends. -/
theorem closeSeq_post (h : NW g d k w ns cs fl) (junk : Nat → Byte) {i : Nat} (hi : i < listDepth g) {rings : List (List Coord)} {op : List Coord}
    (hn : ns i = rings.map List.length) (hc : cs = rings.flatten ++ op) (hs : w.size i = op.length) :
    (nwCloseSeq junk i w).Post (fun _ w' => SameCtl w w' ∧
        (if op = [] then NW g d k w' ns cs fl ∧ w'.size = w.size
         else NW g d k w' (setAt ns i ((rings ++ [op]).map List.length)) cs fl ∧ cs.length ≤ 2147483647 ∧
           w'.size = setAt (setAt w.size (i - 1) (w.size (i - 1) + 1)) i 0))
      (fun rc _ => TooMany cs.length rc) := by
  unfold nwCloseSeq
  rw [M.bind_run, M.get_run]
  dsimp only
  rw [hs]
  by_cases ho : op = []
  · subst ho
    rw [if_neg (by simp)]
    show SameCtl w w ∧ _
    rw [if_pos rfl]
    exact ⟨.rfl' w, h, rfl⟩
  · rw [if_pos (List.length_pos_iff.mpr ho)]
    refine post_bind (closeCoords_post h junk hi hn hc) ?_
    rintro _ w' ⟨h1, h2, h3, h4⟩
    show SameCtl w _ ∧ _
    rw [if_neg ho]
    refine ⟨⟨h2.1, h2.2, h2.3, h2.4⟩, h1.congr rfl rfl rfl, h4, ?_⟩
    show setAt (setAt w'.size (i - 1) (w'.size (i - 1) + 1)) i 0 = _
    rw [h3]

/-- The flag of a feature, after counting the lists. -/
theorem mark_post (h : NW g d k w ns cs fl) (junk : Nat → Byte) (E : Code → NWriter → Prop) {len : Int} (hlen : len = fl.length + 1) (isNull : Bool) :
    (nwMark junk isNull len w).Post (fun _ w' => NW g d k w' ns cs (fl ++ [!isNull])) E := by
  obtain ⟨v, n, h1, h2⟩ := mark_nw h junk isNull hlen
  rw [h1]
  exact h2

end

theorem length_le_flatten {α : Type} (l : List (List α)) (h : ∀ r ∈ l, r ≠ []) : l.length ≤ l.flatten.length := by
  induction l with
  | nil => exact Nat.le_refl _
  | cons r l ih =>
    have h1 := ih fun r' hr' => h r' (by simp [hr'])
    have h2 := List.length_pos_iff.mpr (h r (by simp))
    rw [List.flatten_cons, List.length_append, List.length_cons]
    omega

end Verif
