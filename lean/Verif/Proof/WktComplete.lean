import Verif.Proof.WktSound
/-!
# The parser on tokens accepts the whole grammar
-/
namespace Verif
open Spec

/-- `q` accepts tokens for `a` if there are less than `n`, with callbacks `Tr`, and leaves what follows them. -/
def Cpl {χ χ' α : Type} (n : Nat) (q : TkP χ χ') (Tk : α → List Tok → Prop) (Tr : χ → α → List Event → χ' → Prop) : Prop :=
  ∀ x a body rest, Tk a body → body.length < n → ∃ t x', q x (body ++ rest) = (t, some (x', rest)) ∧ Tr x a t x'

theorem tkThen_ok {χ χ' : Type} {r : List Event × Option (χ × List Tok)} {b : TkP χ χ'} {t1 y ts1 t2 p} (h1 : r = (t1, some (y, ts1)))
    (h2 : b y ts1 = (t2, some p)) : tkThen r b = (t1 ++ t2, some p) := by
  subst h1
  simp only [tkThen, h2]

theorem loop_cpl {χ α : Type} {n : Nat} {q : TkP χ χ} {Tk : α → List Tok → Prop} {Tr : χ → α → List Event → χ → Prop} (h : Cpl n q Tk Tr)
    (as : List α) : ∀ (b : List Tok) (f : Nat) (x : χ) (rest : List Tok), Separated Tk as b → b.length < n → b.length + 2 ≤ f →
      ∃ t x', tkLoop q f x (.comma :: b ++ .closing :: rest) = (t, some (x', .closing :: rest)) ∧ Steps Tr x as t x' := by
  induction as with
  | nil => intro b f x rest hs; exact hs.elim
  | cons a as ih =>
    intro b f x rest hs hn hf
    obtain ⟨f, rfl⟩ : ∃ k, f = k + 1 := ⟨f - 1, by omega⟩
    obtain ⟨f', rfl⟩ : ∃ k, f = k + 1 := ⟨f - 1, by omega⟩
    rw [tkLoop]
    simp only [List.cons_append, tkSeq]
    rcases hs with ⟨rfl, hk⟩ | ⟨t1, t2, h1, h2, rfl⟩
    · obtain ⟨t, x', e, r⟩ := h x a b (.closing :: rest) hk hn
      refine ⟨t ++ [], x', tkThen_ok e (by rw [tkLoop]), .cons r (.nil _)⟩
    · simp only [List.length_append, List.length_cons] at hn hf
      obtain ⟨t, x', e, r⟩ := h x a t1 (.comma :: t2 ++ .closing :: rest) h1 (by omega)
      obtain ⟨t', x'', e', r'⟩ := ih t2 (f' + 1) x' rest h2 (by omega) (by omega)
      refine ⟨t ++ t', x'', tkThen_ok (by simpa using e) e', .cons r r'⟩

theorem items_cpl {χ α : Type} {n F : Nat} {q : TkP χ χ} {Tk : α → List Tok → Prop} {Tr : χ → α → List Event → χ → Prop} (h : Cpl n q Tk Tr)
    (hF : n ≤ F) (as : List α) (b : List Tok) (x : χ) (rest : List Tok) (hs : Separated Tk as b) (hn : b.length < n) :
    ∃ t x', tkItems F q x (b ++ .closing :: rest) = (t, some (x', .closing :: rest)) ∧ Steps Tr x as t x' := by
  obtain ⟨F, rfl⟩ : ∃ k, F = k + 1 := ⟨F - 1, by omega⟩
  unfold tkItems tkSeq
  cases as with
  | nil => exact hs.elim
  | cons a as =>
    rcases hs with ⟨rfl, hk⟩ | ⟨t1, t2, h1, h2, rfl⟩
    · obtain ⟨t, x', e, r⟩ := h x a b (.closing :: rest) hk hn
      exact ⟨t ++ [], x', tkThen_ok e (by rw [tkLoop]), .cons r (.nil _)⟩
    · simp only [List.length_append, List.length_cons] at hn
      obtain ⟨t, x', e, r⟩ := h x a t1 (.comma :: t2 ++ .closing :: rest) h1 (by omega)
      obtain ⟨t', x'', e', r'⟩ := loop_cpl h as t2 (F + 1) x' rest h2 (by omega) (by omega)
      exact ⟨t ++ t', x'', tkThen_ok (by simpa using e) e', .cons r r'⟩

def CplU {α : Type} (n : Nat) (q : TkP Unit Unit) (Tk : α → List Tok → Prop) (Tr : α → List Event → Prop) : Prop :=
  Cpl n q Tk (fun _ a t _ => Tr a t)

theorem tok_ok {χ : Type} (k : Tok) (x : χ) (ts : List Tok) : tkTok k x (k :: ts) = ([], some (x, ts)) := by simp [tkTok]

theorem group_cpl {α : Type} {n F : Nat} {q : TkP Unit Unit} {Tk : α → List Tok → Prop} {Tr : α → List Event → Prop} (h : CplU n q Tk Tr) (hF : n ≤ F) :
    CplU n (tkGroup F q) (fun as ts => ∃ b, Separated Tk as b ∧ ts = b ++ [.closing]) (ListTr Tr) := by
  rintro x as _ rest ⟨b, hs, rfl⟩ hn
  simp only [List.length_append, List.length_cons] at hn
  obtain ⟨t, x', e, r⟩ := items_cpl h hF as b x rest hs (by omega)
  refine ⟨t ++ [], x', ?_, by simpa using steps_list r⟩
  exact tkThen_ok (by simpa using e) (tok_ok _ _ _)

theorem emptyOr_cpl {α : Type} {n : Nat} {content : Bool → TkP Unit Unit} {K : Bool → α → List Tok → Prop} {Tr : α → List Event → Prop} {a0 : α}
    (h0 : Tr a0 []) (h : ∀ b, CplU n (content b) (K b) Tr) :
    CplU n (tkEmptyOr content) (fun a ts => (a = a0 ∧ ts = [.word (str "EMPTY")]) ∨ ∃ b body, K b a body ∧ ts = .opening b :: body) Tr := by
  rintro x a ts rest (⟨rfl, rfl⟩ | ⟨b, body, hk, rfl⟩) hn
  · exact ⟨[], (), by simp [tkEmptyOr], h0⟩
  · simp only [List.length_cons] at hn
    obtain ⟨t, x', e, r⟩ := h b x a body rest hk (by omega)
    exact ⟨t, x', e, r⟩

theorem CplU.imp {α β : Type} {n : Nat} {q : TkP Unit Unit} {Tk : α → List Tok → Prop} {Tr : α → List Event → Prop} {Tk' : β → List Tok → Prop}
    {Tr' : β → List Event → Prop} (h : CplU n q Tk Tr) (hk : ∀ b ts, Tk' b ts → ∃ a, Tk a ts ∧ ∀ t, Tr a t → Tr' b t) : CplU n q Tk' Tr' := by
  intro x b ts rest hb hn
  obtain ⟨a, ha, hr⟩ := hk _ _ hb
  obtain ⟨t, x', e, r⟩ := h x a ts rest ha hn
  exact ⟨t, x', e, hr _ r⟩

theorem between_cpl {α : Type} {n : Nat} {q : TkP Unit Unit} {Tk : α → List Tok → Prop} {Tr : α → List Event → Prop} (h : CplU n q Tk Tr) (e1 e2 : Event) :
    CplU n (tkSeq (tkCall e1) (tkSeq q (tkCall e2))) Tk (Between e1 e2 Tr) := by
  intro x a ts rest hk hn
  obtain ⟨t, x', e, r⟩ := h x a ts rest hk hn
  exact ⟨[e1] ++ (t ++ [e2]), x', tkThen_ok rfl (tkThen_ok e rfl), t, r, rfl⟩

section
variable {parse : List Byte → Option Dbl}

theorem ords_cpl (ws : List (List Byte)) : ∀ (c : Coord) (rest : List Tok), ws.map parse = c.map some →
    tkOrds parse c.length (ws.map Tok.word ++ rest) = some (c, rest) := by
  induction ws with
  | nil => intro c rest h; cases c with
    | nil => rfl
    | cons => simp at h
  | cons w ws ih =>
    intro c rest h
    cases c with
    | nil => simp at h
    | cons x c =>
      simp only [List.map_cons, List.cons.injEq] at h
      simp only [List.length_cons, List.map_cons, List.cons_append]
      rw [tkOrds]
      simp only [h.1, ih c rest h.2, Option.map_some]

theorem coord_cpl (d : Dims) (n : Nat) : Cpl n (tkCoord parse d.n) (CoordToks parse d) (CacheTr d.n) := by
  rintro cs c _ rest ⟨len, ws, rfl, hw⟩ -
  have h := ords_cpl ws c rest hw
  rw [len] at h
  unfold tkCoord
  rw [h]
  refine ⟨_, _, rfl, len, ?_⟩
  by_cases h64 : cs.length = 64
  · simp only [if_pos h64]; exact ⟨[cs], rfl, by simp⟩
  · simp only [if_neg h64]; exact ⟨[], rfl, by simp⟩

theorem flush_cpl (nv : Nat) (cs : List Coord) (ts : List Tok) :
    ∃ chunks : List (List Coord), tkFlush nv cs ts = (chunks.map (Event.coords nv), some ((), ts)) ∧ chunks.flatten = cs := by
  unfold tkFlush
  by_cases hc : cs = []
  · rw [if_pos hc]; exact ⟨[], rfl, by simp [hc]⟩
  · rw [if_neg hc]; exact ⟨[cs], rfl, by simp⟩

theorem coordSeq_cpl (d : Dims) {n F : Nat} (hF : n ≤ F) :
    CplU n (tkSeq (tkPure fun _ => []) (tkSeq (tkItems F (tkCoord parse d.n)) (tkSeq (tkFlush d.n) (tkTok .closing))))
      (fun cs ts => ∃ b, Separated (CoordToks parse d) cs b ∧ ts = b ++ [.closing]) (SeqTr d.n) := by
  rintro x cs _ rest ⟨b, hs, rfl⟩ hn
  simp only [List.length_append, List.length_cons] at hn
  obtain ⟨t, x', e, r⟩ := items_cpl (coord_cpl (parse := parse) d n) hF cs b [] rest hs (by omega)
  obtain ⟨ch2, e2, hc2⟩ := flush_cpl d.n x' (.closing :: rest)
  obtain ⟨l1, ch1, rfl, hc1⟩ := steps_cache r
  refine ⟨_, (), tkThen_ok rfl (tkThen_ok (by simpa using e) (tkThen_ok e2 (tok_ok _ _ _))), l1, ch1 ++ ch2, ?_, by simp⟩
  rw [List.flatten_append, hc2, hc1]; rfl

theorem coordinates_cpl (d : Dims) {n F : Nat} (hF : n ≤ F) : CplU n (tkCoordinates parse F d.n) (Listed (CoordToks parse d)) (SeqTr d.n) := by
  refine (emptyOr_cpl (seqTr_nil d.n) fun _ => coordSeq_cpl d hF).imp ?_
  rintro cs ts (⟨rfl, rfl⟩ | ⟨b, body, h, rfl⟩)
  · exact ⟨[], Or.inl ⟨rfl, rfl⟩, fun _ h => h⟩
  · exact ⟨cs, Or.inr ⟨b, body ++ [.closing], ⟨body, h, rfl⟩, by simp⟩, fun _ h => h⟩

theorem flatPoint_cpl (d : Dims) (n : Nat) : CplU n (tkFlatPoint parse d.n) (CoordToks parse d) (fun c => SeqTr d.n [c]) := by
  intro x c body rest hk hn
  obtain ⟨t, x', e, l1, ch1, rfl, hc1⟩ := coord_cpl (parse := parse) d n [] c body rest hk hn
  obtain ⟨ch2, e2, hc2⟩ := flush_cpl d.n x' rest
  unfold tkFlatPoint
  refine ⟨_, (), tkThen_ok rfl (tkThen_ok e e2), by simpa using l1, ch1 ++ ch2, ?_, by simp⟩
  rw [List.flatten_append, hc2, hc1]; rfl

theorem point_cpl (d : Dims) (n : Nat) : CplU n (tkPoint parse d.n) (PointToks parse d) (SeqTr d.n) := by
  have hb : CplU n (tkSeq (tkPure fun _ => []) (tkSeq (tkCoord parse d.n) (tkSeq (tkFlush d.n) (tkTok .closing))))
      (fun cs ts => ∃ c b, cs = [c] ∧ CoordToks parse d c b ∧ ts = b ++ [.closing]) (SeqTr d.n) := by
    rintro x _ _ rest ⟨c, b, rfl, hk, rfl⟩ hn
    simp only [List.length_append, List.length_cons] at hn
    obtain ⟨t, x', e, l1, ch1, rfl, hc1⟩ := coord_cpl (parse := parse) d n [] c b (.closing :: rest) hk (by omega)
    obtain ⟨ch2, e2, hc2⟩ := flush_cpl d.n x' (.closing :: rest)
    refine ⟨_, (), tkThen_ok rfl (tkThen_ok (by simpa using e) (tkThen_ok e2 (tok_ok _ _ _))), by simpa using l1, ch1 ++ ch2, ?_, by simp⟩
    rw [List.flatten_append, hc2, hc1]; rfl
  refine (emptyOr_cpl (seqTr_nil d.n) fun _ => hb).imp ?_
  rintro cs ts (⟨rfl, rfl⟩ | ⟨b, c, body, rfl, h, rfl⟩)
  · exact ⟨[], Or.inl ⟨rfl, rfl⟩, fun _ h => h⟩
  · exact ⟨[c], Or.inr ⟨b, body ++ [.closing], ⟨c, body, rfl, h, rfl⟩, by simp⟩, fun _ h => h⟩

theorem polygon_cpl (d : Dims) {n F : Nat} (hF : n ≤ F) :
    CplU n (tkPolygon parse F d.n) (Listed (Listed (CoordToks parse d))) (ListTr (Between .ringStart .ringEnd (SeqTr d.n))) := by
  refine (emptyOr_cpl (a0 := ([] : List (List Coord))) rfl fun _ => group_cpl (between_cpl (coordinates_cpl d hF) .ringStart .ringEnd) hF).imp ?_
  rintro cs ts (⟨rfl, rfl⟩ | ⟨b, body, h, rfl⟩)
  · exact ⟨[], Or.inl ⟨rfl, rfl⟩, fun _ h => h⟩
  · exact ⟨cs, Or.inr ⟨b, body ++ [.closing], ⟨body, h, rfl⟩, by simp⟩, fun _ h => h⟩

/-- `g` has no members. -/
theorem point_geom_cpl (d : Dims) (n : Nat) : CplU n (tkPoint parse d.n) (fun g ts => (∃ cs, g = .point d cs) ∧ BodyToks parse g ts) (InnerTr 1 d.code) := by
  refine (point_cpl d n).imp ?_
  rintro _ ts ⟨⟨cs, rfl⟩, h⟩
  rw [BodyToks] at h
  exact ⟨cs, h, fun t h => ⟨⟨t, h.2, rfl⟩, h.1⟩⟩

theorem linestring_geom_cpl (d : Dims) {n F : Nat} (hF : n ≤ F) :
    CplU n (tkCoordinates parse F d.n) (fun g ts => (∃ cs, g = .linestring d cs) ∧ BodyToks parse g ts) (InnerTr 2 d.code) := by
  refine (coordinates_cpl d hF).imp ?_
  rintro _ ts ⟨⟨cs, rfl⟩, h⟩
  rw [BodyToks] at h
  exact ⟨cs, h, fun t h => ⟨⟨t, h.2, rfl⟩, h.1⟩⟩

theorem polygon_geom_cpl (d : Dims) {n F : Nat} (hF : n ≤ F) :
    CplU n (tkPolygon parse F d.n) (fun g ts => (∃ rs, g = .polygon d rs) ∧ BodyToks parse g ts) (InnerTr 3 d.code) := by
  refine (polygon_cpl d hF).imp ?_
  rintro _ ts ⟨⟨rs, rfl⟩, h⟩
  rw [BodyToks] at h
  exact ⟨rs, h, fun t h => ⟨⟨t, (listTr_rings h).1, rfl⟩, (listTr_rings h).2⟩⟩

theorem member_cpl {n : Nat} {q : TkP Unit Unit} {Tk : Geom → List Tok → Prop} {k d : Nat} (h : CplU n q Tk (InnerTr k d)) : CplU n (tkMember k d q) Tk GeomTr := by
  refine (between_cpl h (.geomStart k d) .geomEnd).imp ?_
  intro g ts hk
  refine ⟨g, hk, ?_⟩
  rintro t ⟨b, h1, rfl⟩
  exact h1

/-- A member with its tag, if it has one. -/
def MemberTok (parse : List Byte → Option Dbl) (k : MultiKind) (d : Dims) (g : Geom) (ts : List Tok) : Prop :=
  FitsMember k d g ∧ ∃ b, BodyToks parse g b ∧ ts = (if k = .collection then tagToks g else []) ++ b

theorem members_separated {k : MultiKind} {d : Dims} : ∀ (ps : List Geom) (ts : List Tok), MemberToks parse k d ps ts → Separated (MemberTok parse k d) ps ts := by
  intro ps
  induction ps with
  | nil => intro ts h; rw [MemberToks] at h; exact h.elim
  | cons g ps ih =>
    intro ts h
    rw [MemberToks] at h
    obtain ⟨hf, b, hb, ⟨rfl, rfl⟩ | ⟨t2, h2, rfl⟩⟩ := h
    · exact Or.inl ⟨rfl, hf, b, hb, rfl⟩
    · exact Or.inr ⟨_, t2, ⟨hf, b, hb, rfl⟩, ih _ h2, rfl⟩

theorem multi_cpl {q : TkP Unit Unit} (k : MultiKind) (d : Dims) {n F : Nat} (hF : n ≤ F) (hk : k ≠ .multipoint) (h : CplU n q (MemberTok parse k d) GeomTr) :
    CplU n (tkEmptyOr fun _ => tkGroup F q) (fun g ts => (∃ ps, g = .multi k d ps) ∧ BodyToks parse g ts) (InnerTr k.code d.code) := by
  refine (emptyOr_cpl (a0 := ([] : List Geom)) rfl fun _ => group_cpl h hF).imp ?_
  rintro _ ts ⟨⟨ps, rfl⟩, hb⟩
  rw [BodyToks] at hb
  rcases hb with ⟨rfl, rfl⟩ | ⟨b, body, h1, rfl⟩ | ⟨h1, _⟩
  · exact ⟨[], Or.inl ⟨rfl, rfl⟩, fun _ h => multi_inner h⟩
  · exact ⟨ps, Or.inr ⟨b, body ++ [.closing], ⟨body, members_separated _ _ h1, rfl⟩, by simp⟩, fun _ h => multi_inner h⟩
  · exact absurd h1 hk

theorem multilinestring_cpl (d : Dims) {n F : Nat} (hF : n ≤ F) :
    CplU n (tkMultilinestring parse F d.n d.code) (fun g ts => (∃ ps, g = .multi .multilinestring d ps) ∧ BodyToks parse g ts) (InnerTr 5 d.code) := by
  refine multi_cpl .multilinestring d hF (by simp) ((member_cpl (linestring_geom_cpl d hF)).imp ?_)
  rintro g ts ⟨hf, b, hb, rfl⟩
  cases g with
  | linestring d' cs => cases hf; exact ⟨_, ⟨⟨cs, rfl⟩, by simpa using hb⟩, fun _ h => h⟩
  | point => exact hf.elim
  | polygon => exact hf.elim
  | multi => exact hf.elim

theorem multipolygon_cpl (d : Dims) {n F : Nat} (hF : n ≤ F) :
    CplU n (tkMultipolygon parse F d.n d.code) (fun g ts => (∃ ps, g = .multi .multipolygon d ps) ∧ BodyToks parse g ts) (InnerTr 6 d.code) := by
  refine multi_cpl .multipolygon d hF (by simp) ((member_cpl (polygon_geom_cpl d hF)).imp ?_)
  rintro g ts ⟨hf, b, hb, rfl⟩
  cases g with
  | polygon d' cs => cases hf; exact ⟨_, ⟨⟨cs, rfl⟩, by simpa using hb⟩, fun _ h => h⟩
  | point => exact hf.elim
  | linestring => exact hf.elim
  | multi => exact hf.elim

theorem separated_head {α : Type} {P : α → List Tok → Prop} {a : α} {as : List α} {b : List Tok} (h : Separated P (a :: as) b) :
    ∃ t1 t2, P a t1 ∧ b = t1 ++ t2 := by
  rcases h with ⟨_, h⟩ | ⟨t1, t2, h1, _, rfl⟩
  · exact ⟨b, [], h, by simp⟩
  · exact ⟨t1, _, h1, rfl⟩

theorem multipoint_cpl (hE : ∀ w, parse (69 :: w) = none) (d : Dims) {n F : Nat} (hF : n ≤ F) :
    CplU n (tkMultipoint parse F d.n d.code) (fun g ts => (∃ ps, g = .multi .multipoint d ps) ∧ BodyToks parse g ts) (InnerTr 4 d.code) := by
  have hv : CplU n (tkGroup F (tkMember 1 d.code (tkPoint parse d.n))) (fun ps ts => ∃ b, Separated (MemberTok parse .multipoint d) ps b ∧ ts = b ++ [.closing]) (ListTr GeomTr) := by
    refine group_cpl ((member_cpl (point_geom_cpl d n)).imp ?_) hF
    rintro g ts ⟨hf, b, hb, rfl⟩
    cases g with
    | point d' cs => cases hf; exact ⟨_, ⟨⟨cs, rfl⟩, by simpa using hb⟩, fun _ h => h⟩
    | polygon => exact hf.elim
    | linestring => exact hf.elim
    | multi => exact hf.elim
  have hf : CplU n (tkGroup F (tkMember 1 d.code (tkFlatPoint parse d.n))) (fun cs ts => ∃ b, Separated (CoordToks parse d) cs b ∧ ts = b ++ [.closing])
      (ListTr fun c => GeomTr (.point d [c])) := by
    refine group_cpl ((between_cpl (flatPoint_cpl d n) (.geomStart 1 d.code) .geomEnd).imp ?_) hF
    intro c ts hc
    refine ⟨c, hc, ?_⟩
    rintro t ⟨b, h1, rfl⟩
    exact ⟨⟨b, h1.2, rfl⟩, h1.1⟩
  have hmap : ∀ (cs : List Coord) t, ListTr (fun c => GeomTr (.point d [c])) cs t → ListTr GeomTr (cs.map fun c => Geom.point d [c]) t := by
    intro cs
    induction cs with
    | nil => intro t h; exact h
    | cons c cs ih => rintro t ⟨t1, t2, h1, h2, rfl⟩; exact ⟨t1, t2, h1, ih _ h2, rfl⟩
  have hc : ∀ b, CplU n (fun x ts => if tkVerbose ts then tkGroup F (tkMember 1 d.code (tkPoint parse d.n)) x ts
      else if b then tkGroup F (tkMember 1 d.code (tkFlatPoint parse d.n)) x ts else ([], none))
      (fun (ps : List Geom) ts => (∃ body, MemberToks parse .multipoint d ps body ∧ ts = body ++ [.closing]) ∨ FlatToks parse .multipoint d ps (.opening b :: ts))
      (ListTr GeomTr) := by
    rintro b x ps ts rest (⟨body, h, rfl⟩ | ⟨-, cs, body, rfl, h, e⟩) hn
    · have hs := members_separated _ _ h
      have hver : tkVerbose (body ++ [.closing] ++ rest) = true := by
        cases ps with
        | nil => exact hs.elim
        | cons g ps =>
          obtain ⟨t1, t2, ⟨hf, b', hb, rfl⟩, rfl⟩ := separated_head hs
          cases g with
          | point d' cs =>
            rw [BodyToks] at hb
            rcases hb with ⟨_, rfl⟩ | ⟨_, _, _, _, _, rfl⟩
            · rfl
            · rfl
          | polygon => exact hf.elim
          | linestring => exact hf.elim
          | multi => exact hf.elim
      simp only [if_pos hver]
      exact hv x ps _ rest ⟨body, hs, rfl⟩ hn
    · simp only [List.cons_append, List.cons.injEq, Tok.opening.injEq] at e
      obtain ⟨rfl, rfl⟩ := e
      have hver : ¬ tkVerbose (body ++ [.closing] ++ rest) = true := by
        cases cs with
        | nil => exact h.elim
        | cons c cs =>
          obtain ⟨t1, t2, ⟨len, ws, rfl, hw⟩, rfl⟩ := separated_head h
          cases ws with
          | nil =>
            simp only [List.map_nil] at hw
            have : c.length = 0 := by rw [List.map_eq_nil_iff.mp hw.symm]; rfl
            rw [this] at len
            cases d <;> simp [Dims.n] at len
          | cons w ws =>
            cases c with
            | nil => simp at hw
            | cons x c =>
              simp only [List.map_cons, List.cons.injEq] at hw
              simp only [List.map_cons, List.cons_append]
              cases w with
              | nil => simp [tkVerbose]
              | cons ch w =>
                simp only [tkVerbose, decide_eq_true_eq]
                rintro rfl
                rw [hE] at hw
                simp at hw
      simp only [if_neg hver, if_true]
      obtain ⟨t, x', e, r⟩ := hf x cs _ rest ⟨body, h, rfl⟩ hn
      exact ⟨t, x', e, hmap _ _ r⟩
  refine (emptyOr_cpl (a0 := ([] : List Geom)) rfl hc).imp ?_
  rintro _ ts ⟨⟨ps, rfl⟩, hb⟩
  rw [BodyToks] at hb
  rcases hb with ⟨rfl, rfl⟩ | ⟨b, body, h1, rfl⟩ | h1
  · exact ⟨[], Or.inl ⟨rfl, rfl⟩, fun _ h => multi_inner h⟩
  · exact ⟨ps, Or.inr ⟨b, body ++ [.closing], Or.inl ⟨body, h1, rfl⟩, by simp⟩, fun _ h => multi_inner h⟩
  · obtain ⟨h0, cs, body, h2, h3, rfl⟩ := h1
    exact ⟨ps, Or.inr ⟨true, body ++ [.closing], Or.inr ⟨h0, cs, body, h2, h3, by simp⟩, by simp⟩, fun _ h => multi_inner h⟩

/-- The code of a geometry's type. -/
def typeCode : Geom → Nat
  | .point _ _ => 1
  | .linestring _ _ => 2
  | .polygon _ _ => 3
  | .multi k _ _ => k.code

theorem content_cpl (hE : ∀ w, parse (69 :: w) = none) {n F : Nat} (hF : n ≤ F) {tagged : TkP Unit Unit} (ht : CplU n tagged (GeomToks parse) GeomTr) (k : Nat) (d : Dims) :
    CplU n (tkContent parse F tagged k d.n d.code) (fun g ts => (typeCode g = k ∧ g.dims = d) ∧ BodyToks parse g ts) (InnerTr k d.code) := by
  rintro x g body rest ⟨⟨rfl, rfl⟩, hb⟩ hn
  cases g with
  | point d cs => exact point_geom_cpl d n x _ _ _ ⟨⟨cs, rfl⟩, hb⟩ hn
  | linestring d cs => exact linestring_geom_cpl d hF x _ _ _ ⟨⟨cs, rfl⟩, hb⟩ hn
  | polygon d rs => exact polygon_geom_cpl d hF x _ _ _ ⟨⟨rs, rfl⟩, hb⟩ hn
  | multi k d ps =>
    cases k with
    | multipoint => exact multipoint_cpl hE d hF x _ _ _ ⟨⟨ps, rfl⟩, hb⟩ hn
    | multilinestring => exact multilinestring_cpl d hF x _ _ _ ⟨⟨ps, rfl⟩, hb⟩ hn
    | multipolygon => exact multipolygon_cpl d hF x _ _ _ ⟨⟨ps, rfl⟩, hb⟩ hn
    | collection =>
      refine multi_cpl .collection d hF (by simp) (ht.imp ?_) x _ _ _ ⟨⟨ps, rfl⟩, hb⟩ hn
      rintro g ts ⟨-, b, hb, rfl⟩
      exact ⟨g, ⟨b, hb, by simp⟩, fun _ h => h⟩

theorem body_head {g : Geom} {b : List Tok} (h : BodyToks parse g b) : ∃ r, b = .word (str "EMPTY") :: r ∨ ∃ tight, b = .opening tight :: r := by
  cases g with
  | point d cs =>
    rw [BodyToks] at h
    rcases h with ⟨_, rfl⟩ | ⟨t, _, body, _, _, rfl⟩
    · exact ⟨[], Or.inl rfl⟩
    · exact ⟨body ++ [.closing], Or.inr ⟨t, rfl⟩⟩
  | linestring d cs =>
    rw [BodyToks] at h
    rcases h with ⟨_, rfl⟩ | ⟨t, body, _, rfl⟩
    · exact ⟨[], Or.inl rfl⟩
    · exact ⟨body ++ [.closing], Or.inr ⟨t, rfl⟩⟩
  | polygon d cs =>
    rw [BodyToks] at h
    rcases h with ⟨_, rfl⟩ | ⟨t, body, _, rfl⟩
    · exact ⟨[], Or.inl rfl⟩
    · exact ⟨body ++ [.closing], Or.inr ⟨t, rfl⟩⟩
  | multi k d ps =>
    rw [BodyToks] at h
    rcases h with ⟨_, rfl⟩ | ⟨t, body, _, rfl⟩ | ⟨_, _, body, _, _, rfl⟩
    · exact ⟨[], Or.inl rfl⟩
    · exact ⟨body ++ [.closing], Or.inr ⟨t, rfl⟩⟩
    · exact ⟨body ++ [.closing], Or.inr ⟨true, rfl⟩⟩

theorem tag_cpl {g : Geom} {b rest : List Tok} (h : BodyToks parse g b) :
    tkTag (tagToks g ++ b ++ rest) = some (typeCode g, g.dims.code, g.dims.n, b ++ rest) := by
  have hk : wkrType g.keyword = some (typeCode g) := by
    cases g with
    | point => rfl
    | linestring => rfl
    | polygon => rfl
    | multi k => cases k <;> rfl
  have hd : dimsToks (dimToks g.dims ++ (b ++ rest)) = (g.dims.code, g.dims.n, b ++ rest) := by
    cases g.dims with
    | xy =>
      obtain ⟨r, rfl | ⟨tight, rfl⟩⟩ := body_head h
      · simp only [dimToks, List.nil_append, List.cons_append, dimsToks]
        rw [if_neg (by decide)]; rfl
      · rfl
    | xyz => rfl
    | xym => rfl
    | xyzm => rfl
  unfold tkTag tagToks
  simp only [List.cons_append, List.append_assoc, hk, hd]

theorem tagged_cpl (hE : ∀ w, parse (69 :: w) = none) (f : Nat) : ∀ {F : Nat}, f ≤ F → CplU f (tkTagged parse F f) (GeomToks parse) GeomTr := by
  induction f with
  | zero => intro F _ x g ts rest _ h; omega
  | succ f ih =>
    rintro F hF x g _ rest ⟨b, hb, rfl⟩ hn
    rw [tkTagged]
    simp only [tag_cpl hb]
    refine member_cpl (content_cpl hE (n := f) (by omega) (ih (by omega)) (typeCode g) g.dims) x g b rest ⟨⟨rfl, rfl⟩, hb⟩ ?_
    simp only [tagToks, List.cons_append, List.length_cons, List.length_append] at hn
    omega

/-- Text for `g` is accepted, with the callbacks of `g`. -/
theorem feature_cpl (hE : ∀ w, parse (69 :: w) = none) {F f : Nat} (hF : f ≤ F) {g : Geom} {ts : List Tok} (h : GeomToks parse g ts) (hf : ts.length < f) :
    ∃ t, tkFeature parse F f () ts = (t, some ((), [])) ∧ FeatureTrace g t ∧ g.WF := by
  obtain ⟨t, x', e, r⟩ := tagged_cpl hE f hF () g ts [] h hf
  rw [List.append_nil] at e
  unfold tkFeature
  exact ⟨[Event.featStart] ++ (t ++ ([Event.featEnd] ++ [])), tkThen_ok rfl (tkThen_ok e (tkThen_ok rfl rfl)), ⟨t, r.1, rfl⟩, r.2⟩
end
end Verif
