import Verif.Proof.WktComplete
import Verif.Proof.WktWriter
/-!
# The text of a geometry has the tokens of the geometry
-/
namespace Verif
open Spec

theorem isWordChar_of {c : Byte} (h : c ≠ 0 ∧ isSpace c = false ∧ c ≠ 40 ∧ c ≠ 41 ∧ c ≠ 44) : isWordChar c = true := by
  obtain ⟨a, b, c1, d, e⟩ := h
  rw [isWordChar, b, decide_eq_false a, decide_eq_false c1, decide_eq_false d, decide_eq_false e]; rfl

/-- Text that gives the tokens `ts` before anything that does not continue a word. -/
structure TextOk (w : List Byte) (ts : List Tok) : Prop where
  ne : w ≠ []
  tight : startsTight w = true
  lex : ∀ rest, startsEdge rest = true → Spec.lex (w ++ rest) = ts ++ Spec.lex rest

theorem textOk_word {w : List Byte} (h : IsWord w) : TextOk w [.word w] := by
  obtain ⟨hne, hc⟩ := h
  refine ⟨hne, ?_, fun rest he => ?_⟩
  · cases w with
    | nil => rfl
    | cons c w => simp [startsTight, (hc c (by simp)).2.1]
  · exact lex_word (fun c h => isWordChar_of (hc c h)) hne he

theorem startsTight_append {a : List Byte} (h : a ≠ []) (b : List Byte) : startsTight (a ++ b) = startsTight a := by
  cases a with
  | nil => exact (h rfl).elim
  | cons c a => rfl

theorem textOk_space {a b : List Byte} {ta tb : List Tok} (ha : TextOk a ta) (hb : TextOk b tb) :
    TextOk (a ++ (str " " ++ b)) (ta ++ tb) := by
  refine ⟨by simp [ha.ne], by rw [startsTight_append ha.ne]; exact ha.tight, fun rest he => ?_⟩
  rw [List.append_assoc, ha.lex _ rfl, List.append_assoc, List.append_assoc]
  refine congrArg (ta ++ ·) ?_
  show Spec.lex (32 :: (b ++ rest)) = _
  rw [lex_space rfl, hb.lex _ he]

theorem textOk_comma {a b : List Byte} {ta tb : List Tok} (ha : TextOk a ta) (hb : TextOk b tb) :
    TextOk (a ++ (str ", " ++ b)) (ta ++ .comma :: tb) := by
  refine ⟨by simp [ha.ne], by rw [startsTight_append ha.ne]; exact ha.tight, fun rest he => ?_⟩
  rw [List.append_assoc, ha.lex _ rfl, List.append_assoc, List.append_assoc]
  refine congrArg (ta ++ ·) ?_
  show Spec.lex (44 :: 32 :: (b ++ rest)) = _
  rw [lex_comma, lex_space rfl, hb.lex _ he]; rfl

theorem textOk_paren {a : List Byte} {ta : List Tok} (ha : TextOk a ta) :
    TextOk (str "(" ++ a ++ str ")") (.opening true :: ta ++ [.closing]) := by
  refine ⟨by simp [str], rfl, fun rest he => ?_⟩
  have h : str "(" ++ a ++ str ")" ++ rest = 40 :: (a ++ (41 :: rest)) := by simp [str]
  rw [h, lex_open, startsTight_append ha.ne, ha.tight, ha.lex _ rfl, lex_close]
  simp

theorem textOk_empty : TextOk (str "EMPTY") [.word (str "EMPTY")] := by
  refine textOk_word ⟨by decide, ?_⟩
  intro c hc
  revert c; decide

theorem intercalate_one (sep a : List Byte) : sep.intercalate [a] = a := by simp [List.intercalate]

theorem intercalate_two (sep a b : List Byte) (bs : List (List Byte)) :
    sep.intercalate (a :: b :: bs) = a ++ (sep ++ sep.intercalate (b :: bs)) := by simp [List.intercalate]

theorem textOk_separated {α : Type} {P : α → List Tok → Prop} {f : α → List Byte} : ∀ (xs : List α), xs ≠ [] →
    (∀ x ∈ xs, ∃ ts, P x ts ∧ TextOk (f x) ts) →
    ∃ body, Separated P xs body ∧ TextOk ((str ", ").intercalate (xs.map f)) body
  | [], h, _ => (h rfl).elim
  | [x], _, h => by
    obtain ⟨ts, h1, h2⟩ := h x (by simp)
    exact ⟨ts, Or.inl ⟨rfl, h1⟩, by rw [List.map_cons, List.map_nil, intercalate_one]; exact h2⟩
  | x :: y :: xs, _, h => by
    obtain ⟨ts, h1, h2⟩ := h x (by simp)
    obtain ⟨body, h3, h4⟩ := textOk_separated (y :: xs) (by simp) (fun z hz => h z (by simp [hz]))
    refine ⟨ts ++ .comma :: body, Or.inr ⟨ts, body, h1, h3, rfl⟩, ?_⟩
    rw [List.map_cons, List.map_cons, intercalate_two]
    exact textOk_comma h2 h4

theorem textOk_list {α : Type} {P : α → List Tok → Prop} {f : α → List Byte} (xs : List α)
    (h : ∀ x ∈ xs, ∃ ts, P x ts ∧ TextOk (f x) ts) : ∃ ts, Listed P xs ts ∧ TextOk (wktList (xs.map f)) ts := by
  by_cases hx : xs = []
  · subst hx
    exact ⟨_, Or.inl ⟨rfl, rfl⟩, textOk_empty⟩
  · obtain ⟨body, h1, h2⟩ := textOk_separated xs hx h
    refine ⟨_, Or.inr ⟨true, body, h1, rfl⟩, ?_⟩
    rw [wktList, if_neg (by simpa using hx)]
    exact textOk_paren h2

section
variable {parse : List Byte → Option Dbl} {pr : Dbl → List Byte}

theorem textOk_ordinates : ∀ (c : Coord), c ≠ [] → (∀ x ∈ c, PrintsWords parse pr x) →
    TextOk (wktCoordinate pr c) ((c.map pr).map Tok.word)
  | [], h, _ => (h rfl).elim
  | [x], _, h => by
    rw [wktCoordinate, List.map_cons, List.map_nil, intercalate_one]
    exact textOk_word (h x (by simp)).1
  | x :: y :: c, _, h => by
    have ih := textOk_ordinates (y :: c) (by simp) (fun z hz => h z (by simp [hz]))
    rw [wktCoordinate, List.map_cons, List.map_cons, intercalate_two]
    exact textOk_space (textOk_word (h x (by simp)).1) ih

theorem textOk_coordinate {d : Dims} {c : Coord} (hn : c.length = d.n) (h : ∀ x ∈ c, PrintsWords parse pr x) :
    ∃ ts, CoordToks parse d c ts ∧ TextOk (wktCoordinate pr c) ts := by
  refine ⟨_, ⟨hn, c.map pr, rfl, ?_⟩, textOk_ordinates c ?_ h⟩
  · rw [List.map_map]
    exact List.map_congr_left fun x hx => (h x hx).2
  · intro hc; subst hc; cases d <;> cases hn

theorem textOk_sequence {d : Dims} {cs : List Coord} (hw : ∀ c ∈ cs, c.length = d.n) (h : ∀ c ∈ cs, ∀ x ∈ c, PrintsWords parse pr x) :
    ∃ ts, Listed (CoordToks parse d) cs ts ∧ TextOk (wktSequence pr cs) ts :=
  textOk_list cs fun c hc => textOk_coordinate (hw c hc) (h c hc)

theorem keyword_word (g : Geom) : IsWord g.keyword := by
  have key : ∀ w : List Byte, w ≠ [] → (w.all fun c => decide (c ≠ 0 ∧ isSpace c = false ∧ c ≠ 40 ∧ c ≠ 41 ∧ c ≠ 44)) = true → IsWord w := by
    intro w h1 h2
    exact ⟨h1, fun c hc => of_decide_eq_true (List.all_eq_true.mp h2 c hc)⟩
  match g with
  | .point _ _ => exact key _ (by simp [Geom.keyword, str]) rfl
  | .linestring _ _ => exact key _ (by simp [Geom.keyword, str]) rfl
  | .polygon _ _ => exact key _ (by simp [Geom.keyword, str]) rfl
  | .multi .multipoint _ _ => exact key _ (by simp [Geom.keyword, str]) rfl
  | .multi .multilinestring _ _ => exact key _ (by simp [Geom.keyword, str]) rfl
  | .multi .multipolygon _ _ => exact key _ (by simp [Geom.keyword, str]) rfl
  | .multi .collection _ _ => exact key _ (by simp [Geom.keyword, str]) rfl

theorem textOk_tagged (g : Geom) {b : List Byte} {ts : List Tok} (hb : TextOk b ts) :
    TextOk (g.keyword ++ g.dims.suffix ++ str " " ++ b) (tagToks g ++ ts) := by
  have hk := textOk_word (keyword_word g)
  have hw : ∀ w : List Byte, w = str "Z" ∨ w = str "M" ∨ w = str "ZM" → TextOk w [.word w] := by
    intro w hw
    refine textOk_word ?_
    rcases hw with rfl | rfl | rfl <;> exact ⟨by decide, by decide⟩
  rw [tagToks]
  cases hd : g.dims with
  | xy =>
    have h := textOk_space hk hb
    simp only [Dims.suffix, dimToks]
    have e : g.keyword ++ str "" ++ str " " ++ b = g.keyword ++ (str " " ++ b) := by simp [str]
    rw [e]; exact h
  | xyz =>
    have h := textOk_space hk (textOk_space (hw (str "Z") (by simp)) hb)
    have e : g.keyword ++ Dims.suffix .xyz ++ str " " ++ b = g.keyword ++ (str " " ++ (str "Z" ++ (str " " ++ b))) := by simp [str, Dims.suffix]
    rw [e]; exact h
  | xym =>
    have h := textOk_space hk (textOk_space (hw (str "M") (by simp)) hb)
    have e : g.keyword ++ Dims.suffix .xym ++ str " " ++ b = g.keyword ++ (str " " ++ (str "M" ++ (str " " ++ b))) := by simp [str, Dims.suffix]
    rw [e]; exact h
  | xyzm =>
    have h := textOk_space hk (textOk_space (hw (str "ZM") (by simp)) hb)
    have e : g.keyword ++ Dims.suffix .xyzm ++ str " " ++ b = g.keyword ++ (str " " ++ (str "ZM" ++ (str " " ++ b))) := by simp [str, Dims.suffix]
    rw [e]; exact h

/-- The text of a member that does not lose its parentheses. -/
def memberText (pr : Dbl → List Byte) (flat : Bool) (k : MultiKind) (g : Geom) : List Byte :=
  if k = .collection then g.keyword ++ g.dims.suffix ++ str " " ++ wktBody pr flat g else wktBody pr flat g

theorem wktMembers_eq (flat : Bool) (k : MultiKind) : ∀ (ps : List Geom),
    (k = .multipoint → flat = true → ∀ g ∈ ps, g.EmptyPoint) → wktMembers pr flat k ps = ps.map (memberText pr flat k)
  | [], _ => by simp only [wktMembers, List.map_nil]
  | g :: gs, h => by
    rw [wktMembers, List.map_cons, wktMembers_eq flat k gs (fun a b x hx => h a b x (by simp [hx]))]
    congr 1
    unfold memberText
    by_cases hk : k = .collection
    · rw [if_pos hk, if_pos hk]
    rw [if_neg hk, if_neg hk]
    split
    · rename_i hf
      have := h hf.1 hf.2 g (by simp)
      cases g with
      | point d cs => simp only [Geom.EmptyPoint] at this; subst this; rfl
      | linestring _ _ => rfl
      | polygon _ _ => rfl
      | multi _ _ _ => rfl
    · rfl

theorem wktMembers_flat (d : Dims) : ∀ (cs : List Coord),
    wktMembers pr true .multipoint (cs.map fun c => Geom.point d [c]) = cs.map (wktCoordinate pr)
  | [] => by simp only [wktMembers, List.map_nil]
  | c :: cs => by
    rw [List.map_cons, wktMembers, wktMembers_flat d cs, List.map_cons, if_neg (by decide), if_pos ⟨rfl, rfl⟩]
    simp only [wktFlatMember, List.map_cons, List.map_nil, intercalate_one]

theorem flat_members (d : Dims) : ∀ (ps : List Geom), Geom.UniformL .multipoint d ps → Geom.SinglePointsL ps →
    (∀ g ∈ ps, ¬ g.EmptyPoint) → ∃ cs : List Coord, ps = cs.map fun c => Geom.point d [c]
  | [], _, _, _ => ⟨[], rfl⟩
  | g :: gs, hu, hs, hn => by
    simp only [Geom.UniformL] at hu
    simp only [Geom.SinglePointsL] at hs
    obtain ⟨cs, h⟩ := flat_members d gs hu.2.2 hs.2 (fun x hx => hn x (by simp [hx]))
    have hg := hn g (by simp)
    cases g with
    | point d' xs =>
      have hd : d' = d := hu.1
      subst hd
      have h1 : xs.length ≤ 1 := hs.1
      have h2 : xs ≠ [] := hg
      match xs, h1, h2 with
      | [c], _, _ => exact ⟨c :: cs, by rw [h]; rfl⟩
      | [], _, h2 => exact (h2 rfl).elim
      | _ :: _ :: _, h1, _ => simp at h1
    | linestring _ _ => exact hu.1.elim
    | polygon _ _ => exact hu.1.elim
    | multi _ _ _ => exact hu.1.elim

variable (flat : Bool)

mutual
theorem textOk_body : ∀ (g : Geom), g.WF → g.Uniform → g.SinglePoints → (flat = true → g.FlatReadable) →
    g.Ordinates (PrintsWords parse pr) → ∃ ts, BodyToks parse g ts ∧ TextOk (wktBody pr flat g) ts
  | .point d cs, hw, _, hs, _, h => by
    simp only [Geom.Ordinates] at h
    simp only [Geom.WF] at hw
    simp only [Geom.SinglePoints] at hs
    simp only [BodyToks, wktBody, wktSequence]
    match cs, hw, hs, h with
    | [], _, _, _ => exact ⟨_, Or.inl ⟨rfl, rfl⟩, textOk_empty⟩
    | [c], hw, _, h =>
      obtain ⟨ts, h1, h2⟩ := textOk_coordinate (hw c (by simp)) (h c (by simp))
      refine ⟨_, Or.inr ⟨true, c, ts, rfl, h1, rfl⟩, ?_⟩
      rw [wktList, if_neg (by simp), List.map_cons, List.map_nil, intercalate_one]
      exact textOk_paren h2
    | _ :: _ :: _, _, hs, _ => simp at hs
  | .linestring d cs, hw, _, _, _, h => by
    simp only [Geom.Ordinates] at h
    simp only [Geom.WF] at hw
    simp only [BodyToks, wktBody]
    exact textOk_sequence hw h
  | .polygon d rs, hw, _, _, _, h => by
    simp only [Geom.Ordinates] at h
    simp only [Geom.WF] at hw
    simp only [BodyToks, wktBody]
    exact textOk_list rs fun r hr => textOk_sequence (hw r hr) (h r hr)
  | .multi k d ps, hw, hu, hs, hf, h => by
    simp only [Geom.Ordinates] at h
    simp only [Geom.WF] at hw
    simp only [Geom.Uniform] at hu
    simp only [Geom.SinglePoints] at hs
    simp only [Geom.FlatReadable] at hf
    simp only [BodyToks, wktBody]
    by_cases hp : ps = []
    · subst hp
      refine ⟨_, Or.inl ⟨rfl, rfl⟩, ?_⟩
      simp only [wktMembers, wktList, if_true]
      exact textOk_empty
    by_cases hc : k = .multipoint → flat = true → ∀ g ∈ ps, g.EmptyPoint
    · obtain ⟨body, h1, h2⟩ := textOk_members k d ps hp hw hu hs (fun e => (hf e).2) h
      refine ⟨_, Or.inr (Or.inl ⟨true, body, h1, rfl⟩), ?_⟩
      rw [wktMembers_eq flat k ps hc, wktList, if_neg (by simpa using hp)]
      exact textOk_paren h2
    · by_cases hk : k = .multipoint
      case neg => exact (hc fun e => (hk e).elim).elim
      subst hk
      by_cases hfl : flat = true
      case neg => exact (hc fun _ e => (hfl e).elim).elim
      subst hfl
      have hne := ((hf rfl).1 rfl).resolve_left (fun e => hc fun _ _ => e)
      obtain ⟨cs, hcs⟩ := flat_members d ps hu hs hne
      subst hcs
      have hcs : cs ≠ [] := by simpa using hp
      have hq : ∀ c ∈ cs, ∀ x ∈ c, PrintsWords parse pr x := by
        clear hp hu hs hf hc hne hcs hw
        induction cs with
        | nil => simp
        | cons c cs ih =>
          simp only [List.map_cons, Geom.OrdinatesL, Geom.Ordinates] at h
          intro c' hc'
          rcases List.mem_cons.mp hc' with rfl | h'
          · exact h.1 _ (by simp)
          · exact ih h.2 c' h'
      have hwf : ∀ c ∈ cs, c.length = d.n := by
        clear hp hu hs hf hc hne hcs h hq
        induction cs with
        | nil => simp
        | cons c cs ih =>
          simp only [List.map_cons, Geom.WFL, Geom.WF] at hw
          intro c' hc'
          rcases List.mem_cons.mp hc' with rfl | h'
          · exact hw.1 _ (by simp)
          · exact ih hw.2 c' h'
      obtain ⟨body, h1, h2⟩ := textOk_separated cs hcs (fun c hc => textOk_coordinate (parse := parse) (pr := pr) (hwf c hc) (hq c hc))
      refine ⟨_, Or.inr (Or.inr ⟨rfl, cs, body, rfl, h1, rfl⟩), ?_⟩
      rw [wktMembers_flat, wktList, if_neg (by simpa using hcs)]
      exact textOk_paren h2
theorem textOk_members (k : MultiKind) (d : Dims) : ∀ (ps : List Geom), ps ≠ [] → Geom.WFL ps → Geom.UniformL k d ps →
    Geom.SinglePointsL ps → (flat = true → Geom.FlatReadableL ps) → Geom.OrdinatesL (PrintsWords parse pr) ps →
    ∃ body, MemberToks parse k d ps body ∧ TextOk ((str ", ").intercalate (ps.map (memberText pr flat k))) body
  | [], hp, _, _, _, _, _ => (hp rfl).elim
  | g :: gs, _, hw, hu, hs, hf, h => by
    simp only [Geom.OrdinatesL] at h
    simp only [Geom.WFL] at hw
    simp only [Geom.UniformL] at hu
    simp only [Geom.SinglePointsL] at hs
    simp only [Geom.FlatReadableL] at hf
    obtain ⟨b, h1, h2⟩ := textOk_body g hw.1 hu.2.1 hs.1 (fun e => (hf e).1) h.1
    have hm : TextOk (memberText pr flat k g) ((if k = .collection then tagToks g else []) ++ b) := by
      unfold memberText
      split
      · exact textOk_tagged g h2
      · exact h2
    by_cases hg : gs = []
    · subst hg
      refine ⟨_, ?_, by rw [List.map_cons, List.map_nil, intercalate_one]; exact hm⟩
      simp only [MemberToks]
      exact ⟨hu.1, b, h1, Or.inl ⟨trivial, rfl⟩⟩
    · obtain ⟨body, h3, h4⟩ := textOk_members k d gs hg hw.2 hu.2.2 hs.2 (fun e => (hf e).2) h.2
      refine ⟨((if k = .collection then tagToks g else []) ++ b) ++ .comma :: body, ?_, ?_⟩
      · simp only [MemberToks]
        exact ⟨hu.1, b, h1, Or.inr ⟨body, h3, rfl⟩⟩
      · obtain ⟨y, ys, rfl⟩ := List.exists_cons_of_ne_nil hg
        rw [List.map_cons, List.map_cons, intercalate_two]
        exact textOk_comma hm h4
end

theorem wktText_toks {g : Geom} (hw : g.WF) (hu : g.Uniform) (hs : g.SinglePoints) (hf : flat = true → g.FlatReadable)
    (h : g.Ordinates (PrintsWords parse pr)) : GeomToks parse g (Spec.lex (wktText pr flat g)) := by
  obtain ⟨b, h1, h2⟩ := textOk_body flat g hw hu hs hf h
  have := (textOk_tagged g h2).lex [] rfl
  refine ⟨b, h1, ?_⟩
  rw [List.append_nil] at this
  rw [wktText, this, lex_nil, List.append_nil]
end

theorem lexFrom_length : ∀ (cs acc : List Byte), (lexFrom acc cs).length ≤ cs.length + (if acc = [] then 0 else 1)
  | [], acc => by
    simp only [lexFrom, wordTok]
    split <;> simp
  | c :: cs, acc => by
    have hw : (wordTok acc).length = if acc = [] then 0 else 1 := by
      simp only [wordTok]; split <;> rfl
    have h0 := lexFrom_length cs []
    have h1 := lexFrom_length cs (acc ++ [c])
    rw [if_pos rfl] at h0
    have : ¬ (acc ++ [c] = []) := by simp
    rw [if_neg this] at h1
    simp only [lexFrom, List.length_cons]
    generalize hk : (if acc = [] then 0 else 1) = k at hw ⊢
    split
    · rw [hw]; omega
    split
    · rw [List.length_append, hw]; omega
    split
    · rw [List.length_append, hw, List.length_cons]; omega
    split
    · rw [List.length_append, hw, List.length_cons]; omega
    split
    · rw [List.length_append, hw, List.length_cons]; omega
    · omega

theorem lex_length (cs : List Byte) : (lex cs).length ≤ cs.length := by
  have := lexFrom_length cs []
  simpa [lex] using this

end Verif
