import Verif.Proof.ArrayReader
/-!
# C53 (and C11, C38, C39, C55 through the array reader)
-/
namespace Verif
open Spec

theorem viewOf_type {type : Int} {v : AView} (h : ViewOf type v) : v.schema.type = type := by
  induction h with
  | @fromType v s h =>
    unfold arrayViewInitFromType at h
    obtain ⟨_, s1, h1, h2⟩ := M.bind_eq_ok.mp h
    cases h2
    unfold schemaViewInitFromType at h1
    rw [M.bind_run, M.modify_run] at h1
    dsimp only at h1
    by_cases h0 : type = 0
    · rw [if_pos h0] at h1
      cases h1
      rfl
    · rw [if_neg h0] at h1
      cases he : extensionNameFromType type with
      | none => rw [he] at h1; cases h1
      | some n => rw [he] at h1; cases h1; rfl
  | fromSchema _ _ _ h => exact h
  | @setArray v w a _ h ih => rw [← (keeps_setArray a v w h).1]; exact ih

/-- What a reader holds after an array was set, by layout. -/
theorem set_serialized {k : BinLayout} {type : Int} (ht : type = wkbId k ∨ type = wktId k) {r0 r : AReader} (hr : ReaderOf type r0)
    {a : AArray} (hs : arrayReaderSetArray a r0 = .ok () r) : r.type = type ∧
    (k = .offsets32 → a.buffers[0]? = some r.av.validity ∧ a.buffers[1]? = some (r.av.offsets 0) ∧
      a.buffers[2]? = some r.av.data ∧ r.av.offset 0 = a.offset) ∧
    (k ≠ .offsets32 → ∃ v, v.kind = naKindOf k ∧ NaSet a v r.na) := by
  obtain ⟨h1, h2, h3, h4⟩ := readerOf_inv hr
  unfold arrayReaderSetArray at hs
  rw [h1] at hs
  cases k with
  | offsets32 =>
    have hA : isArrowType type = false := by rcases ht with rfl | rfl <;> rfl
    rw [if_neg (by rw [hA]; decide)] at hs
    have hty := viewOf_type (h2 hA)
    cases hv : arrayViewSetArray a r0.av with
    | ub => rw [hv] at hs; cases hs
    | err rc w => rw [hv] at hs; cases hs
    | ok u w =>
      rw [hv] at hs
      cases hs
      refine ⟨rfl, fun _ => ?_, fun h => absurd rfl h⟩
      unfold arrayViewSetArray at hv
      rw [M.bind_run, M.get_run] at hv
      dsimp only at hv
      rw [if_pos (by rw [hty]; rcases ht with rfl | rfl; exact .inr rfl; exact .inl rfl)] at hv
      obtain ⟨_, w1, g1, g2⟩ := M.bind_eq_ok.mp hv
      obtain ⟨b0, w2, g3, g4⟩ := M.bind_eq_ok.mp g2
      cases e0 : a.buffers[0]? with
      | none => rw [e0] at g3; cases g3
      | some b =>
        rw [e0] at g3
        cases g3
        cases g4
        unfold avSetSerialized at g1
        rw [M.bind_run, M.modify_run] at g1
        dsimp only at g1
        obtain ⟨b1, w3, g5, g6⟩ := M.bind_eq_ok.mp g1
        cases e1 : a.buffers[1]? with
        | none => rw [e1] at g5; cases g5
        | some b1' =>
          rw [e1] at g5
          cases g5
          obtain ⟨b2, w3, g7, g8⟩ := M.bind_eq_ok.mp g6
          cases e2 : a.buffers[2]? with
          | none => rw [e2] at g7; cases g7
          | some b2' =>
            rw [e2] at g7
            cases g7
            cases g8
            exact ⟨rfl, rfl, rfl, rfl⟩
  | offsets64 =>
    have hA : isArrowType type = true := by rcases ht with rfl | rfl <;> rfl
    rw [if_pos hA] at hs
    cases hv : naSetArray a r0.na with
    | ub => rw [hv] at hs; cases hs
    | err rc w => rw [hv] at hs; cases hs
    | ok u w =>
      rw [hv] at hs
      cases hs
      exact ⟨rfl, fun h => (by cases h), fun _ => ⟨r0.na, h3 (by rcases ht with rfl | rfl; exact .inl rfl; exact .inr rfl), naSetArray_ok hv⟩⟩
  | views =>
    have hA : isArrowType type = true := by rcases ht with rfl | rfl <;> rfl
    rw [if_pos hA] at hs
    cases hv : naSetArray a r0.na with
    | ub => rw [hv] at hs; cases hs
    | err rc w => rw [hv] at hs; cases hs
    | ok u w =>
      rw [hv] at hs
      cases hs
      exact ⟨rfl, fun h => (by cases h), fun _ => ⟨r0.na, h4 (by rcases ht with rfl | rfl; exact .inl rfl; exact .inr rfl), naSetArray_ok hv⟩⟩

/-! ## C53 -/

theorem elements_length_zero {read : Read} {es : List (Option (List Byte))} (h : (es.length : Int) = 0) {p : ∀ σ : Type, Handler σ → M σ Unit}
    (hp : ∀ σ h, p σ h = pure ()) : ∃ t o, ElementsRead read es t o ∧ Behaves p t o := by
  obtain rfl : es = [] := List.eq_nil_of_length_eq_zero (by omega)
  refine ⟨[], .done (), ⟨rfl, rfl⟩, ?_⟩
  intro σ hd s
  rw [hp]
  exact Behaves.pure () σ hd s

theorem visit_elements {k : BinLayout} {read : Read} {ρ : Type} {visit : ∀ σ : Type, Handler σ → List Byte → ρ → M σ ρ}
    (hv : Reads read visit) {type : Int} (ht : type = wkbId k ∨ type = wktId k) {r0 r : AReader} (hr : ReaderOf type r0) {a : AArray}
    (hs : arrayReaderSetArray a r0 = .ok () r) (start : Nat) (es : List (Option (List Byte)))
    (he : ∀ (t : Nat) e, es[t]? = some e → ElementAt k a (start + t) e) :
    (k = .offsets32 → ∃ t o, ElementsRead read es t o ∧ ∀ q, Behaves (fun σ h => (do
      let _ ← arLoop (fun i => arElement h (avValid r.av i) (avBytes r.av i) (visit σ h)) es.length (r.av.offset 0 + start) q
      pure () : M σ Unit)) t o) ∧
    (k ≠ .offsets32 → ∃ t o, ElementsRead read es t o ∧ ∀ q, Behaves (fun σ h => (do
      let _ ← arLoop (fun i => arElement h (naValid r.na i) (naBytes r.na i) (visit σ h)) es.length start q
      pure () : M σ Unit)) t o) := by
  obtain ⟨_, h1, h2⟩ := set_serialized ht hr hs
  constructor
  · intro hk
    subst hk
    obtain ⟨b0, b1, b2, ho⟩ := h1 rfl
    refine elements_run hv es _ ?_
    intro t e hte
    have h := he t e hte
    rw [ho, show a.offset + (start : Int) + (t : Int) = a.offset + ((start + t : Nat) : Int) by omega]
    cases e with
    | none => exact avValid_of_null b0 h
    | some b => exact ⟨avValid_of_valid b0 h.1, avBytes_of b1 b2 h.2⟩
  · intro hk
    obtain ⟨v, hkind, hset⟩ := h2 hk
    refine elements_run hv es _ ?_
    intro t e hte
    have h := he t e hte
    rw [show (start : Int) + (t : Int) = ((start + t : Nat) : Int) by omega]
    cases e with
    | none => exact naValid_of_null hset h
    | some b => exact ⟨naValid_of_valid hset h.1, naBytes_of hk hkind hset h.2⟩

/-- Visiting a range of a WKB array of any of the three layouts, with a reader used before in any way: one feature per element in
order, the null feature where the validity bit is clear and what reading the element's bytes by themselves delivers
elsewhere; the first element that cannot be read ends the visit with its error. -/
theorem C53_wkb (k : BinLayout) (r0 r : AReader) (hr : ReaderOf (wkbId k) r0) (a : AArray)
    (hs : arrayReaderSetArray a r0 = .ok () r) (wkt : WktR) (wkb : WkbR) (start : Nat) (es : List (Option (List Byte)))
    (he : ∀ (t : Nat) e, es[t]? = some e → ElementAt k a (start + t) e) (parse : List Byte → Option Dbl) :
    ∃ t o, ElementsRead WkbRead es t o ∧
      Behaves (fun _ h => arrayReaderVisit h parse { r with wkt := wkt, wkb := wkb } start es.length) t o := by
  obtain ⟨ht, _, _⟩ := set_serialized (.inl rfl) hr hs
  obtain ⟨v1, v2⟩ := visit_elements reads_wkb (.inl rfl) hr hs start es he
  by_cases h0 : (es.length : Int) = 0
  · exact elements_length_zero h0 (fun σ h => by unfold arrayReaderVisit; rw [if_pos h0])
  · cases k with
    | offsets32 =>
      obtain ⟨t, o, h1, h2⟩ := v1 rfl
      refine ⟨t, o, h1, ?_⟩
      intro σ h s
      refine Eq.trans ?_ (h2 wkb σ h s)
      simp only [arrayReaderVisit, ht, wkbId, if_neg h0]
      rfl
    | offsets64 =>
      obtain ⟨t, o, h1, h2⟩ := v2 (by decide)
      refine ⟨t, o, h1, ?_⟩
      intro σ h s
      refine Eq.trans ?_ (h2 wkb σ h s)
      simp only [arrayReaderVisit, ht, wkbId, if_neg h0]
      rfl
    | views =>
      obtain ⟨t, o, h1, h2⟩ := v2 (by decide)
      refine ⟨t, o, h1, ?_⟩
      intro σ h s
      refine Eq.trans ?_ (h2 wkb σ h s)
      simp only [arrayReaderVisit, ht, wkbId, if_neg h0]
      rfl

/-- The same for WKT arrays. -/
theorem C53_wkt {parse : List Byte → Option Dbl} (hpe : parse [] = none) (k : BinLayout) (r0 r : AReader)
    (hr : ReaderOf (wktId k) r0) (a : AArray) (hs : arrayReaderSetArray a r0 = .ok () r) (wkt : WktR) (wkb : WkbR) (start : Nat)
    (es : List (Option (List Byte))) (he : ∀ (t : Nat) e, es[t]? = some e → ElementAt k a (start + t) e) :
    ∃ t o, ElementsRead (WktRead parse) es t o ∧
      Behaves (fun _ h => arrayReaderVisit h parse { r with wkt := wkt, wkb := wkb } start es.length) t o := by
  obtain ⟨ht, _, _⟩ := set_serialized (.inr rfl) hr hs
  obtain ⟨v1, v2⟩ := visit_elements (reads_wkt hpe) (.inr rfl) hr hs start es he
  by_cases h0 : (es.length : Int) = 0
  · exact elements_length_zero h0 (fun σ h => by unfold arrayReaderVisit; rw [if_pos h0])
  · cases k with
    | offsets32 =>
      obtain ⟨t, o, h1, h2⟩ := v1 rfl
      refine ⟨t, o, h1, ?_⟩
      intro σ h s
      refine Eq.trans ?_ (h2 wkt σ h s)
      simp only [arrayReaderVisit, ht, wktId, if_neg h0]
      rfl
    | offsets64 =>
      obtain ⟨t, o, h1, h2⟩ := v2 (by decide)
      refine ⟨t, o, h1, ?_⟩
      intro σ h s
      refine Eq.trans ?_ (h2 wkt σ h s)
      simp only [arrayReaderVisit, ht, wktId, if_neg h0]
      rfl
    | views =>
      obtain ⟨t, o, h1, h2⟩ := v2 (by decide)
      refine ⟨t, o, h1, ?_⟩
      intro σ h s
      refine Eq.trans ?_ (h2 wkt σ h s)
      simp only [arrayReaderVisit, ht, wktId, if_neg h0]
      rfl

/-- Elements that can all be read. -/
theorem elementsRead_features {read : Read} (hu : ∀ b t t' o, read b t (.done ()) → read b t' o → t' = t ∧ o = .done ()) :
    ∀ (es : List (Option (List Byte))) (fs : List (Option Geom)), fs.length = es.length →
    (∀ (i : Nat) e f, es[i]? = some e → fs[i]? = some f → match e, f with
      | none, none => True
      | some b, some g => ∃ t, FeatureTrace g t ∧ read b t (.done ())
      | _, _ => False) →
    ∀ t o, ElementsRead read es t o → FeaturesTrace fs t ∧ o = .done ()
  | [], [], _, _, t, o, h => ⟨h.1, h.2⟩
  | [], _ :: _, hl, _, _, _, _ => by cases hl
  | _ :: _, [], hl, _, _, _, _ => by cases hl
  | e :: es, f :: fs, hl, hm, t, o, h => by
    have h0 := hm 0 e f rfl rfl
    have ih := elementsRead_features hu es fs (by simpa using hl) (fun i e f h1 h2 => hm (i + 1) e f (by simpa using h1) (by simpa using h2))
    match e, f, h0 with
    | none, none, _ =>
      obtain ⟨t', h1, rfl⟩ := h
      obtain ⟨i1, i2⟩ := ih t' o h1
      exact ⟨⟨_, t', rfl, i1, rfl⟩, i2⟩
    | some b, some g, ⟨tg, hg, hread⟩ =>
      obtain ⟨t1, o1, h1, h2⟩ := h
      obtain ⟨rfl, rfl⟩ := hu b _ _ _ hread h1
      rcases h2 with ⟨_, t2, h3, rfl⟩ | ⟨h3, _⟩
      · obtain ⟨i1, i2⟩ := ih t2 o h3
        exact ⟨⟨_, t2, hg, i1, rfl⟩, i2⟩
      · exact absurd rfl h3

def EncodedBy : Option (List Byte) → Option Geom → Prop
  | none, none => True
  | some b, some g => g.height ≤ 255 ∧ WkbEnc g b ∧ b.length < 2 ^ 35
  | _, _ => False

/-- Elements that are encodings of geometries: visiting a WKB array delivers these geometries and nulls. -/
theorem C53_wkb_geometries (k : BinLayout) (r0 r : AReader) (hr : ReaderOf (wkbId k) r0) (a : AArray)
    (hs : arrayReaderSetArray a r0 = .ok () r) (wkt : WktR) (wkb : WkbR) (start : Nat) (fs : List (Option Geom))
    (he : ∀ (t : Nat) f, fs[t]? = some f → match f with
      | none => ElementAt k a (start + t) none
      | some g => g.height ≤ 255 ∧ ∃ b, WkbEnc g b ∧ b.length < 2 ^ 35 ∧ ElementAt k a (start + t) (some b))
    (parse : List Byte → Option Dbl) :
    ∃ t, FeaturesTrace fs t ∧
      Behaves (fun _ h => arrayReaderVisit h parse { r with wkt := wkt, wkb := wkb } start fs.length) t (.done ()) := by
  have hex : ∃ es : List (Option (List Byte)), es.length = fs.length ∧ ∀ (i : Nat) e f, es[i]? = some e → fs[i]? = some f →
      ElementAt k a (start + i) e ∧ EncodedBy e f := by
    clear hs
    induction fs generalizing start with
    | nil => exact ⟨[], rfl, fun i e f h => by simp at h⟩
    | cons f fs ih =>
      obtain ⟨es, h1, h2⟩ := ih (start + 1) (fun t f h => by
        have := he (t + 1) f (by simpa using h)
        rwa [show start + (t + 1) = start + 1 + t by omega] at this)
      have h0 := he 0 f rfl
      have hsel : ∃ e, ElementAt k a (start + 0) e ∧ EncodedBy e f := by
        cases f with
        | none => exact ⟨none, h0, trivial⟩
        | some g =>
          obtain ⟨hh, b, hb, hl, he⟩ := h0
          exact ⟨some b, he, hh, hb, hl⟩
      obtain ⟨e, h3, h4⟩ := hsel
      refine ⟨e :: es, by simp [h1], ?_⟩
      intro i e' f' h5 h6
      cases i with
      | zero =>
        cases h5
        cases h6
        exact ⟨h3, h4⟩
      | succ i =>
        have := h2 i e' f' (by simpa using h5) (by simpa using h6)
        rwa [show start + 1 + i = start + (i + 1) by omega] at this
  obtain ⟨es, hl, hes⟩ := hex
  have hget : ∀ (i : Nat) (e : Option (List Byte)), es[i]? = some e → ∃ f, fs[i]? = some f := by
    intro i e h
    have := (List.getElem?_eq_some_iff.mp h).1
    exact ⟨_, List.getElem?_eq_getElem (by omega)⟩
  obtain ⟨t, o, h1, h2⟩ := C53_wkb k r0 r hr a hs wkt wkb start es (fun i e h =>
    let ⟨f, hf⟩ := hget i e h
    (hes i e f h hf).1) parse
  rw [hl] at h2
  have hu : ∀ b t t' o, WkbRead b t (.done ()) → WkbRead b t' o → t' = t ∧ o = .done () := by
    intro b t t' o h1 h2
    obtain ⟨rfl, h⟩ := Behaves.unique h1 h2 (by simp)
    exact ⟨rfl, h.symm⟩
  obtain ⟨h3, rfl⟩ := elementsRead_features hu es fs hl.symm (fun i e f he hf => by
    have h := (hes i e f he hf).2
    match e, f, h with
    | none, none, _ => trivial
    | some b, some g, ⟨hh, hb, hlen⟩ =>
      have := (C12_read_valid_partial (rest := []) hb hh (by simpa using hlen) ⟨0, 0, false, []⟩).2
      rw [List.append_nil] at this
      exact this) t o h1
  exact ⟨t, h3, h2⟩

/-- Choosing an element for every feature. -/
theorem choose_elements {P : Nat → Option (List Byte) → Prop} {Q : Option (List Byte) → Option Geom → Prop} :
    ∀ (fs : List (Option Geom)) (start : Nat), (∀ (t : Nat) f, fs[t]? = some f → ∃ e, P (start + t) e ∧ Q e f) →
    ∃ es : List (Option (List Byte)), es.length = fs.length ∧ ∀ (i : Nat) e f, es[i]? = some e → fs[i]? = some f → P (start + i) e ∧ Q e f
  | [], _, _ => ⟨[], rfl, fun i e f h => by simp at h⟩
  | f :: fs, start, he => by
    obtain ⟨es, h1, h2⟩ := choose_elements fs (start + 1) (fun t f h => by
      have := he (t + 1) f (by simpa using h)
      rwa [show start + (t + 1) = start + 1 + t by omega] at this)
    obtain ⟨e, h3, h4⟩ := he 0 f rfl
    refine ⟨e :: es, by simp [h1], ?_⟩
    intro i e' f' h5 h6
    cases i with
    | zero =>
      cases h5
      cases h6
      exact ⟨h3, h4⟩
    | succ i =>
      have := h2 i e' f' (by simpa using h5) (by simpa using h6)
      rwa [show start + 1 + i = start + (i + 1) by omega] at this

/-- Elements that are texts of geometries: visiting a WKT array delivers these geometries and nulls. -/
theorem C53_wkt_geometries {parse : List Byte → Option Dbl} (hpe : parse [] = none) (hE : ∀ w, parse (69 :: w) = none) (k : BinLayout)
    (r0 r : AReader) (hr : ReaderOf (wktId k) r0) (a : AArray)
    (hs : arrayReaderSetArray a r0 = .ok () r) (wkt : WktR) (wkb : WkbR) (start : Nat) (fs : List (Option Geom))
    (he : ∀ (t : Nat) f, fs[t]? = some f → match f with
      | none => ElementAt k a (start + t) none
      | some g => ∃ b, GeomToks parse g (lex b) ∧ ElementAt k a (start + t) (some b)) :
    ∃ t, FeaturesTrace fs t ∧
      Behaves (fun _ h => arrayReaderVisit h parse { r with wkt := wkt, wkb := wkb } start fs.length) t (.done ()) := by
  obtain ⟨es, hl, hes⟩ := choose_elements (P := ElementAt k a) (Q := fun e f => match e, f with
      | none, none => True
      | some b, some g => GeomToks parse g (lex b)
      | _, _ => False) fs start (fun t f ht => by
    have h0 := he t f ht
    cases f with
    | none => exact ⟨none, h0, trivial⟩
    | some g =>
      obtain ⟨b, hb, he⟩ := h0
      exact ⟨some b, he, hb⟩)
  have hget : ∀ (i : Nat) (e : Option (List Byte)), es[i]? = some e → ∃ f, fs[i]? = some f := by
    intro i e h
    have := (List.getElem?_eq_some_iff.mp h).1
    exact ⟨_, List.getElem?_eq_getElem (by omega)⟩
  obtain ⟨t, o, h1, h2⟩ := C53_wkt hpe k r0 r hr a hs wkt wkb start es (fun i e h =>
    let ⟨f, hf⟩ := hget i e h
    (hes i e f h hf).1)
  rw [hl] at h2
  have hu : ∀ b t t' o, WktRead parse b t (.done ()) → WktRead parse b t' o → t' = t ∧ o = .done () := by
    intro b t t' o h1 h2
    obtain ⟨rfl, h⟩ := Behaves.unique h1 h2 (by simp)
    exact ⟨rfl, h.symm⟩
  obtain ⟨h3, rfl⟩ := elementsRead_features hu es fs hl.symm (fun i e f he hf => by
    have h := (hes i e f he hf).2
    match e, f, h with
    | none, none, _ => trivial
    | some b, some g, hb =>
      obtain ⟨t, h1, h2, _⟩ := C28_complete hpe hE hb { pos := 0, left := 0, nv := 0, n := 0, coords := fun _ => 0 }
      exact ⟨t, h2, h1⟩) t o h1
  exact ⟨t, h3, h2⟩

/-- Arrays as the Arrow format describes them are accepted. -/
theorem C53_accepted (k : BinLayout) (type : Int) (ht : type = wkbId k ∨ type = wktId k) (r0 : AReader) (hr : ReaderOf type r0)
    (a : AArray) (ha : BinArrayOk k a) : ∃ r, arrayReaderSetArray a r0 = .ok () r := by
  obtain ⟨h1, h2, h3, h4⟩ := readerOf_inv hr
  obtain ⟨hc, hb, ⟨hr0, hr1, hr2⟩, hemp, hnull, hel⟩ := ha
  unfold arrayReaderSetArray
  rw [h1]
  cases k with
  | offsets32 =>
    have hA : isArrowType type = false := by rcases ht with rfl | rfl <;> rfl
    rw [if_neg (by rw [hA]; decide)]
    have hty := viewOf_type (h2 hA)
    have hb3 : a.buffers.length = 3 := hb
    have hset : ∃ w, arrayViewSetArray a r0.av = .ok () w := by
      obtain ⟨l, n, o, bs, cs⟩ := a
      match bs, hb3 with
      | [b0, b1, b2], _ =>
        unfold arrayViewSetArray
        rw [M.bind_run, M.get_run]
        dsimp only
        rw [if_pos (by rw [hty]; rcases ht with rfl | rfl; exact .inr rfl; exact .inl rfl)]
        exact ⟨_, rfl⟩
    obtain ⟨w, hw⟩ := hset
    rw [hw]
    exact ⟨_, rfl⟩
  | offsets64 =>
    have hA : isArrowType type = true := by rcases ht with rfl | rfl <;> rfl
    rw [if_pos hA]
    have hk : r0.na.kind = .large := h3 (by rcases ht with rfl | rfl; exact .inl rfl; exact .inr rfl)
    have hb3 : a.buffers.length = 3 := hb
    suffices hset : ∃ w, naSetArray a r0.na = .ok () w by
      obtain ⟨w, hw⟩ := hset
      rw [hw]
      exact ⟨_, rfl⟩
    unfold naSetArray
    rcases naSetInternal_post a r0.na with ⟨w, h5, h6, _⟩ | ⟨w, _, _, h5⟩ | ⟨_, h5⟩
    · rw [M.bind_ok h5, M.bind_run, M.get_run]
      dsimp only
      refine ⟨w, ?_⟩
      unfold naValidateDefault
      have hmin : naValidateMinimal w w = .ok () w := by
        unfold naValidateMinimal
        rw [h6.offset, h6.length, if_neg (by omega), if_neg (by omega), if_neg (by omega), if_neg ?_, if_neg ?_]
        · rfl
        · rintro ⟨hn, hpos⟩
          obtain ⟨bytes, b, lo, hi, hb1, _⟩ := hel 0 (by omega)
          rw [h6.b1, hn] at hb1
          cases hb1
        · rintro ⟨hn, hnc, _⟩
          refine hnc (h6.nullCount.trans (hnull ?_))
          rw [h6.b0, hn]
      rw [M.bind_ok hmin, h6.kind, hk]
      dsimp only
      by_cases hz : w.b1 ≠ none ∧ w.offset + w.length ≠ 0
      · rw [if_pos hz]
        rw [h6.offset, h6.length] at hz ⊢
        have hpos : 0 < a.length := by omega
        obtain ⟨bytes, b, lo, hi, hb1, hlo, _, _⟩ := hel 0 (by omega)
        obtain ⟨bytes', b', lo', hi', hb1', _, hhi, hsl⟩ := hel (a.length.toNat - 1) (by omega)
        rw [h6.b1] at hb1 hb1'
        have e1 := Option.some.inj hb1
        have e2 := Option.some.inj hb1'
        rw [e1] at e2
        obtain rfl := Option.some.inj e2
        rw [e1]
        rw [show a.offset + ((0 : Nat) : Int) = a.offset by omega] at hlo
        rw [show a.offset + ((a.length.toNat - 1 : Nat) : Int) + 1 = a.offset + a.length by omega] at hhi
        simp only [orUb, M.bind_run, M.pure_run, hlo, hhi]
        rw [if_neg (by omega), if_neg (by omega), if_neg ?_]
        · rfl
        · rintro ⟨hn, hpos⟩
          rw [(h6.large hk).1, hn] at hsl
          rcases hsl with ⟨d, h, _⟩ | ⟨_, _, h, _⟩
          · cases h
          · omega
      · rw [if_neg hz]
        rfl
    · exact absurd ⟨hc, fun _ => hb3⟩ h5
    · omega
  | views =>
    have hA : isArrowType type = true := by rcases ht with rfl | rfl <;> rfl
    rw [if_pos hA]
    have hk : r0.na.kind = .view := h4 (by rcases ht with rfl | rfl; exact .inl rfl; exact .inr rfl)
    have hb2 : 2 ≤ a.buffers.length := hb
    suffices hset : ∃ w, naSetArray a r0.na = .ok () w by
      obtain ⟨w, hw⟩ := hset
      rw [hw]
      exact ⟨_, rfl⟩
    unfold naSetArray
    rcases naSetInternal_post a r0.na with ⟨w, h5, h6, _⟩ | ⟨w, _, _, h5⟩ | ⟨_, h5⟩
    · rw [M.bind_ok h5, M.bind_run, M.get_run]
      dsimp only
      refine ⟨w, ?_⟩
      unfold naValidateDefault
      have hmin : naValidateMinimal w w = .ok () w := by
        unfold naValidateMinimal
        rw [h6.offset, h6.length, if_neg (by omega), if_neg (by omega), if_neg (by omega), if_neg ?_, if_neg ?_]
        · rfl
        · rintro ⟨hn, hpos⟩
          obtain ⟨bytes, b, n, hb1, _⟩ := hel 0 (by omega)
          rw [h6.b1, hn] at hb1
          cases hb1
        · rintro ⟨hn, hnc, _⟩
          refine hnc (h6.nullCount.trans (hnull ?_))
          rw [h6.b0, hn]
      rw [M.bind_ok hmin, h6.kind, hk]
      rfl
    · refine absurd ⟨hc, fun h => ?_⟩ h5
      rw [hk] at h
      cases h
    · rw [hk] at h5
      rcases h5 with h5 | ⟨h5, _⟩
      · omega
      · cases h5

/-- An array with large offsets and too few buffers is not rejected: the missing ones are read (the number is compared after
that). With too many it is rejected, as is one with children. -/
theorem C55_large_buffers_unchecked (type : Int) (ht : type = wkbId .offsets64 ∨ type = wktId .offsets64) (r0 : AReader)
    (hr : ReaderOf type r0) (a : AArray) :
    (a.buffers.length < 3 → arrayReaderSetArray a r0 = .ub) ∧
    (3 ≤ a.buffers.length → ¬ (a.buffers.length = 3 ∧ a.children = []) → ∃ r, arrayReaderSetArray a r0 = .err EINVAL r) := by
  obtain ⟨h1, h2, h3, h4⟩ := readerOf_inv hr
  have hA : isArrowType type = true := by rcases ht with rfl | rfl <;> rfl
  have hk : r0.na.kind = .large := h3 (by rcases ht with rfl | rfl; exact .inl rfl; exact .inr rfl)
  unfold arrayReaderSetArray
  rw [h1, if_pos hA]
  unfold naSetArray
  rw [M.bind_run]
  constructor
  · intro hl
    rcases naSetInternal_post a r0.na with ⟨w, h5, h6, _⟩ | ⟨w, h5, h6, h7⟩ | ⟨h5, _⟩
    · have := (h6.large hk).2; omega
    · exfalso
      -- the third buffer is read before anything is compared
      unfold naSetInternal at h5
      rw [M.bind_run, M.get_run] at h5
      dsimp only at h5
      rw [hk, M.bind_run, M.modify_run] at h5
      dsimp only at h5
      have h2' : a.buffers[2]? = none := List.getElem?_eq_none_iff.mpr (by omega)
      cases e0 : a.buffers[0]? with
      | none => rw [e0] at h5; cases h5
      | some b0 =>
        rw [e0] at h5
        cases e1 : a.buffers[1]? with
        | none => rw [e1] at h5; cases h5
        | some b1 => rw [e1, h2'] at h5; cases h5
    · rw [h5]
  · intro hl hne
    rcases naSetInternal_post a r0.na with ⟨w, h5, h6, h7⟩ | ⟨w, h5, h6, h7⟩ | ⟨h5, h6⟩
    · exact absurd ⟨(h6.large hk).2, h7⟩ hne
    · rw [h5]
      exact ⟨_, rfl⟩
    · omega

/-! Examples: a WKB view array with an offset: an element skipped, one by reference, a null, one inline. -/

def exViewRecs : List Byte := List.replicate 16 0 ++ [63, 0, 0, 0, 0, 0xa0, 0, 0, 0, 0, 0, 0, 2, 0, 0, 0] ++
  List.replicate 16 0 ++ [9, 0, 0, 0, 1, 3, 0, 0, 0, 0, 0, 0, 0, 0, 0, 0]
def exViewArr : AArray := .mk 3 1 1 [some [0b1010#8], some exViewRecs, some ([7, 7] ++ exBlob ++ [7])] []
def exViewReader : AReader := { AReader.zero 100005 with na := naArrInit .view }
theorem exViewReader_of : ReaderOf (wkbId .views) exViewReader := .init rfl

theorem exViewArr_ok : BinArrayOk .views exViewArr := by
  refine ⟨rfl, by decide, by decide, by decide, (by intro h; cases h), ?_⟩
  intro i hi
  have hi' : i < 3 := by have : (i : Int) < 3 := hi; omega
  match i, hi' with
  | 0, _ => exact ⟨_, _, 63, rfl, by decide +kernel, .inr ⟨by decide, 0, 2, by decide +kernel, by decide +kernel, _, rfl, by decide, rfl⟩⟩
  | 1, _ => exact ⟨_, _, 0, rfl, by decide +kernel, .inl ⟨by decide, by decide +kernel, rfl⟩⟩
  | 2, _ => exact ⟨_, _, 9, rfl, by decide +kernel, .inl ⟨by decide, by decide +kernel, rfl⟩⟩

example : ∃ r t, arrayReaderSetArray exViewArr exViewReader = .ok () r ∧
    FeaturesTrace [some exBlobGeom, none, some (.polygon .xy [])] t ∧
    Behaves (fun _ h => arrayReaderVisit h exParse r 0 3) t (.done ()) := by
  obtain ⟨r, hr⟩ := C53_accepted .views _ (.inl rfl) exViewReader exViewReader_of exViewArr exViewArr_ok
  obtain ⟨t, h1, h2⟩ := C53_wkb_geometries .views exViewReader r exViewReader_of exViewArr hr r.wkt r.wkb 0
    [some exBlobGeom, none, some (.polygon .xy [])] (by
      intro t f h
      match t, h with
      | 0, rfl => exact ⟨by decide, exBlob, exBlob_enc, by decide, .inr ⟨_, rfl, by decide, by decide +kernel⟩, _, 63, rfl, by decide +kernel,
          .inr ⟨by decide, 0, 2, by decide +kernel, by decide +kernel, _, rfl, by decide, by decide +kernel⟩⟩
      | 1, rfl => exact ⟨_, rfl, by decide, by decide +kernel⟩
      | 2, rfl => exact ⟨by decide, [1, 3, 0, 0, 0, 0, 0, 0, 0], ⟨false, [1, 3, 0, 0, 0], by decide, by simp, .inl (by decide +kernel), by decide +kernel⟩,
          by decide, .inr ⟨_, rfl, by decide, by decide +kernel⟩, _, 9, rfl, by decide +kernel,
          .inl ⟨by decide, by decide +kernel, by decide +kernel⟩⟩) exParse
  exact ⟨r, t, hr, h1, h2⟩

/-- A large WKT array: a text that can be read and one that cannot. -/
def exLargeArr : AArray := .mk 2 0 0 [none, some ([0, 11, 19].flatMap fun n => [n, 0, 0, 0, 0, 0, 0, 0]), some (str "POINT (1 2)POINT (1")] []
def exLargeReader : AReader := { AReader.zero 100004 with na := naArrInit .large }

example : ∃ r t o, arrayReaderSetArray exLargeArr exLargeReader = .ok () r ∧
    ElementsRead (WktRead exParse) [some (str "POINT (1 2)"), some (str "POINT (1")] t o ∧
    Behaves (fun _ h => arrayReaderVisit h exParse r 0 2) t o := by
  have hk : ReaderOf (wktId .offsets64) exLargeReader := .init rfl
  have h0 : BytesAt .offsets64 exLargeArr 0 (str "POINT (1 2)") :=
    ⟨_, 0, 11, rfl, by decide +kernel, by decide +kernel, .inl ⟨_, rfl, by decide, by decide +kernel, by decide +kernel⟩⟩
  have h1 : BytesAt .offsets64 exLargeArr 1 (str "POINT (1") :=
    ⟨_, 11, 19, rfl, by decide +kernel, by decide +kernel, .inl ⟨_, rfl, by decide, by decide +kernel, by decide +kernel⟩⟩
  obtain ⟨r, hr⟩ := C53_accepted .offsets64 _ (.inr rfl) exLargeReader hk exLargeArr
    ⟨rfl, by decide, by decide, by decide, fun _ => rfl, fun i hi => by
      have hi' : i < 2 := by have : (i : Int) < 2 := hi; omega
      match i, hi' with
      | 0, _ => exact ⟨_, h0⟩
      | 1, _ => exact ⟨_, h1⟩⟩
  obtain ⟨t, o, h2, h3⟩ := C53_wkt exParse_nil .offsets64 exLargeReader r hk exLargeArr hr r.wkt r.wkb 0
    [some (str "POINT (1 2)"), some (str "POINT (1")]
    (fun t e h => by
      match t, h with
      | 0, rfl => exact (⟨.inl rfl, h0⟩ : ElementAt .offsets64 exLargeArr 0 (some (str "POINT (1 2)")))
      | 1, rfl => exact (⟨.inl rfl, h1⟩ : ElementAt .offsets64 exLargeArr 1 (some (str "POINT (1"))))
  exact ⟨r, t, o, hr, h2, h3⟩

/-! ## Native types and boxes through the reader -/

theorem reader_native {type : Int} (hA : isArrowType type = false) (h1 : type ≠ 100001) (h3 : type ≠ 100003) {r0 r : AReader} (hr : ReaderOf type r0) {a : AArray}
    (hs : arrayReaderSetArray a r0 = .ok () r) : ViewOf type r0.av ∧ arrayViewSetArray a r0.av = .ok () r.av ∧
    ∀ (parse : List Byte → Option Dbl) (wkt : WktR) (wkb : WkbR) (offset length : Int) (σ : Type) (h : Handler σ),
      arrayReaderVisit h parse { r with wkt := wkt, wkb := wkb } offset length =
        if length = 0 then pure () else visitNative r.av h offset length := by
  obtain ⟨t1, t2, _, _⟩ := readerOf_inv hr
  unfold arrayReaderSetArray at hs
  rw [t1, if_neg (by rw [hA]; decide)] at hs
  cases hv : arrayViewSetArray a r0.av with
  | ub => rw [hv] at hs; cases hs
  | err rc w => rw [hv] at hs; cases hs
  | ok u w =>
    rw [hv] at hs
    cases hs
    refine ⟨t2 hA, rfl, ?_⟩
    intro parse wkt wkb offset length σ h
    unfold arrayReaderVisit
    dsimp only
    have hA' : ¬ (type = 100002 ∨ type = 100005 ∨ type = 100004 ∨ type = 100006) := of_decide_eq_false hA
    by_cases h0 : length = 0
    · rw [if_pos h0, if_pos h0]
    · rw [if_neg h0, if_neg h0, if_neg h3, if_neg h1, if_neg (fun h => hA' (h.elim .inl (.inr ∘ .inl))),
        if_neg (fun h => hA' (h.elim (.inr ∘ .inr ∘ .inl) (.inr ∘ .inr ∘ .inr)))]

/-- C38 through the array reader: with a reader used before in any way, visiting a range of a native array delivers its
features. -/
theorem C38_reader (g : Int) (d : Dims) (k : CoordKind) (hg : 1 ≤ g ∧ g ≤ 6) (r0 r : AReader) (hr : ReaderOf (nativeId g d k) r0)
    (a : AArray) (hs : arrayReaderSetArray a r0 = .ok () r) (wkt : WktR) (wkb : WkbR) (offset : Nat) (fs : List (Option Geom))
    (hf : ∀ (t : Nat) (f : Option Geom), fs[t]? = some f → FeatureAt g d k a (offset + t) f) (parse : List Byte → Option Dbl) :
    ∃ t, FeaturesTrace fs t ∧
      Behaves (fun _ h => arrayReaderVisit h parse { r with wkt := wkt, wkb := wkb } offset fs.length) t (.done ()) := by
  have hd1 : 1 ≤ d.code ∧ d.code ≤ 4 := by cases d <;> decide
  have hk1 : k.code = 1 ∨ k.code = 2 := by cases k <;> decide
  have hn : nativeId g d k < 100000 := by unfold nativeId; omega
  have hA : isArrowType (nativeId g d k) = false := by
    have : ∀ t : Int, t < 100000 → ¬ (t = 100002 ∨ t = 100005 ∨ t = 100004 ∨ t = 100006) := by omega
    exact decide_eq_false (this _ hn)
  obtain ⟨h1, h2, h3⟩ := reader_native hA (by omega) (by omega) hr hs
  obtain ⟨t, h4, h5⟩ := C38_visit_range g d k hg r0.av r.av h1 a h2 offset fs hf
  refine ⟨t, h4, ?_⟩
  simp only [h3]
  by_cases h0 : (fs.length : Int) = 0
  · simp only [if_pos h0]
    obtain rfl : fs = [] := List.eq_nil_of_length_eq_zero (by omega)
    cases h4
    exact Behaves.pure ()
  · simp only [if_neg h0]
    exact h5

/-- C39 through the array reader. -/
theorem C39_reader (r0 r : AReader) (hr : ReaderOf (boxId .xy) r0) (a : AArray) (hs : arrayReaderSetArray a r0 = .ok () r)
    (wkt : WktR) (wkb : WkbR) (offset : Nat) (fs : List (Option Geom))
    (hf : ∀ (t : Nat) (f : Option Geom), fs[t]? = some f → BoxFeatureAt a (offset + t) f) (parse : List Byte → Option Dbl) :
    ∃ t, FeaturesTrace fs t ∧
      Behaves (fun _ h => arrayReaderVisit h parse { r with wkt := wkt, wkb := wkb } offset fs.length) t (.done ()) := by
  obtain ⟨h1, h2, h3⟩ := reader_native (type := boxId .xy) rfl (by decide) (by decide) hr hs
  obtain ⟨t, h4, h5⟩ := C39_visit_boxes r0.av r.av h1 a h2 offset fs hf
  refine ⟨t, h4, ?_⟩
  simp only [h3]
  by_cases h0 : (fs.length : Int) = 0
  · simp only [if_pos h0]
    obtain rfl : fs = [] := List.eq_nil_of_length_eq_zero (by omega)
    cases h4
    exact Behaves.pure ()
  · simp only [if_neg h0]
    exact h5

/-! ## C11 -/

/-- For every array reader whatsoever the callbacks and the outcome of visiting a range are fixed; a failing callback's code is
returned as is, at once. -/
theorem C11_array_reader {parse : List Byte → Option Dbl} (hpe : parse [] = none) (r : AReader) (offset length : Int) :
    ∃ t o, Behaves (fun _ h => arrayReaderVisit h parse r offset length) t o := by
  unfold arrayReaderVisit
  split
  · exact Regular.pure ()
  · split
    · obtain ⟨t, o, h⟩ := elements_regular (reads_wkt hpe) (avValid r.av) (avBytes r.av) length.toNat (r.av.offset 0 + offset)
      exact ⟨t, o, h r.wkt⟩
    · split
      · obtain ⟨t, o, h⟩ := elements_regular reads_wkb (avValid r.av) (avBytes r.av) length.toNat (r.av.offset 0 + offset)
        exact ⟨t, o, h r.wkb⟩
      · split
        · obtain ⟨t, o, h⟩ := elements_regular reads_wkb (naValid r.na) (naBytes r.na) length.toNat offset
          exact ⟨t, o, h r.wkb⟩
        · split
          · obtain ⟨t, o, h⟩ := elements_regular (reads_wkt hpe) (naValid r.na) (naBytes r.na) length.toNat offset
            exact ⟨t, o, h r.wkt⟩
          · exact C11_native_visit r.av offset length

end Verif
