import Verif.Proof.KernelPush
import Verif.Proof.BuilderValid
/-! # The types kernel -/
namespace Verif
open Spec

/-! ## Callbacks -/

/-- Whether there are coordinates among the callbacks. -/
def hasCoords (t : List Event) : Prop := ∃ nv cs, Event.coords nv cs ∈ t ∧ cs ≠ []

theorem hasCoords_append {t t' : List Event} : hasCoords (t ++ t') ↔ hasCoords t ∨ hasCoords t' := by
  unfold hasCoords
  constructor
  · rintro ⟨nv, cs, h, h'⟩
    rcases List.mem_append.mp h with h | h
    · exact .inl ⟨nv, cs, h, h'⟩
    · exact .inr ⟨nv, cs, h, h'⟩
  · rintro (⟨nv, cs, h, h'⟩ | ⟨nv, cs, h, h'⟩)
    · exact ⟨nv, cs, List.mem_append_left _ h, h'⟩
    · exact ⟨nv, cs, List.mem_append_right _ h, h'⟩

theorem hasCoords_cons {e : Event} {t : List Event} (h : ∀ nv cs, e ≠ .coords nv cs) : hasCoords (e :: t) ↔ hasCoords t := by
  unfold hasCoords
  constructor
  · rintro ⟨nv, cs, h1, h2⟩
    rcases List.mem_cons.mp h1 with h1 | h1
    · exact absurd h1.symm (h nv cs)
    · exact ⟨nv, cs, h1, h2⟩
  · rintro ⟨nv, cs, h1, h2⟩
    exact ⟨nv, cs, List.mem_cons_of_mem _ h1, h2⟩

theorem hasCoords_nil : ¬ hasCoords [] := by rintro ⟨_, _, h, _⟩; cases h

theorem hasCoords_between {e e' : Event} {t : List Event} (h : ∀ nv cs, e ≠ .coords nv cs) (h' : ∀ nv cs, e' ≠ .coords nv cs) :
    hasCoords (e :: t ++ [e']) ↔ hasCoords t := by
  rw [List.cons_append, hasCoords_cons h, hasCoords_append, hasCoords_cons h']
  exact ⟨fun h => h.elim id (fun h => absurd h hasCoords_nil), .inl⟩

theorem chunked_has {nv : Nat} {cs : List Coord} {t : List Event} (h : Chunked nv cs t) : (hasCoords t ↔ cs ≠ []) ∧ Event.featStart ∉ t := by
  obtain ⟨chunks, rfl, rfl⟩ := h
  refine ⟨⟨?_, ?_⟩, ?_⟩
  · rintro ⟨nv', c, h1, h2⟩ hc
    obtain ⟨c', h3, h4⟩ := List.mem_map.mp h1
    cases h4
    exact h2 (List.flatten_eq_nil_iff.mp hc _ h3)
  · intro h
    apply Classical.byContradiction
    intro hn
    apply h
    rw [List.flatten_eq_nil_iff]
    intro c hc
    apply Classical.byContradiction
    intro hne
    exact hn ⟨nv, c, List.mem_map.mpr ⟨c, hc, rfl⟩, hne⟩
  · intro h
    obtain ⟨c', h3, h4⟩ := List.mem_map.mp h
    cases h4

theorem rings_has {nv : Nat} : ∀ (rs : List (List Coord)) (t : List Event), RingsTrace nv rs t → (hasCoords t ↔ rs.flatten ≠ []) ∧ Event.featStart ∉ t
  | [], t, h => by
    cases h
    exact ⟨⟨fun h => absurd h hasCoords_nil, fun h => absurd rfl h⟩, by simp⟩
  | r :: rs, t, h => by
    obtain ⟨t1, t2, h1, h2, rfl⟩ := h
    obtain ⟨a1, a2⟩ := chunked_has h1
    obtain ⟨b1, b2⟩ := rings_has rs t2 h2
    constructor
    · rw [List.cons_append, hasCoords_cons (by simp), hasCoords_append, hasCoords_cons (by simp), a1, b1, List.flatten_cons,
        Ne, Ne, Ne, List.append_eq_nil_iff]
      exact ⟨fun h hc => h.elim (fun h => h hc.1) (fun h => h hc.2), fun h => Classical.not_and_iff_not_or_not.mp h⟩
    · simp [a2, b2]

mutual
theorem geom_has : ∀ (g : Geom) (t : List Event), g.Trace t → (hasCoords t ↔ g.allCoords ≠ []) ∧ Event.featStart ∉ t
  | .point d cs, t, h => by
    obtain ⟨b, h1, rfl⟩ := h
    obtain ⟨a1, a2⟩ := chunked_has h1
    refine ⟨?_, by simp [a2]⟩
    rw [hasCoords_between (by simp) (by simp), a1]
    simp [Geom.allCoords]
  | .linestring d cs, t, h => by
    obtain ⟨b, h1, rfl⟩ := h
    obtain ⟨a1, a2⟩ := chunked_has h1
    refine ⟨?_, by simp [a2]⟩
    rw [hasCoords_between (by simp) (by simp), a1]
    simp [Geom.allCoords]
  | .polygon d rs, t, h => by
    obtain ⟨b, h1, rfl⟩ := h
    obtain ⟨a1, a2⟩ := rings_has rs b h1
    refine ⟨?_, by simp [a2]⟩
    rw [hasCoords_between (by simp) (by simp), a1]
    unfold Geom.allCoords
    rw [Ne, Ne, List.map_eq_nil_iff]
  | .multi k d ps, t, h => by
    obtain ⟨b, h1, rfl⟩ := h
    obtain ⟨a1, a2⟩ := geoms_has ps b h1
    refine ⟨?_, by simp [a2]⟩
    rw [hasCoords_between (by simp) (by simp), a1]
    rfl
theorem geoms_has : ∀ (gs : List Geom) (t : List Event), Geom.TraceL gs t → (hasCoords t ↔ Geom.allCoordsL gs ≠ []) ∧ Event.featStart ∉ t
  | [], t, h => by
    cases h
    exact ⟨⟨fun h => absurd h hasCoords_nil, fun h => absurd rfl h⟩, by simp⟩
  | g :: gs, t, h => by
    obtain ⟨t1, t2, h1, h2, rfl⟩ := h
    obtain ⟨a1, a2⟩ := geom_has g t1 h1
    obtain ⟨b1, b2⟩ := geoms_has gs t2 h2
    refine ⟨?_, by simp [a2, b2]⟩
    rw [hasCoords_append, a1, b1]
    show _ ↔ g.allCoords ++ Geom.allCoordsL gs ≠ []
    rw [Ne, Ne, Ne, List.append_eq_nil_iff]
    exact ⟨fun h hc => h.elim (fun h => h hc.1) (fun h => h hc.2), fun h => Classical.not_and_iff_not_or_not.mp h⟩
end

/-! ## The visitor -/

/-- The mask with the bit of a type and dimensions set. -/
def TypesS.hit (s : TypesS) : TypesS := { s with mask := s.mask ||| (1#64 <<< (s.dimensions * 8 + s.geometryType)) }

/-- Once the type is known, callbacks change nothing until there are coordinates. -/
theorem types_settled : ∀ (t : List Event) (s : TypesS), Event.featStart ∉ t → s.geometryType ≠ 0 → s.dimensions * 8 + s.geometryType < 64 →
    (¬ hasCoords t ∧ feed typesHandler t s = .ok () s) ∨ (hasCoords t ∧ feed typesHandler t s = .err EAGAIN s.hit)
  | [], s, _, _, _ => .inl ⟨hasCoords_nil, rfl⟩
  | e :: t, s, hn, h0, hb => by
    have ih := types_settled t s (fun h => hn (List.mem_cons_of_mem _ h)) h0 hb
    have void : (∀ nv cs, e ≠ .coords nv cs) → typesHandler e s = .ok () s →
        (¬ hasCoords (e :: t) ∧ feed typesHandler (e :: t) s = .ok () s) ∨ (hasCoords (e :: t) ∧ feed typesHandler (e :: t) s = .err EAGAIN s.hit) := by
      intro h1 h2
      rw [hasCoords_cons h1, feed_cons_ok' h2]
      exact ih
    cases e with
    | featStart => exact absurd (by simp) hn
    | nullFeat => exact void (by simp) rfl
    | ringStart => exact void (by simp) rfl
    | ringEnd => exact void (by simp) rfl
    | geomEnd => exact void (by simp) rfl
    | featEnd => exact void (by simp) rfl
    | geomStart gt d =>
      refine void (by simp) ?_
      show typesGeomStart gt d s = _
      unfold typesGeomStart
      rw [M.modify_run, if_neg h0]
    | coords nv cs =>
      cases cs with
      | nil =>
        have h1 : typesHandler (.coords nv []) s = .ok () s := rfl
        rw [feed_cons_ok' h1]
        have h2 : hasCoords (.coords nv [] :: t) ↔ hasCoords t := by
          constructor
          · rintro ⟨nv', cs', h3, h4⟩
            rcases List.mem_cons.mp h3 with h3 | h3
            · cases h3; exact absurd rfl h4
            · exact ⟨nv', cs', h3, h4⟩
          · rintro ⟨nv', cs', h3, h4⟩
            exact ⟨nv', cs', List.mem_cons_of_mem _ h3, h4⟩
        rw [h2]
        exact ih
      | cons c cs =>
        refine .inr ⟨⟨nv, c :: cs, by simp, by simp⟩, ?_⟩
        have : typesHandler (.coords nv (c :: cs)) s = .err EAGAIN s.hit := by
          show typesCoords (c :: cs) s = _
          unfold typesCoords
          rw [M.bind_run, M.get_run]
          dsimp only
          rw [if_pos (by simp), if_neg (by omega)]
          rfl
        simp [feed, this]

/-- The number of a type's bit. -/
def Spec.Geom.bit : Geom → Nat
  | .point d _ => d.code * 8 + 1
  | .linestring d _ => d.code * 8 + 2
  | .polygon d _ => d.code * 8 + 3
  | .multi k d _ => d.code * 8 + k.code

theorem geom_bit (g : Geom) : g.bit < 40 ∧ typeCodes[g.bit]? = some g.isoCode := by
  cases g with
  | point d _ => cases d <;> exact ⟨by simp [Spec.Geom.bit, Dims.code, MultiKind.code], rfl⟩
  | linestring d _ => cases d <;> exact ⟨by simp [Spec.Geom.bit, Dims.code, MultiKind.code], rfl⟩
  | polygon d _ => cases d <;> exact ⟨by simp [Spec.Geom.bit, Dims.code, MultiKind.code], rfl⟩
  | multi k d _ => cases k <;> cases d <;> exact ⟨by simp [Spec.Geom.bit, Dims.code, MultiKind.code], rfl⟩

/-- What a feature does to the mask. -/
def maskAfter (m : BitVec 64) (f : Option Geom) : BitVec 64 :=
  open Classical in
  match f with
  | none => m
  | some g => if g.allCoords ≠ [] then m ||| (1#64 <<< g.bit) else m

theorem mask_bit (m : BitVec 64) (f : Option Geom) (i : Nat) (hi : i < 64) :
    (maskAfter m f).getLsbD i = true ↔ m.getLsbD i = true ∨ ∃ g, f = some g ∧ g.allCoords ≠ [] ∧ g.bit = i := by
  cases f with
  | none => simp [maskAfter]
  | some g =>
    unfold maskAfter
    by_cases h : g.allCoords ≠ []
    · dsimp only
      rw [if_pos h]
      simp only [BitVec.getLsbD_or, BitVec.getLsbD_shiftLeft, BitVec.getLsbD_one, Bool.or_eq_true, Bool.and_eq_true, decide_eq_true_eq,
        Bool.not_eq_true', decide_eq_false_iff_not]
      constructor
      · rintro (h1 | h1)
        · exact .inl h1
        · exact .inr ⟨g, rfl, h, by omega⟩
      · rintro (h1 | ⟨_, h1, _, h2⟩)
        · exact .inl h1
        · cases h1
          exact .inr ⟨⟨hi, by omega⟩, by omega, by omega⟩
    · dsimp only
      rw [if_neg h]
      constructor
      · exact .inl
      · rintro (h1 | ⟨_, h1, h2, _⟩)
        · exact h1
        · cases h1; exact absurd h2 h

theorem types_feature {f : Option Geom} {t : List Event} (ht : OptFeatureTrace f t) (s : TypesS) :
    ∃ s', visitByFeature typesHandler (feed typesHandler t) s = .ok () s' ∧ s'.mask = maskAfter s.mask f := by
  cases f with
  | none => cases ht; exact ⟨_, rfl, rfl⟩
  | some g =>
    obtain ⟨b, hb, rfl⟩ := ht
    obtain ⟨h1, h2⟩ := geom_has g b hb
    obtain ⟨gt, d, b', hb', hbit, hgt⟩ : ∃ gt d b', b = .geomStart gt d :: b' ∧ g.bit = d * 8 + gt ∧ gt ≠ 0 := by
      cases g with
      | point d _ => obtain ⟨b, _, rfl⟩ := hb; exact ⟨_, _, _, rfl, rfl, by decide⟩
      | linestring d _ => obtain ⟨b, _, rfl⟩ := hb; exact ⟨_, _, _, rfl, rfl, by decide⟩
      | polygon d _ => obtain ⟨b, _, rfl⟩ := hb; exact ⟨_, _, _, rfl, rfl, by decide⟩
      | multi k d _ => obtain ⟨b, _, rfl⟩ := hb; exact ⟨_, _, _, rfl, rfl, by cases k <;> decide⟩
    subst hb'
    have hbd := (geom_bit g).1
    have hs1 : typesHandler .featStart s = .ok () { s with geometryType := 0, dimensions := 0 } := rfl
    have hs2 : typesHandler (.geomStart gt d) { s with geometryType := 0, dimensions := 0 } = .ok () { s with geometryType := gt, dimensions := d } := rfl
    have hall : feed typesHandler (.featStart :: .geomStart gt d :: b' ++ [.featEnd]) s =
        feed typesHandler (b' ++ [.featEnd]) { s with geometryType := gt, dimensions := d } := by
      rw [List.cons_append, feed_cons_ok' hs1, List.cons_append, feed_cons_ok' hs2]
    have hfe : (Event.featStart : Event) ∉ b' ++ [Event.featEnd] := by
      intro hc
      rcases List.mem_append.mp hc with hc | hc
      · exact h2 (List.mem_cons_of_mem _ hc)
      · simp at hc
    have hhas : hasCoords (b' ++ [.featEnd]) ↔ g.allCoords ≠ [] := by
      rw [← h1, hasCoords_cons (by simp), hasCoords_append, hasCoords_cons (by simp)]
      exact ⟨fun h => h.elim id (fun h => absurd h hasCoords_nil), .inl⟩
    rcases types_settled (b' ++ [.featEnd]) { s with geometryType := gt, dimensions := d } hfe hgt (by dsimp only; omega) with ⟨e1, e2⟩ | ⟨e1, e2⟩
    · refine ⟨{ s with geometryType := gt, dimensions := d }, ?_, ?_⟩
      · unfold visitByFeature
        rw [hall, e2]
      · unfold maskAfter
        rw [hhas] at e1
        exact (if_neg e1).symm
    · refine ⟨TypesS.hit { s with geometryType := gt, dimensions := d }, ?_, ?_⟩
      · unfold visitByFeature
        rw [hall, e2]
        dsimp only
        rw [if_pos rfl]
        rfl
      · unfold maskAfter
        rw [hhas] at e1
        dsimp only
        rw [if_pos e1, hbit]
        rfl

theorem types_loop {parse : List Byte → Option Dbl} (hpe : parse [] = none) (hE : ∀ w, parse (69 :: w) = none) {kind : ArrayKind}
    {r0 r : AReader} (hr : ReaderOf kind.id r0) {a : AArray} (hs : arrayReaderSetArray a r0 = .ok () r) (scratch : Int → WktR × WkbR) :
    ∀ (fs : List (Option Geom)) (i : Nat) (s : TypesS), (∀ (j : Nat) f, fs[j]? = some f → kind.SlotAt parse a (i + j) f) →
      ∃ s', kernelLoop typesHandler parse scratch r fs.length i s = .ok () s' ∧ s'.mask = fs.foldl maskAfter s.mask
  | [], i, s, _ => ⟨s, rfl, rfl⟩
  | f :: fs, i, s, hf => by
    obtain ⟨t, h1, h2⟩ := batch_visit hpe hE kind hr hs (scratch i).1 (scratch i).2 i [f] (fun j f' hj => by
      cases j with
      | zero => exact hf 0 f' hj
      | succ j => simp at hj)
    obtain ⟨t1, t2, h3, h4, rfl⟩ := h1
    cases h4
    rw [List.append_nil] at h2
    obtain ⟨s1, h5, h6⟩ := types_feature h3 s
    obtain ⟨s2, h7, h8⟩ := types_loop hpe hE hr hs scratch fs (i + 1) s1 (fun j f' hj => by
      have := hf (j + 1) f' hj
      rwa [show i + (j + 1) = i + 1 + j by omega] at this)
    refine ⟨s2, ?_, ?_⟩
    · show (do visitByFeature typesHandler (arrayReaderVisit typesHandler parse (r.after (scratch i)) i 1); kernelLoop typesHandler parse scratch r fs.length ((i : Int) + 1)) s = _
      have h9 : visitByFeature typesHandler (arrayReaderVisit typesHandler parse (r.after (scratch i)) i 1) s = .ok () s1 := by
        have e : arrayReaderVisit typesHandler parse (r.after (scratch i)) i 1 = feed typesHandler t1 := by
          funext s
          refine (h2 TypesS typesHandler s).trans ?_
          unfold replay
          cases feed typesHandler t1 s with
          | ok u s' => cases u; rfl
          | err rc s' => rfl
          | ub => rfl
        rw [e]
        exact h5
      rw [M.bind_ok h9]
      exact h7
    · rw [List.foldl_cons, ← h6, h8]

theorem typesPush_run {parse : List Byte → Option Dbl} (hpe : parse [] = none) (hE : ∀ w, parse (69 :: w) = none)
    {kind : ArrayKind} {k : Kernel TypesS} (hr : ReaderOf kind.id k.reader)
    {a : AArray} {r : AReader} (hs : arrayReaderSetArray a k.reader = .ok () r) {fs : List (Option Geom)} (hf : kind.Features parse a fs)
    (scratch : Int → WktR × WkbR) :
    ∃ s', typesPush parse scratch a k = .ok () ⟨r.after (scratch a.length), s'⟩ ∧ s'.mask = fs.foldl maskAfter k.vis.mask := by
  obtain ⟨s', h1, h2⟩ := types_loop hpe hE hr hs scratch fs 0 k.vis (fun j f hj => by rw [Nat.zero_add]; exact hf.2 j f hj)
  refine ⟨s', ?_, h2⟩
  unfold typesPush kernelPushByFeature
  rw [M.bind_ok (kernelSetArray_ok hs), M.bind_run, M.get_run]
  dsimp only
  unfold onVis
  dsimp only
  have h3 : kernelLoop typesHandler parse scratch r a.length.toNat 0 k.vis = .ok () s' := by
    rw [hf.1]
    exact h1
  rw [M.bind_ok h3]
  rfl

theorem typesPush_set {parse : List Byte → Option Dbl} {scratch : Int → WktR × WkbR} {a : AArray} {k k' : Kernel TypesS} {out : Unit}
    (hp : typesPush parse scratch a k = .ok out k') : ∃ r, arrayReaderSetArray a k.reader = .ok () r := by
  cases hs : arrayReaderSetArray a k.reader with
  | ok u r => exact ⟨r, rfl⟩
  | err rc r =>
    unfold typesPush kernelPushByFeature at hp
    rw [M.bind_err (rc := rc) (s' := { k with reader := r }) (by unfold kernelSetArray; rw [hs])] at hp
    cases hp
  | ub =>
    unfold typesPush kernelPushByFeature at hp
    rw [M.bind_ub (by unfold kernelSetArray; rw [hs])] at hp
    cases hp

theorem types_all {parse : List Byte → Option Dbl} (hpe : parse [] = none) (hE : ∀ w, parse (69 :: w) = none) {kind : ArrayKind} :
    ∀ (ps : List Pushed) {k k' : Kernel TypesS}, ReaderOf kind.id k.reader → PushAll (typesPush parse) kind parse ps k k' →
      k'.vis.mask = (allFeatures ps).foldl maskAfter k.vis.mask
  | [], k, k', _, h => by cases h; rfl
  | p :: ps, k, k', hr, h => by
    obtain ⟨hf, out, k1, h1, h2⟩ := h
    obtain ⟨r, hs⟩ := typesPush_set h1
    obtain ⟨s', h3, h4⟩ := typesPush_run hpe hE hr hs hf p.scratch
    rw [h3] at h1
    cases h1
    have h5 := types_all hpe hE ps (k := ⟨r.after (p.scratch p.array.length), s'⟩) (readerOf_set hr hs _) h2
    rw [h5]
    show (allFeatures ps).foldl maskAfter s'.mask = _
    rw [h4, ← List.foldl_append]
    rfl

theorem fold_bit : ∀ (fs : List (Option Geom)) (m : BitVec 64) (i : Nat), i < 64 →
    ((fs.foldl maskAfter m).getLsbD i = true ↔ m.getLsbD i = true ∨ ∃ g, some g ∈ fs ∧ g.allCoords ≠ [] ∧ g.bit = i)
  | [], m, i, _ => by simp
  | f :: fs, m, i, hi => by
    rw [List.foldl_cons, fold_bit fs _ i hi, mask_bit m f i hi]
    constructor
    · rintro ((h | ⟨g, h1, h2, h3⟩) | ⟨g, h1, h2, h3⟩)
      · exact .inl h
      · exact .inr ⟨g, by simp [h1], h2, h3⟩
      · exact .inr ⟨g, by simp [h1], h2, h3⟩
    · rintro (h | ⟨g, h1, h2, h3⟩)
      · exact .inl (.inl h)
      · rcases List.mem_cons.mp h1 with h1 | h1
        · exact .inl (.inr ⟨g, h1.symm, h2, h3⟩)
        · exact .inr ⟨g, h1, h2, h3⟩

/-! ## Finishing -/

theorem and_bit (m : BitVec 64) (i : Nat) (hi : i < 64) : m &&& (1#64 <<< i) ≠ 0 ↔ m.getLsbD i = true := by
  constructor
  · intro h
    apply Classical.byContradiction
    intro hn
    apply h
    apply BitVec.eq_of_getLsbD_eq
    intro j hj
    simp only [BitVec.getLsbD_and, BitVec.getLsbD_shiftLeft, BitVec.getLsbD_one]
    by_cases hji : j = i
    · subst hji
      simp [hn]
    · simp
      omega
  · intro h hc
    have := congrArg (fun b => b.getLsbD i) hc
    simp only [BitVec.getLsbD_and, h, BitVec.getLsbD_shiftLeft, BitVec.getLsbD_one] at this
    simp [hi] at this

theorem typesValues_spec (m : BitVec 64) : ∀ (n i : Nat), i + n ≤ 40 → ∃ vs, typesValues m n i = some vs ∧ typesCount m n i = vs.length ∧
    vs.Pairwise (· < ·) ∧ ∀ c, c ∈ vs ↔ ∃ j, i ≤ j ∧ j < i + n ∧ m.getLsbD j = true ∧ typeCodes[j]? = some c
  | 0, i, _ => ⟨[], rfl, rfl, .nil, fun c => ⟨fun h => (by cases h), fun h => by
      obtain ⟨j, h1, h2, _⟩ := h
      omega⟩⟩
  | n + 1, i, hi => by
    obtain ⟨vs, h1, h2, h3, h4⟩ := typesValues_spec m n (i + 1) (by omega)
    have inc : ∀ (j k : Nat) (x y : Int), j < k → typeCodes[j]? = some x → typeCodes[k]? = some y → x < y := by
      have hp : typeCodes.Pairwise (· < ·) := by decide
      intro j k x y hjk hx hy
      obtain ⟨hj, rfl⟩ := List.getElem?_eq_some_iff.mp hx
      obtain ⟨hk, rfl⟩ := List.getElem?_eq_some_iff.mp hy
      exact List.pairwise_iff_getElem.mp hp j k hj hk hjk
    obtain ⟨c, hc⟩ : ∃ c, typeCodes[i]? = some c := ⟨_, List.getElem?_eq_getElem (show i < typeCodes.length by show i < 40; omega)⟩
    unfold typesValues typesCount
    rw [h1]
    by_cases hb : m &&& (1#64 <<< i) ≠ 0
    · refine ⟨c :: vs, ?_, ?_, ?_, ?_⟩
      · show (if m &&& (1#64 <<< i) ≠ 0 then (match typeCodes[i]? with | none => none | some c => some (c :: vs)) else some vs) = _
        rw [if_pos hb, hc]
      · rw [if_pos hb, h2, List.length_cons]; omega
      · refine List.pairwise_cons.mpr ⟨?_, h3⟩
        intro x hx
        obtain ⟨j, g1, g2, g3, g4⟩ := (h4 x).mp hx
        exact inc i j c x (by omega) hc g4
      · intro x
        rw [List.mem_cons, h4]
        constructor
        · rintro (rfl | ⟨j, g1, g2, g3, g4⟩)
          · exact ⟨i, by omega, by omega, (and_bit m i (by omega)).mp hb, hc⟩
          · exact ⟨j, by omega, by omega, g3, g4⟩
        · rintro ⟨j, g1, g2, g3, g4⟩
          by_cases hji : j = i
          · subst hji
            rw [hc] at g4
            cases g4
            exact .inl rfl
          · exact .inr ⟨j, by omega, by omega, g3, g4⟩
    · refine ⟨vs, ?_, ?_, h3, ?_⟩
      · show (if m &&& (1#64 <<< i) ≠ 0 then (match typeCodes[i]? with | none => none | some c => some (c :: vs)) else some vs) = _
        rw [if_neg hb]
      · rw [if_neg hb, h2]; omega
      · intro x
        rw [h4]
        constructor
        · rintro ⟨j, g1, g2, g3, g4⟩
          exact ⟨j, by omega, by omega, g3, g4⟩
        · rintro ⟨j, g1, g2, g3, g4⟩
          by_cases hji : j = i
          · subst hji
            exact absurd ((and_bit m j (by omega)).mpr g3) hb
          · exact ⟨j, by omega, by omega, g3, g4⟩

theorem typesFinish_run (k : Kernel TypesS) : ∃ out vs, typesFinish k = .ok out k ∧ IntArray out vs ∧ vs.Pairwise (· < ·) ∧
    ∀ c, c ∈ vs ↔ ∃ j, j < 40 ∧ k.vis.mask.getLsbD j = true ∧ typeCodes[j]? = some c := by
  obtain ⟨vs, h1, h2, h3, h4⟩ := typesValues_spec k.vis.mask 40 0 (by omega)
  refine ⟨.mk vs.length 0 0 [none, some (i32Bytes vs)] [], vs, ?_, ⟨rfl, rfl, rfl, rfl, _, rfl, ?_⟩, h3, ?_⟩
  · unfold typesFinish
    dsimp only
    rw [h1, h2]
    dsimp only
    rw [if_neg (by omega)]
  · intro i v hv
    refine i32At_i32Bytes hv ?_
    obtain ⟨j, _, _, _, hj⟩ := (h4 v).mp (List.mem_of_getElem? hv)
    have : ∀ x ∈ typeCodes, (-2 ^ 31 ≤ x ∧ x < 2 ^ 31) := by decide
    exact this v (List.mem_of_getElem? hj)
  · intro c
    rw [h4]
    constructor
    · rintro ⟨j, _, g2, g3, g4⟩; exact ⟨j, by omega, g3, g4⟩
    · rintro ⟨j, g2, g3, g4⟩; exact ⟨j, by omega, by omega, g3, g4⟩

end Verif
