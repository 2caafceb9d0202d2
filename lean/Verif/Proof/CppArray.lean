import Verif.Spec.CppArray
import Verif.Proof.WkbParserVisit
/-! Visiting nested list sequences. -/
namespace Verif
open Spec

theorem span_add {α} (f : Int → Option α) : ∀ (m n : Nat) (a : Int),
    span f a (m + n) = (do let x ← span f a m; let y ← span f (a + m) n; pure (x ++ y))
  | 0, n, a => by
    simp only [Nat.zero_add, span, Int.natCast_zero, Int.add_zero]
    cases span f a n <;> rfl
  | m + 1, n, a => by
    rw [show m + 1 + n = (m + n) + 1 by omega]
    simp only [span, span_add f m n (a + 1)]
    rw [show a + ((m + 1 : Nat) : Int) = a + 1 + (m : Int) by omega]
    cases f a with
    | none => rfl
    | some x =>
      simp only [Option.bind_eq_bind, Option.bind_some]
      cases span f (a + 1) m with
      | none => rfl
      | some xs =>
        simp only [Option.bind_some]
        cases span f (a + 1 + m) n <;> rfl

theorem span_length {α} {f : Int → Option α} : ∀ {n : Nat} {a : Int} {l : List α}, span f a n = some l → l.length = n
  | 0, a, l, h => by cases h; rfl
  | n + 1, a, l, h => by
    simp only [span, Option.bind_eq_bind, Option.bind_eq_some_iff] at h
    obtain ⟨x, _, xs, h2, h3⟩ := h
    cases h3
    simp [span_length h2]

theorem span_get {α} {f : Int → Option α} : ∀ {n : Nat} {a : Int} {l : List α}, span f a n = some l → ∀ i : Nat, i < n →
    f (a + i) = l[i]?
  | 0, a, l, h, i, hi => by omega
  | n + 1, a, l, h, i, hi => by
    simp only [span, Option.bind_eq_bind, Option.bind_eq_some_iff] at h
    obtain ⟨x, h1, xs, h2, h3⟩ := h
    cases h3
    cases i with
    | zero => simpa using h1
    | succ i =>
      have := span_get h2 i (by omega)
      rw [List.getElem?_cons_succ, ← this]
      congr 1; omega

theorem span_of_get {α} {f : Int → Option α} : ∀ {l : List α} {a : Int}, (∀ i : Nat, i < l.length → f (a + i) = l[i]?) →
    span f a l.length = some l
  | [], a, _ => rfl
  | x :: xs, a, h => by
    have h0 := h 0 (by simp)
    have ih := span_of_get (f := f) (l := xs) (a := a + 1) (fun i hi => by
      have := h (i + 1) (by simp; omega)
      rw [List.getElem?_cons_succ] at this
      rw [← this]; congr 1; omega)
    simp only [Int.natCast_zero, Int.add_zero, List.getElem?_cons_zero] at h0
    simp only [List.length_cons, span, h0, ih]
    rfl

/-- Iteration by index is a span from 0. -/
theorem mapM_cppRange' {α} (g : Int → Option α) : ∀ (n k : Nat),
    ((List.range' k n).map Int.ofNat).mapM g = span g k n
  | 0, k => rfl
  | n + 1, k => by
    rw [List.range'_succ, List.map_cons, List.mapM_cons, span, mapM_cppRange' g n (k + 1)]
    rfl

theorem mapM_cppRange {α} (g : Int → Option α) {l : Int} (hl : 0 ≤ l) :
    (do let is ← cppRange l; is.mapM g : Option (List α)) = span g 0 l.toNat := by
  unfold cppRange
  rw [if_neg (by omega)]
  simp only [Option.bind_eq_bind, Option.bind_some]
  rw [List.range_eq_range']
  exact mapM_cppRange' g _ 0

theorem span_shift {α} {f g : Int → Option α} {c : Int} (h : ∀ i, f (c + i) = g i) : ∀ (n : Nat) (a : Int),
    span f (c + a) n = span g a n
  | 0, a => rfl
  | n + 1, a => by
    simp only [span, h]
    rw [Int.add_assoc, span_shift h n (a + 1)]

theorem item_set (mem : CppMem) (o l : Int) (s : CppSq) : item mem (s.set o l) = item mem s := by
  cases s <;> rfl

theorem offset_set (o l : Int) (s : CppSq) : (s.set o l).offset = o := by cases s <;> rfl
theorem length_set (o l : Int) (s : CppSq) : (s.set o l).length = l := by cases s <;> rfl
theorem depth_slice (o l : Int) (s : CppSq) : (s.slice o l).depth = s.depth := CppSq.depth_set _ _ _

theorem verticesL_append (xs ys : List Val) : Val.verticesL (xs ++ ys) = Val.verticesL xs ++ Val.verticesL ys := by
  induction xs with
  | nil => rfl
  | cons x xs ih => simp [Val.verticesL, ih]

theorem list_item {mem : CppMem} {o l : Int} {off : List Int} {ch : CppSq} {k : Int} {v : Val}
    (h : item mem (.list o l off ch) k = some v) :
    ∃ a b ws, cppAt off k = some a ∧ cppAt off (k + 1) = some b ∧ a ≤ b ∧
      span (item mem ch) (ch.offset + a) (b - a).toNat = some ws ∧ v = .list ws := by
  simp only [item, Option.bind_eq_bind, Option.bind_eq_some_iff] at h
  obtain ⟨a, ha, b, hb, h⟩ := h
  split at h
  · rename_i hab
    simp only [Option.map_eq_some_iff] at h
    obtain ⟨ws, h1, h2⟩ := h
    exact ⟨a, b, ws, ha, hb, hab, h1, h2.symm⟩
  · cases h

/-- The lists stored at consecutive positions cover one contiguous stretch of the child. -/
theorem span_lists {mem : CppMem} {o l : Int} {off : List Int} {ch : CppSq} : ∀ (n : Nat) (k : Int) (vs : List Val),
    0 < n → span (item mem (.list o l off ch)) k n = some vs →
    ∃ a b ws, cppAt off k = some a ∧ cppAt off (k + n) = some b ∧ a ≤ b ∧
      span (item mem ch) (ch.offset + a) (b - a).toNat = some ws ∧ Val.verticesL ws = Val.verticesL vs
  | n + 1, k, vs, _, h => by
    simp only [span, Option.bind_eq_bind, Option.bind_eq_some_iff] at h
    obtain ⟨v, hv, vs', hvs, h⟩ := h
    cases h
    obtain ⟨a, b, ws, ha, hb, hab, hs, rfl⟩ := list_item hv
    cases n with
    | zero =>
      cases hvs
      exact ⟨a, b, ws, ha, hb, hab, hs, by simp [Val.verticesL, Val.vertices]⟩
    | succ n =>
      obtain ⟨a', b', ws', ha', hb', hab', hs', hv'⟩ := span_lists (n + 1) (k + 1) vs' (by omega) hvs
      rw [hb] at ha'
      cases ha'
      refine ⟨a, b', ws ++ ws', ha, ?_, by omega, ?_, ?_⟩
      · rw [← hb']; congr 1; omega
      · rw [show (b' - a).toNat = (b - a).toNat + (b' - b).toNat by omega, span_add, hs]
        rw [show ch.offset + a + ((b - a).toNat : Int) = ch.offset + b by omega, hs']
        rfl
      · rw [verticesL_append, hv']
        simp [Val.verticesL, Val.vertices]

theorem span_coords {mem : CppMem} {o l st : Int} {vs : List (Nat × Int)} : ∀ (n : Nat) (a : Int) (ws : List Val),
    span (item mem (.coords o l st vs)) a n = some ws →
    span (fun i => vs.mapM fun v => cppAt (mem v.1) (v.2 + i * st)) a n = some (Val.verticesL ws) ∧
      coordsIn ws = Val.verticesL ws ∧ Val.edgesL ws = []
  | 0, a, ws, h => by cases h; exact ⟨rfl, rfl, rfl⟩
  | n + 1, a, ws, h => by
    simp only [span, Option.bind_eq_bind, Option.bind_eq_some_iff] at h
    obtain ⟨v, hv, ws', hws, h⟩ := h
    cases h
    simp only [item, Option.map_eq_some_iff] at hv
    obtain ⟨c, hc, rfl⟩ := hv
    obtain ⟨h1, h2, h3⟩ := span_coords n (a + 1) ws' hws
    refine ⟨?_, ?_, ?_⟩
    · simp only [span, hc, h1]; rfl
    · simp [coordsIn, Val.verticesL, Val.vertices, h2]
    · simp [Val.edgesL, Val.edges, h3]

theorem coord_contents {mem : CppMem} {o l st : Int} {vs : List (Nat × Int)} {ws : List Val}
    (h : Contents mem (.coords o l st vs) ws) :
    (do let is ← cppRange l; is.mapM (cppCoordAt mem o st vs)) = some (Val.verticesL ws) := by
  obtain ⟨hl, h⟩ := h
  simp only [CppSq.length, CppSq.offset] at hl h
  have := (span_coords _ _ _ h).1
  rw [mapM_cppRange _ hl, ← this]
  show span _ 0 _ = span _ o l.toNat
  rw [← Int.add_zero o]
  refine (span_shift (fun i => ?_) _ _).symm
  simp only [cppCoordAt, Int.add_zero]

theorem vertices_contents {mem : CppMem} : ∀ (fuel : Nat) (s : CppSq) (vs : List Val), s.depth ≤ fuel → Contents mem s vs →
    cppVertices mem fuel s = some (Val.verticesL vs)
  | fuel, .coords o l st v, vs, _, h => by
    rw [cppVertices]; exact coord_contents h
  | 0, .list o l off ch, vs, hd, h => by simp [CppSq.depth] at hd
  | fuel + 1, .list o l off ch, vs, hd, h => by
    obtain ⟨hl, h⟩ := h
    simp only [CppSq.length, CppSq.offset] at hl h
    simp only [CppSq.depth] at hd
    rw [cppVertices, cppValidChild]
    by_cases h0 : l = 0
    · subst h0
      cases h
      simp only [if_true, Option.bind_eq_bind, Option.bind_some]
      refine vertices_contents fuel _ [] (by rw [depth_slice]; omega) ⟨?_, ?_⟩
      · rw [CppSq.slice, length_set]; omega
      · rw [CppSq.slice, length_set]; rfl
    · obtain ⟨a, b, ws, ha, hb, hab, hs, hv⟩ := span_lists l.toNat o vs (by omega) h
      rw [show o + (l.toNat : Int) = o + l by omega] at hb
      rw [if_neg h0, ← hv]
      simp only [ha, hb, Option.bind_eq_bind, Option.bind_some, Option.pure_def]
      refine vertices_contents fuel _ ws (by rw [depth_slice]; omega) ⟨?_, ?_⟩
      · rw [CppSq.slice, length_set]; omega
      · rw [CppSq.slice, length_set, offset_set, item_set]; exact hs

theorem element_contents {mem : CppMem} {o l : Int} {off : List Int} {ch : CppSq} {i : Int} {v : Val}
    (h : item mem (.list o l off ch) (o + i) = some v) :
    ∃ e ws, cppElement o off ch i = some e ∧ v = .list ws ∧ Contents mem e ws ∧ e.depth = ch.depth := by
  obtain ⟨a, b, ws, ha, hb, hab, hs, rfl⟩ := list_item h
  refine ⟨ch.set (ch.offset + a) (b - a), ws, ?_, rfl, ⟨?_, ?_⟩, CppSq.depth_set _ _ _⟩
  · simp [cppElement, ha, hb]
  · rw [length_set]; omega
  · rw [length_set, offset_set, item_set]; exact hs

theorem edgeLoop_pairs : ∀ (cs : List Coord) (c : Coord), cppEdgeLoop c cs = pairs (c :: cs)
  | [], c => rfl
  | d :: cs, c => by rw [cppEdgeLoop, pairs, edgeLoop_pairs cs d]

theorem span_map {α β} {f : Int → Option α} {g : Int → Option β} {r : α → β} : ∀ {n : Nat} {a : Int} {l : List α},
    span f a n = some l → (∀ i x, a ≤ i → i < a + n → f i = some x → g i = some (r x)) → span g a n = some (l.map r)
  | 0, a, l, h, _ => by cases h; rfl
  | n + 1, a, l, h, hg => by
    simp only [span, Option.bind_eq_bind, Option.bind_eq_some_iff] at h
    obtain ⟨x, h1, xs, h2, h3⟩ := h
    cases h3
    have := span_map (g := g) (r := r) h2 (fun i x h1 h2 h3 => hg i x (by omega) (by omega) h3)
    simp only [span, hg a x (by omega) (by omega) h1, this]
    rfl

theorem edgesL_flatten : ∀ (vs : List Val), (vs.map Val.edges).flatten = Val.edgesL vs
  | [] => rfl
  | v :: vs => by simp [Val.edgesL, edgesL_flatten vs]
theorem verticesL_flatten : ∀ (vs : List Val), (vs.map Val.vertices).flatten = Val.verticesL vs
  | [] => rfl
  | v :: vs => by simp [Val.verticesL, verticesL_flatten vs]

theorem coordsIn_lists {mem : CppMem} {o l : Int} {off : List Int} {ch : CppSq} : ∀ (n : Nat) (k : Int) (vs : List Val),
    span (item mem (.list o l off ch)) k n = some vs → coordsIn vs = []
  | 0, k, vs, h => by cases h; rfl
  | n + 1, k, vs, h => by
    simp only [span, Option.bind_eq_bind, Option.bind_eq_some_iff] at h
    obtain ⟨v, hv, vs', hvs, h⟩ := h
    cases h
    obtain ⟨_, _, ws, _, _, _, _, rfl⟩ := list_item hv
    simp [coordsIn, coordsIn_lists n _ _ hvs]

theorem shift_back {α} {f : Int → Option α} {c : Int} {n : Nat} {l : List α} (h : span f c n = some l) :
    span (fun i => f (c + i)) 0 n = some l := by
  rw [← h]
  rw [show span f c n = span f (c + 0) n by rw [Int.add_zero]]
  exact (span_shift (fun _ => rfl) _ _).symm

theorem edges_contents {mem : CppMem} : ∀ (fuel : Nat) (s : CppSq) (vs : List Val), s.depth ≤ fuel → Contents mem s vs →
    cppEdges mem fuel s = some (Val.edges (.list vs))
  | fuel, .coords o l st v, vs, _, h => by
    have hc := coord_contents h
    obtain ⟨hl, h⟩ := h
    simp only [CppSq.length, CppSq.offset] at hl h
    obtain ⟨_, h2, h3⟩ := span_coords _ _ _ h
    have hlen := span_length (span_coords _ _ _ h).1
    rw [cppEdges]
    simp only [Val.edges, h2, h3, List.append_nil]
    by_cases hlt : l < 2
    · rw [if_pos hlt]
      match hvl : Val.verticesL vs, hlen with
      | [], _ => rfl
      | [_], _ => rfl
      | _ :: _ :: _, hlen => simp at hlen; omega
    · rw [if_neg hlt]
      simp only [Option.bind_eq_bind] at hc ⊢
      rw [← Option.bind_assoc, hc]
      simp only [Option.bind_some]
      cases Val.verticesL vs with
      | nil => rfl
      | cons c cs => simp only [edgeLoop_pairs]
  | 0, .list o l off ch, vs, hd, h => by simp [CppSq.depth] at hd
  | fuel + 1, .list o l off ch, vs, hd, h => by
    obtain ⟨hl, h⟩ := h
    simp only [CppSq.length, CppSq.offset] at hl h
    simp only [CppSq.depth] at hd
    have hsp : span (fun i => (do let e ← cppElement o off ch i; cppEdges mem fuel e)) 0 l.toNat =
        some (vs.map Val.edges) := by
      refine span_map (shift_back h) ?_
      intro i x _ _ hx
      obtain ⟨e, ws, he, rfl, hcont, hdep⟩ := element_contents hx
      simp only [he, Option.bind_eq_bind, Option.bind_some]
      exact edges_contents fuel e ws (by omega) hcont
    have hm := mapM_cppRange (fun i => (do let e ← cppElement o off ch i; cppEdges mem fuel e)) hl
    rw [cppEdges]
    simp only [Option.bind_eq_bind] at hm hsp ⊢
    rw [← Option.bind_assoc, hm, hsp]
    simp only [Option.bind_some, Option.pure_def, edgesL_flatten, Val.edges, coordsIn_lists _ _ _ h, pairs, List.nil_append]

theorem span_sub {α} {f : Int → Option α} {a : Int} {n : Nat} {l : List α} (h : span f a n = some l) {o k : Nat}
    (hk : o + k ≤ n) : span f (a + o) k = some ((l.drop o).take k) := by
  have hlen := span_length h
  have hl : ((l.drop o).take k).length = k := by simp; omega
  have := span_of_get (f := f) (l := (l.drop o).take k) (a := a + o) (by
    intro i hi
    rw [hl] at hi
    rw [List.getElem?_take_of_lt hi, List.getElem?_drop, ← span_get h (o + i) (by omega)]
    congr 1; omega)
  rwa [hl] at this

theorem slice_contents {mem : CppMem} {s : CppSq} {vs : List Val} (h : Contents mem s vs) {o k : Nat}
    (hk : o + k ≤ vs.length) : Contents mem (s.slice o k) ((vs.drop o).take k) := by
  have hlen := span_length h.2
  refine ⟨by rw [CppSq.slice, length_set]; omega, ?_⟩
  rw [CppSq.slice, length_set, offset_set, item_set]
  exact span_sub h.2 (by rw [Int.toNat_natCast]; omega)

theorem present_all {α} : ∀ (fl : List Bool) (l : List α), fl.length = l.length → (∀ b ∈ fl, b = true) → present fl l = l
  | [], [], _, _ => rfl
  | b :: fl, x :: l, h, hb => by
    rw [present, if_pos (hb b (by simp)), present_all fl l (by simpa using h) (fun b hb' => hb b (by simp [hb']))]

theorem present_flatten {α} {r : Val → List α} : ∀ (fl : List Bool) (vs : List Val), fl.length = vs.length →
    ((List.zipWith (fun b v => if b then r v else []) fl vs)).flatten = ((present fl vs).map r).flatten
  | [], [], _ => rfl
  | b :: fl, v :: vs, h => by
    have ih := present_flatten (r := r) fl vs (by simpa using h)
    rw [List.zipWith_cons_cons, List.flatten_cons, ih]
    cases b <;> simp [present]

theorem isValid_of_flags {a : CppArr} {fl : List Bool} (h : Flags a fl) {i : Nat} (hi : i < fl.length) :
    a.isValid i = fl[i]? := by
  obtain ⟨h1, h2, h3⟩ := h
  unfold CppArr.isValid
  cases hv : a.validity with
  | none =>
    rw [hv] at h3
    simp only [List.getElem?_eq_getElem hi, h3 _ (List.getElem_mem hi)]
  | some bits =>
    rw [hv] at h3
    simp only []
    rw [if_neg (by omega), ← h3 i hi, bitAt]
    rw [show ((i : Int) + a.value.offset).toNat = a.value.offset.toNat + i by omega]

/-- Iterating with a validity bitmap. -/
theorem masked {α} {mem : CppMem} {a : CppArr} {fl : List Bool} {vs : List Val} {f : Int → Option (List α)} {r : Val → List α}
    (hf : Flags a fl) (hc : Contents mem a.value vs)
    (h : ∀ (i : Int) v, item mem a.value (a.value.offset + i) = some v → f i = some (r v)) :
    (do let is ← cppRange a.value.length
        let vss ← is.mapM fun i => do
          let v ← a.isValid i
          if v then f i else pure []
        pure vss.flatten) = some ((present fl vs).map r).flatten := by
  obtain ⟨hl, hs⟩ := hc
  have hlen := span_length hs
  have hfl := hf.1
  have hz : (List.zipWith (fun b v => if b then r v else []) fl vs).length = a.value.length.toNat := by simp; omega
  have hsp : span (fun i => (do let v ← a.isValid i; if v then f i else pure [])) 0 a.value.length.toNat =
      some (List.zipWith (fun b v => if b then r v else []) fl vs) := by
    rw [← hz]
    refine span_of_get ?_
    intro i hi
    rw [hz] at hi
    have hi1 : i < fl.length := by omega
    have hi2 : i < vs.length := by omega
    have hg := span_get hs i hi
    rw [List.getElem?_eq_getElem hi2] at hg
    rw [Int.zero_add, isValid_of_flags hf hi1, List.getElem?_zipWith, List.getElem?_eq_getElem hi1,
      List.getElem?_eq_getElem hi2]
    simp only [Option.bind_eq_bind, Option.bind_some]
    cases fl[i] with
    | true => simp only [if_true]; exact h i _ hg
    | false => rfl
  have hm := mapM_cppRange (fun i => (do let v ← a.isValid i; if v then f i else pure [])) hl
  simp only [Option.bind_eq_bind] at hm hsp ⊢
  rw [← Option.bind_assoc, hm, hsp]
  simp only [Option.bind_some, Option.pure_def]
  rw [present_flatten fl vs (by omega)]

theorem itemVertices_run {mem : CppMem} {s : CppSq} {i : Int} {v : Val} (h : item mem s (s.offset + i) = some v) :
    cppItemVertices mem s i = some v.vertices := by
  cases s with
  | coords o l st vs =>
    simp only [CppSq.offset, item, Option.map_eq_some_iff] at h
    obtain ⟨c, hc, rfl⟩ := h
    simp only [cppItemVertices, cppCoordAt, hc, Option.map_some]
    rfl
  | list o l off ch =>
    obtain ⟨e, ws, he, rfl, hcont, hdep⟩ := element_contents h
    simp only [cppItemVertices, he, Option.bind_eq_bind, Option.bind_some]
    exact vertices_contents _ e ws (Nat.le_refl _) hcont

theorem itemEdges_run {mem : CppMem} {o l : Int} {off : List Int} {ch : CppSq} {i : Int} {v : Val}
    (h : item mem (.list o l off ch) (o + i) = some v) :
    cppItemEdges mem (.list o l off ch) i = some v.edges := by
  obtain ⟨e, ws, he, rfl, hcont, hdep⟩ := element_contents h
  simp only [cppItemEdges, he, Option.bind_eq_bind, Option.bind_some]
  exact edges_contents _ e ws (Nat.le_refl _) hcont

end Verif
