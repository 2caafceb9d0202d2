import Verif.Proof.NativeAppendStep
/-! # Native writer: histories of appended views and nulls -/
namespace Verif
open Spec

/-! ## Shapes of what is stored -/

theorem shape_cases {g : Int} {d : Dims} {x y : Geom} (h : x.appended g d = some y) :
    y = emptyAs g d ∧ x.allCoords = [] ∨ x.allCoords ≠ [] ∧
    ((g = 1 ∧ ∃ c, y = .point d [c]) ∨ (g = 2 ∧ ∃ cs, y = .linestring d cs) ∨ (g = 3 ∧ ∃ rs, y = .polygon d rs) ∨
     (g = 4 ∧ ∃ cs : List Coord, y = .multi .multipoint d (cs.map fun c => .point d [c])) ∨
     (g = 5 ∧ ∃ ls : List (List Coord), y = .multi .multilinestring d (ls.map (.linestring d))) ∨
     (g = 6 ∧ ∃ ps : List (List (List Coord)), y = .multi .multipolygon d (ps.map (.polygon d)))) := by
  unfold Geom.appended at h
  by_cases hx : x.allCoords = []
  · rw [if_pos (by simpa using hx)] at h
    cases h
    exact .inl ⟨rfl, hx⟩
  refine .inr ⟨hx, ?_⟩
  rw [if_neg (by simpa using hx)] at h
  by_cases h1 : g = 1
  · rw [if_pos h1] at h
    split at h
    · rename_i hl
      cases h
      refine .inl ⟨h1, ?_⟩
      have hl' : (x.coordsAs d).length = 1 := (List.length_map _).trans hl
      match x.coordsAs d, hl' with
      | [c], _ => exact ⟨c, rfl⟩
    · cases h
  rw [if_neg h1] at h
  by_cases h2 : g = 2
  · rw [if_pos h2] at h
    obtain ⟨cs, -, rfl⟩ := Option.map_eq_some_iff.mp h
    exact .inr (.inl ⟨h2, cs, rfl⟩)
  rw [if_neg h2] at h
  by_cases h3 : g = 3
  · rw [if_pos h3] at h
    obtain ⟨cs, -, rfl⟩ := Option.map_eq_some_iff.mp h
    exact .inr (.inr (.inl ⟨h3, cs, rfl⟩))
  rw [if_neg h3] at h
  by_cases h4 : g = 4
  · rw [if_pos h4] at h
    obtain ⟨cs, -, rfl⟩ := Option.map_eq_some_iff.mp h
    exact .inr (.inr (.inr (.inl ⟨h4, cs, rfl⟩)))
  rw [if_neg h4] at h
  by_cases h5 : g = 5
  · rw [if_pos h5] at h
    obtain ⟨cs, -, rfl⟩ := Option.map_eq_some_iff.mp h
    exact .inr (.inr (.inr (.inr (.inl ⟨h5, cs, rfl⟩))))
  rw [if_neg h5] at h
  by_cases h6 : g = 6
  · rw [if_pos h6] at h
    obtain ⟨cs, -, rfl⟩ := Option.map_eq_some_iff.mp h
    exact .inr (.inr (.inr (.inr (.inr ⟨h6, cs, rfl⟩))))
  · rw [if_neg h6] at h
    cases h

/-- What a slot stores: of a null, an empty geometry. -/
def StoredIn (g : Int) (d : Dims) (f : Option Geom) (y : Geom) : Prop :=
  match f with
  | none => y = emptyAs g d
  | some x => x.appended g d = some y

theorem stored_shape {g : Int} (hg : 1 ≤ g ∧ g ≤ 6) {d : Dims} {f : Option Geom} {y : Geom} (h : StoredIn g d f y) :
    (g = 1 ∧ ∃ c, y = .point d [c]) ∨ (g = 2 ∧ ∃ cs, y = .linestring d cs) ∨ (g = 3 ∧ ∃ rs, y = .polygon d rs) ∨
     (g = 4 ∧ ∃ cs : List Coord, y = .multi .multipoint d (cs.map fun c => .point d [c])) ∨
     (g = 5 ∧ ∃ ls : List (List Coord), y = .multi .multilinestring d (ls.map (.linestring d))) ∨
     (g = 6 ∧ ∃ ps : List (List (List Coord)), y = .multi .multipolygon d (ps.map (.polygon d))) := by
  have he : y = emptyAs g d → (g = 1 ∧ ∃ c, y = .point d [c]) ∨ (g = 2 ∧ ∃ cs, y = .linestring d cs) ∨ (g = 3 ∧ ∃ rs, y = .polygon d rs) ∨
     (g = 4 ∧ ∃ cs : List Coord, y = .multi .multipoint d (cs.map fun c => .point d [c])) ∨
     (g = 5 ∧ ∃ ls : List (List Coord), y = .multi .multilinestring d (ls.map (.linestring d))) ∨
     (g = 6 ∧ ∃ ps : List (List (List Coord)), y = .multi .multipolygon d (ps.map (.polygon d))) := fun e => by
    subst e
    clear h
    have : g = 1 ∨ g = 2 ∨ g = 3 ∨ g = 4 ∨ g = 5 ∨ g = 6 := by omega
    rcases this with rfl | rfl | rfl | rfl | rfl | rfl
    · exact .inl ⟨rfl, _, rfl⟩
    · exact .inr (.inl ⟨rfl, _, rfl⟩)
    · exact .inr (.inr (.inl ⟨rfl, _, rfl⟩))
    · exact .inr (.inr (.inr (.inl ⟨rfl, [], rfl⟩)))
    · exact .inr (.inr (.inr (.inr (.inl ⟨rfl, [], rfl⟩))))
    · exact .inr (.inr (.inr (.inr (.inr ⟨rfl, [], rfl⟩))))
  cases f with
  | none => exact he h
  | some x =>
    rcases shape_cases h with ⟨e, -⟩ | ⟨-, h⟩
    · exact he e
    · exact h

theorem rows_of {α β : Type} {mk : α → β} : ∀ {ys : List β}, (∀ y ∈ ys, ∃ r, y = mk r) → ∃ rows : List α, ys = rows.map mk
  | [], _ => ⟨[], rfl⟩
  | y :: ys, h => by
    obtain ⟨r, rfl⟩ := h y (by simp)
    obtain ⟨rows, rfl⟩ := rows_of (mk := mk) (ys := ys) fun y hy => h y (List.mem_cons_of_mem _ hy)
    exact ⟨r :: rows, rfl⟩

theorem Pairs.snoc {α β : Type} {P : α → β → Prop} : ∀ {xs : List α} {ys : List β} {x : α} {y : β}, Pairs P xs ys → P x y → Pairs P (xs ++ [x]) (ys ++ [y])
  | [], [], _, _, _, h => ⟨h, trivial⟩
  | _ :: _, _ :: _, _, _, h, h' => ⟨h.1, Pairs.snoc h.2 h'⟩
  | [], _ :: _, _, _, h, _ => h.elim
  | _ :: _, [], _, _, h, _ => h.elim

theorem Pairs.get' {α β : Type} {P : α → β → Prop} : ∀ {xs : List α} {ys : List β}, Pairs P xs ys → ∀ {i : Nat} {y : β}, ys[i]? = some y → ∃ x, xs[i]? = some x ∧ P x y
  | [], [], _, _, _, h => by simp at h
  | x :: _, y :: _, h, 0, y', e => ⟨x, rfl, by cases e; exact h.1⟩
  | _ :: _, _ :: _, h, i + 1, _, e => Pairs.get' h.2 (i := i) e
  | [], _ :: _, h, _, _, _ => h.elim
  | _ :: _, [], h, _, _, _ => h.elim

/-! ## Bounds -/

theorem emptyAs_offs {g : Int} (hg : 1 ≤ g ∧ g ≤ 6) (d : Dims) (i : Nat) : (offsIn (emptyAs g d) i).sum = 0 := by
  have : g = 1 ∨ g = 2 ∨ g = 3 ∨ g = 4 ∨ g = 5 ∨ g = 6 := by omega
  rcases this with rfl | rfl | rfl | rfl | rfl | rfl <;> match i with
    | 0 => rfl
    | 1 => rfl
    | 2 => rfl
    | _ + 3 => rfl

theorem lines_sum (d : Dims) (ls : List (List Coord)) : offsIn (.multi .multilinestring d (ls.map (.linestring d))) 1 = ls.map List.length := by
  show List.map _ (ls.map (Geom.linestring d)) = _
  rw [List.map_map]
  apply List.map_congr_left
  intro l _
  exact List.length_map _

theorem polygons_offs1 (d : Dims) (ps : List (List (List Coord))) : offsIn (.multi .multipolygon d (ps.map (.polygon d))) 1 = ps.map List.length := by
  show List.map _ (ps.map (Geom.polygon d)) = _
  rw [List.map_map]
  rfl

theorem polygons_offs2 (d : Dims) (ps : List (List (List Coord))) :
    offsIn (.multi .multipolygon d (ps.map (.polygon d))) 2 = ps.flatten.map List.length := by
  show List.flatMap _ (ps.map (Geom.polygon d)) = _
  rw [List.flatMap_map, List.map_flatten]
  rfl

theorem rings_len {m : Mem} {s : Dims} {rs : List (List Coord)} {ns : List Node} (h : RingsDenote m s rs ns) : ns.length = rs.length := by
  have := congrArg List.length (rings_nodes h)
  rwa [List.length_map, List.length_map] at this

theorem lines_len {m : Mem} {ps : List Geom} {ns : List Node} (ht : Geom.TypedL .multilinestring ps) (h : Geom.DenotedL m ps ns) :
    ns.length = ps.length := by
  have := congrArg List.length (lines_nodes ht h)
  rwa [List.length_map, List.length_map] at this

theorem polys_len {m : Mem} : ∀ {ps : List Geom} {ns : List Node}, Geom.TypedL .multipolygon ps → Geom.DenotedL m ps ns →
    ns.length = ps.length + (ps.map fun p => (ringsOf p).length).sum
  | [], ns, _, h => by rw [show ns = [] from h]; rfl
  | p :: ps, ns, ht, h => by
    obtain ⟨n1, n2, rfl, h1, h2⟩ := h
    have ih := polys_len ht.2.2 h2
    cases p with
    | polygon s rs =>
      obtain ⟨n, ns', rfl, -, -, hs, -, hr⟩ := h1
      have := rings_len hr
      rw [List.length_append, List.length_cons, ih, List.length_cons, List.map_cons, List.sum_cons]
      show ns'.length + 1 + _ = ps.length + 1 + (rs.length + _)
      omega
    | point => exact ht.1.elim
    | linestring => exact ht.1.elim
    | multi => exact ht.1.elim

/-- Lists are bounded by nodes, those of the last level by coordinates. -/
theorem offs_le {g : Int} (hg : 1 ≤ g ∧ g ≤ 6) {d : Dims} {m : Mem} {v : View} {x y : Geom} (hv : ViewDenotes m v x) (ht : x.Typed)
    (hy : x.appended g d = some y) (i : Nat) : (offsIn y i).sum ≤ if i + 1 = listDepth g then x.allCoords.length else v.nodes.length := by
  rcases shape_cases hy with ⟨rfl, -⟩ | ⟨hx, hs⟩
  · rw [emptyAs_offs hg]
    exact Nat.zero_le _
  have hc : (crdsIn y).length = x.allCoords.length := by
    rw [appended_coords hx ht hy]
    exact List.length_map _
  unfold ViewDenotes at hv
  generalize v.nodes = nodes at hv
  unfold Geom.appended at hy
  rw [if_neg (by simpa using hx)] at hy
  rcases hs with ⟨rfl, c, rfl⟩ | ⟨rfl, cs, rfl⟩ | ⟨rfl, rs, rfl⟩ | ⟨rfl, cs, rfl⟩ | ⟨rfl, ls, rfl⟩ | ⟨rfl, ps, rfl⟩
  · exact Nat.zero_le _
  · match i with
    | 0 =>
      rw [if_pos (show 0 + 1 = listDepth 2 by decide), ← hc]
      unfold crdsIn
      rw [show (Geom.linestring d cs).allCoords = cs.map (d, ·) from rfl, crds_seq]
      exact Nat.le_refl _
    | i + 1 => exact Nat.zero_le _
  · match i with
    | 0 =>
      rw [if_neg (by decide), show offsIn (.polygon d rs) 0 = [rs.length] from rfl, List.sum_singleton]
      rw [if_neg (by decide), if_neg (by decide), if_pos rfl] at hy
      obtain ⟨rs', e, e'⟩ := Option.map_eq_some_iff.mp hy
      cases e'
      unfold Geom.asRings at e
      split at e
      · cases e
        obtain ⟨n, ns', rfl, -, -, -, -, hr⟩ := hv
        rw [List.length_map, List.length_cons, rings_len hr]
        omega
      · cases e
        obtain ⟨n, ns', rfl, -, -, -, -, hl⟩ := hv
        have := polys_len ht hl
        rw [List.map_singleton, List.sum_singleton] at this
        rename_i s' rs'
        have e3 : (ringsOf (Geom.polygon s' rs')).length = rs'.length := rfl
        rw [List.length_map, List.length_cons, this, e3]
        omega
      · cases e
    | 1 =>
      rw [if_pos (show 1 + 1 = listDepth 3 by decide), ← hc]
      unfold crdsIn
      rw [show (Geom.polygon d rs).allCoords = rs.flatten.map (d, ·) from rfl, crds_seq, List.length_flatten]
      exact Nat.le_refl _
    | i + 2 => exact Nat.zero_le _
  · match i with
    | 0 =>
      rw [if_pos (show 0 + 1 = listDepth 4 by decide), ← hc, crdsIn_points]
      show ([_] : List Nat).sum ≤ _
      rw [List.sum_singleton, List.length_map]
      exact Nat.le_refl _
    | i + 1 => exact Nat.zero_le _
  · match i with
    | 0 =>
      rw [if_neg (by decide)]
      show ([_] : List Nat).sum ≤ _
      rw [List.sum_singleton, List.length_map]
      rw [if_neg (by decide), if_neg (by decide), if_neg (by decide), if_neg (by decide), if_pos rfl] at hy
      obtain ⟨ls', e, e'⟩ := Option.map_eq_some_iff.mp hy
      have hll : ls' = ls := by
        have := congrArg crdsIn e'
        have h2 : (Geom.multi .multilinestring d (ls'.map (.linestring d))) = Geom.multi .multilinestring d (ls.map (.linestring d)) := e'
        injection h2 with _ _ h3
        exact List.map_inj_right (fun _ _ h => by cases h; rfl) |>.mp h3
      subst hll
      unfold Geom.asLines at e
      split at e
      · cases e
        obtain ⟨n, rfl, -⟩ := hv
        exact Nat.le_refl _
      · cases e
        obtain ⟨n, ns', rfl, -, -, -, -, hl⟩ := hv
        rw [List.length_map, List.length_cons, lines_len ht hl]
        omega
      · cases e
    | 1 =>
      rw [if_pos (show 1 + 1 = listDepth 5 by decide), ← hc, crdsIn_lines, lines_sum, List.length_flatten]
      exact Nat.le_refl _
    | i + 2 => exact Nat.zero_le _
  · rw [if_neg (by decide), if_neg (by decide), if_neg (by decide), if_neg (by decide), if_neg (by decide), if_pos rfl] at hy
    obtain ⟨ps', e, e'⟩ := Option.map_eq_some_iff.mp hy
    have hpp : ps' = ps := by
      have h2 : (Geom.multi .multipolygon d (ps'.map (.polygon d))) = Geom.multi .multipolygon d (ps.map (.polygon d)) := e'
      injection h2 with _ _ h3
      exact List.map_inj_right (fun _ _ h => by cases h; rfl) |>.mp h3
    subst hpp
    have hnodes : ps'.length ≤ nodes.length ∧ (ps'.map List.length).sum ≤ nodes.length := by
      unfold Geom.asPolygons at e
      split at e
      · cases e
        obtain ⟨n, ns', rfl, -, -, -, -, hr⟩ := hv
        have := rings_len hr
        rw [List.map_singleton, List.sum_singleton, List.length_map]
        simp only [List.length_cons, List.length_nil]
        omega
      · rename_i s qs
        cases e
        obtain ⟨n, ns', rfl, -, -, -, -, hl⟩ := hv
        have := polys_len ht hl
        have e5 : (qs.map (Geom.ringsAs d)).map List.length = qs.map fun p => (ringsOf p).length := by
          rw [List.map_map]
          apply List.map_congr_left
          intro p hp
          obtain ⟨s', rs, rfl⟩ : ∃ s' rs, p = .polygon s' rs := typedL_mem (kd := .multipolygon) ht p hp
          exact List.length_map _
        rw [e5, List.length_map, List.length_cons, this]
        omega
      · cases e
    match i with
    | 0 =>
      rw [if_neg (by decide)]
      show ([_] : List Nat).sum ≤ _
      rw [List.sum_singleton, List.length_map]
      exact hnodes.1
    | 1 =>
      rw [if_neg (by decide), polygons_offs1]
      exact hnodes.2
    | 2 =>
      rw [if_pos (show 2 + 1 = listDepth 6 by decide), ← hc, crdsIn_polygons, polygons_offs2, List.length_flatten]
      exact Nat.le_refl _
    | i + 3 => exact Nat.zero_le _

/-! ## Histories -/

section
variable {g : Int} {d : Dims} {k : CoordKind}

theorem flatMap_snoc {α β : Type} (l : List α) (x : α) (f : α → List β) : (l ++ [x]).flatMap f = l.flatMap f ++ f x := by
  rw [List.flatMap_append, List.flatMap_singleton]

/-- All of it. `c` and `n` are numbers of coordinates and nodes so far. -/
theorem append_all (hg : 1 ≤ g ∧ g ≤ 6) (junk : Nat → Byte) {m : Mem} (hm : m 0 = emptyPointCoords) :
    ∀ (vs : List (Option View)) (fs fs0 : List (Option Geom)) (ys : List Geom) (w : NWriter) (n c : Nat), Features m d vs fs →
    (∀ x, some x ∈ fs → (x.appended g d).isSome) →
    (g = 1 ∨ n + numNodes vs ≤ 2147483647 ∧ c + numCoords fs ≤ 2147483647) →
    Pairs (StoredIn g d) fs0 ys → (∀ i, (ys.flatMap (offsIn · i)).sum ≤ if i + 1 = listDepth g then c else n) →
    AP g d k w (fun i => ys.flatMap (offsIn · i)) (ys.flatMap crdsIn) (fs0.map Option.isSome) →
    ∃ w' ys', appendAll junk m vs w = .ok () w' ∧ Pairs (StoredIn g d) (fs0 ++ fs) ys' ∧
      AP g d k w' (fun i => ys'.flatMap (offsIn · i)) (ys'.flatMap crdsIn) ((fs0 ++ fs).map Option.isSome) ∧
      ∀ i, (ys'.flatMap (offsIn · i)).sum ≤ if i + 1 = listDepth g then c + numCoords fs else n + numNodes vs
  | [], [], fs0, ys, w, n, c, _, _, _, hp, hb, h => by
    rw [List.append_nil]
    exact ⟨w, ys, rfl, hp, h, hb⟩
  | none :: vs, none :: fs, fs0, ys, w, n, c, hf, hs, hmax, hp, hb, h => by
    have h1 : ∃ w1, nwAppendNull junk w = .ok () w1 ∧ AP g d k w1 (fun i => ys.flatMap (offsIn · i) ++ offsIn (emptyAs g d) i)
        (ys.flatMap crdsIn ++ crdsIn (emptyAs g d)) (fs0.map Option.isSome ++ [false]) := by
      refine null_ap hg h junk fun i => ?_
      rcases hmax with rfl | hmax
      · have : ∀ y ∈ ys, offsIn y i = [] := by
          intro y hy
          obtain ⟨t, ht⟩ := List.mem_iff_getElem?.mp hy
          obtain ⟨f, -, hf⟩ := hp.get' ht
          rcases stored_shape hg hf with ⟨-, c, rfl⟩ | ⟨h, -⟩ | ⟨h, -⟩ | ⟨h, -⟩ | ⟨h, -⟩ | ⟨h, -⟩
          · rfl
          all_goals omega
        rw [List.flatMap_eq_nil_iff.mpr this]
        decide
      · have := hb i
        split at this <;> omega
    obtain ⟨w1, e1, e2⟩ := h1
    obtain ⟨w2, ys', e3, e4, e5, e6⟩ := append_all hg junk hm vs fs (fs0 ++ [none]) (ys ++ [emptyAs g d]) w1 n c hf
      (fun x hx => hs x (by simp [hx]))
      (hmax.imp id fun ⟨a, b⟩ => ⟨by simpa [numNodes] using a, by simpa [numCoords] using b⟩)
      (hp.snoc rfl) (fun i => by rw [flatMap_snoc, List.sum_append, emptyAs_offs hg]; exact hb i)
      (by simp only [flatMap_snoc, List.map_append]; exact e2)
    rw [List.append_assoc] at e4 e5
    refine ⟨w2, ys', ?_, e4, e5, fun i => by simpa [numNodes, numCoords] using e6 i⟩
    show (nwAppendNull junk >>= fun _ => appendAll junk m vs) w = _
    rw [M.bind_ok e1, e3]
  | some v :: vs, some x :: fs, fs0, ys, w, n, c, hf, hs, hmax, hp, hb, h => by
    obtain ⟨hv, hf⟩ := hf
    obtain ⟨y, hy⟩ := Option.isSome_iff_exists.mp (hs x (by simp))
    have hole := offs_le hg hv.1 hv.2.1 hy
    have hnn : numNodes (some v :: vs) = v.nodes.length + numNodes vs := by simp [numNodes]
    have hnc : numCoords (some x :: fs) = x.allCoords.length + numCoords fs := by simp [numCoords]
    rw [hnn, hnc] at hmax
    have h1 : ∃ w1, nwAppend junk m v w = .ok () w1 ∧ AP g d k w1 (fun i => ys.flatMap (offsIn · i) ++ offsIn y i)
        (ys.flatMap crdsIn ++ crdsIn y) (fs0.map Option.isSome ++ [true]) := by
      refine append_ap hg h junk hm hv hy ?_ fun i => ?_
      · rcases hmax with rfl | hmax
        · have : x.allCoords.length ≤ 1 := by
            unfold Geom.appended at hy
            by_cases hx : x.allCoords = []
            · rw [hx]; exact Nat.zero_le _
            rw [if_neg (by simpa using hx), if_pos rfl] at hy
            split at hy
            · omega
            · cases hy
          omega
        · omega
      · rcases hmax with rfl | hmax
        · have hnil : ∀ f y, StoredIn 1 d f y → offsIn y i = [] := by
            intro f y hf
            rcases stored_shape hg hf with ⟨-, c, rfl⟩ | ⟨h, -⟩ | ⟨h, -⟩ | ⟨h, -⟩ | ⟨h, -⟩ | ⟨h, -⟩
            · rfl
            all_goals omega
          have : ∀ y ∈ ys, offsIn y i = [] := by
            intro y hy
            obtain ⟨t, ht⟩ := List.mem_iff_getElem?.mp hy
            obtain ⟨f, -, hf⟩ := hp.get' ht
            exact hnil f y hf
          rw [List.flatMap_eq_nil_iff.mpr this, hnil (some x) y hy]
          decide
        · have h1 := hb i
          have h2 := hole i
          split at h1 <;> rename_i hi
          · rw [if_pos hi] at h2; omega
          · rw [if_neg hi] at h2; omega
    obtain ⟨w1, e1, e2⟩ := h1
    obtain ⟨w2, ys', e3, e4, e5, e6⟩ := append_all hg junk hm vs fs (fs0 ++ [some x]) (ys ++ [y]) w1 (n + v.nodes.length) (c + x.allCoords.length) hf
      (fun x hx => hs x (by simp [hx])) (hmax.imp id fun ⟨a, b⟩ => ⟨by omega, by omega⟩)
      (hp.snoc hy) (fun i => by
        rw [flatMap_snoc, List.sum_append]
        have h1 := hb i
        have h2 := hole i
        split at h1 <;> rename_i hi
        · rw [if_pos hi] at h2 ⊢; omega
        · rw [if_neg hi] at h2 ⊢; omega)
      (by simp only [flatMap_snoc, List.map_append]; exact e2)
    rw [List.append_assoc] at e4 e5
    refine ⟨w2, ys', ?_, e4, e5, fun i => ?_⟩
    · show (nwAppend junk m v >>= fun _ => appendAll junk m vs) w = _
      rw [M.bind_ok e1, e3]
    · rw [hnn, hnc, ← Nat.add_assoc, ← Nat.add_assoc]
      exact e6 i
  | [], _ :: _, _, _, _, _, _, hf, _, _, _, _, _ => hf.elim
  | none :: _, [], _, _, _, _, _, hf, _, _, _, _, _ => hf.elim
  | some _ :: _, [], _, _, _, _, _, hf, _, _, _, _, _ => hf.elim
  | none :: _, some _ :: _, _, _, _, _, _, hf, _, _, _, _, _ => hf.elim
  | some _ :: _, none :: _, _, _, _, _, _, hf, _, _, _, _, _ => hf.elim

theorem eq_ns3 {f : Nat → List Nat} {a b c : List Nat} (h0 : f 0 = a) (h1 : f 1 = b) (h2 : f 2 = c) (h3 : ∀ i, f (i + 3) = []) : f = ns3 a b c := by
  funext i
  match i with
  | 0 => exact h0
  | 1 => exact h1
  | 2 => exact h2
  | i + 3 => exact h3 i

theorem flatMap_none {α β : Type} (l : List α) {f : α → List β} (h : ∀ x, f x = []) : l.flatMap f = [] := by
  rw [List.flatMap_eq_nil_iff]
  exact fun x _ => h x

theorem flatMap_one {α β : Type} (l : List α) {f : α → List β} {f' : α → β} (h : ∀ x, f x = [f' x]) : l.flatMap f = l.map f' := by
  induction l with
  | nil => rfl
  | cons x l ih => rw [List.flatMap_cons, h, ih]; rfl

theorem flatMap_same {α β γ : Type} (l : List α) {f : α → List β} {f' : α → List γ} {f'' : γ → β} (h : ∀ x, f x = (f' x).map f'') :
    l.flatMap f = (l.flatMap f').map f'' := by
  induction l with
  | nil => rfl
  | cons x l ih => rw [List.flatMap_cons, h, ih, List.flatMap_cons, List.map_append]

theorem flatMap_self {α : Type} (l : List (List α)) {f : List α → List α} (h : ∀ x, f x = x) : l.flatMap f = l.flatten := by
  induction l with
  | nil => rfl
  | cons x l ih => rw [List.flatMap_cons, h, ih]; rfl

theorem flatMap_two {α : Type} (l : List (List (List α))) {f : List (List α) → List α} (h : ∀ x, f x = x.flatten) : l.flatMap f = l.flatten.flatten := by
  induction l with
  | nil => rfl
  | cons x l ih => rw [List.flatMap_cons, h, ih, List.flatten_cons, List.flatten_append]

theorem flatMap_three {α : Type} (l : List (List (List (List α)))) {f : List (List (List α)) → List α} (h : ∀ x, f x = x.flatten.flatten) :
    l.flatMap f = l.flatten.flatten.flatten := by
  induction l with
  | nil => rfl
  | cons x l ih => rw [List.flatMap_cons, h, ih, List.flatten_cons, List.flatten_append, List.flatten_append]

theorem rows_nw {α : Type} {rows : List α} {mk : α → Geom} {w : NWriter} {fl : List Bool} {a b c : List Nat} {cs : List Coord}
    (h : AP g d k w (fun i => (rows.map mk).flatMap (offsIn · i)) ((rows.map mk).flatMap crdsIn) fl)
    (hmax : g = 1 ∨ ∀ i, ((rows.map mk).flatMap (offsIn · i)).sum ≤ 2147483647)
    (e0 : rows.flatMap (fun r => offsIn (mk r) 0) = a) (e1 : rows.flatMap (fun r => offsIn (mk r) 1) = b) (e2 : rows.flatMap (fun r => offsIn (mk r) 2) = c)
    (e3 : ∀ i r, offsIn (mk r) (i + 3) = []) (ec : rows.flatMap (fun r => crdsIn (mk r)) = cs) :
    NW g d k w (ns3 a b c) cs fl ∧ (g = 1 ∨ a.sum ≤ 2147483647 ∧ b.sum ≤ 2147483647 ∧ c.sum ≤ 2147483647) := by
  have hn := h.nw
  simp only [List.flatMap_map] at hn hmax
  have en : (fun i => rows.flatMap fun r => offsIn (mk r) i) = ns3 a b c := eq_ns3 e0 e1 e2 fun i => flatMap_none _ (e3 i)
  rw [en, ec] at hn
  refine ⟨hn, hmax.imp id fun hm => ⟨?_, ?_, ?_⟩⟩
  · have := hm 0
    rwa [e0] at this
  · have := hm 1
    rwa [e1] at this
  · have := hm 2
    rwa [e2] at this

/-- The end. -/
theorem append_finish (hg : 1 ≤ g ∧ g ≤ 6) {w : NWriter} {fs : List (Option Geom)} {ys : List Geom} (hp : Pairs (StoredIn g d) fs ys)
    (h : AP g d k w (fun i => ys.flatMap (offsIn · i)) (ys.flatMap crdsIn) (fs.map Option.isSome))
    (hmax : g = 1 ∨ ∀ i, (ys.flatMap (offsIn · i)).sum ≤ 2147483647) (junk : Nat → Byte) :
    ∃ a w', nwFinish junk w = .ok a w' ∧ Finished g d k (fs.map Option.isSome) a ∧
      ∀ (i : Nat) (f : Option Geom), fs[i]? = some f → FeatureAt g d k a i (f.bind (Geom.appended g d)) := by
  have main : ∀ {a : AArray}, Finished g d k (fs.map Option.isSome) a → (∀ (i : Nat) (y : Geom), ys[i]? = some y → GeomAt d k a i g y) →
      ∀ (i : Nat) (f : Option Geom), fs[i]? = some f → FeatureAt g d k a i (f.bind (Geom.appended g d)) := by
    intro a hf hgeo i f hi
    obtain ⟨y, hy, hs⟩ := hp.get hi
    cases f with
    | none => exact hf.null i (by rw [List.getElem?_map, hi]; rfl)
    | some x =>
      rw [show (some x).bind (Geom.appended g d) = some y from hs]
      exact ⟨hf.valid i (by rw [List.getElem?_map, hi]; rfl), hgeo i y hy⟩
  have hsh' : ∀ y ∈ ys, ∃ f, StoredIn g d f y := fun y hy => by
    obtain ⟨t, ht⟩ := List.mem_iff_getElem?.mp hy
    obtain ⟨f, -, hf⟩ := hp.get' ht
    exact ⟨f, hf⟩
  have hsh := fun y hy => stored_shape hg (hsh' y hy).choose_spec
  have hlen : (fs.map Option.isSome).length = ys.length := by rw [List.length_map, hp.length]
  have hcases : g = 1 ∨ g = 2 ∨ g = 3 ∨ g = 4 ∨ g = 5 ∨ g = 6 := by omega
  rcases hcases with rfl | rfl | rfl | rfl | rfl | rfl
  · obtain ⟨rows, rfl⟩ := rows_of (mk := fun c => Geom.point d [c]) (ys := ys) (fun y hy => by
      rcases hsh y hy with ⟨-, c, rfl⟩ | ⟨h, -⟩ | ⟨h, -⟩ | ⟨h, -⟩ | ⟨h, -⟩ | ⟨h, -⟩
      · exact ⟨c, rfl⟩
      all_goals omega)
    obtain ⟨hn, hm⟩ := rows_nw (a := []) (b := []) (c := []) (cs := rows) h hmax
      (flatMap_none _ fun _ => rfl)
      (flatMap_none _ fun _ => rfl)
      (flatMap_none _ fun _ => rfl)
      (fun _ _ => rfl) ((flatMap_one (f' := id) _ fun _ => rfl).trans (List.map_id _))
    obtain ⟨a, w', h1, h2, h3⟩ := point_finish ⟨hn, by rw [hlen, List.length_map]⟩ junk
    refine ⟨a, w', h1, h2, main h2 fun i y hy => ?_⟩
    rw [List.getElem?_map] at hy
    obtain ⟨c, hc, rfl⟩ := Option.map_eq_some_iff.mp hy
    exact .point (h3 i c hc)
  · obtain ⟨rows, rfl⟩ := rows_of (mk := fun c => Geom.linestring d c) (ys := ys) (fun y hy => by
      rcases hsh y hy with ⟨h, -⟩ | ⟨-, c, rfl⟩ | ⟨h, -⟩ | ⟨h, -⟩ | ⟨h, -⟩ | ⟨h, -⟩
      rotate_left 1
      · exact ⟨c, rfl⟩
      all_goals omega)
    obtain ⟨hn, hm⟩ := rows_nw (a := rows.map List.length) (b := []) (c := []) (cs := rows.flatten ++ []) h hmax
      (flatMap_one _ fun _ => rfl)
      (flatMap_none _ fun _ => rfl)
      (flatMap_none _ fun _ => rfl)
      (fun _ _ => rfl) ((flatMap_self _ fun cs => crds_seq d cs).trans (List.append_nil _).symm)
    obtain ⟨hm0, hm1, hm2⟩ := hm.resolve_left (by decide)
    rw [← List.length_flatten] at hm0
    obtain ⟨a, w', h1, h2, h3⟩ := line_finish (.inr rfl) ⟨hn, by rw [hlen, List.length_map], hm0⟩ junk
    refine ⟨a, w', h1, h2, main h2 fun i y hy => ?_⟩
    rw [List.getElem?_map] at hy
    obtain ⟨c, hc, rfl⟩ := Option.map_eq_some_iff.mp hy
    exact .linestring (h3 i c hc)
  · obtain ⟨rows, rfl⟩ := rows_of (mk := fun c => Geom.polygon d c) (ys := ys) (fun y hy => by
      rcases hsh y hy with ⟨h, -⟩ | ⟨h, -⟩ | ⟨-, c, rfl⟩ | ⟨h, -⟩ | ⟨h, -⟩ | ⟨h, -⟩
      rotate_left 2
      · exact ⟨c, rfl⟩
      all_goals omega)
    obtain ⟨hn, hm⟩ := rows_nw (a := rows.map List.length) (b := rows.flatten.map List.length) (c := []) (cs := rows.flatten.flatten) h hmax
      (flatMap_one _ fun _ => rfl)
      ((flatMap_same (f' := id) rows fun _ => rfl).trans (congrArg _ (flatMap_self _ fun _ => rfl)))
      (flatMap_none _ fun _ => rfl)
      (fun _ _ => rfl) (flatMap_two _ fun r => crds_seq d r.flatten)
    obtain ⟨hm0, hm1, hm2⟩ := hm.resolve_left (by decide)
    rw [← List.length_flatten] at hm0
    rw [← List.length_flatten] at hm1
    obtain ⟨a, w', h1, h2, h3⟩ := poly_finish_any (.inr rfl) hn (by rw [hlen, List.length_map]) hm0 hm1 junk
    refine ⟨a, w', h1, h2, main h2 fun i y hy => ?_⟩
    rw [List.getElem?_map] at hy
    obtain ⟨c, hc, rfl⟩ := Option.map_eq_some_iff.mp hy
    exact .polygon (h3 i c hc)
  · obtain ⟨rows, rfl⟩ := rows_of (mk := fun cs : List Coord => Geom.multi .multipoint d (cs.map fun c => .point d [c])) (ys := ys) (fun y hy => by
      rcases hsh y hy with ⟨h, -⟩ | ⟨h, -⟩ | ⟨h, -⟩ | ⟨-, c, rfl⟩ | ⟨h, -⟩ | ⟨h, -⟩
      rotate_left 3
      · exact ⟨c, rfl⟩
      all_goals omega)
    obtain ⟨hn, hm⟩ := rows_nw (a := rows.map List.length) (b := []) (c := []) (cs := rows.flatten ++ []) h hmax
      (flatMap_one _ fun cs => by show [_] = [_]; rw [List.length_map])
      (flatMap_none _ fun _ => rfl)
      (flatMap_none _ fun _ => rfl)
      (fun _ _ => rfl) ((flatMap_self _ fun cs => crdsIn_points d cs).trans (List.append_nil _).symm)
    obtain ⟨hm0, hm1, hm2⟩ := hm.resolve_left (by decide)
    rw [← List.length_flatten] at hm0
    obtain ⟨a, w', h1, h2, h3⟩ := line_finish (.inl rfl) ⟨hn, by rw [hlen, List.length_map], hm0⟩ junk
    refine ⟨a, w', h1, h2, main h2 fun i y hy => ?_⟩
    rw [List.getElem?_map] at hy
    obtain ⟨c, hc, rfl⟩ := Option.map_eq_some_iff.mp hy
    exact .multipoint (h3 i c hc)
  · obtain ⟨rows, rfl⟩ := rows_of (mk := fun ls : List (List Coord) => Geom.multi .multilinestring d (ls.map (.linestring d))) (ys := ys) (fun y hy => by
      rcases hsh y hy with ⟨h, -⟩ | ⟨h, -⟩ | ⟨h, -⟩ | ⟨h, -⟩ | ⟨-, c, rfl⟩ | ⟨h, -⟩
      rotate_left 4
      · exact ⟨c, rfl⟩
      all_goals omega)
    obtain ⟨hn, hm⟩ := rows_nw (a := rows.map List.length) (b := rows.flatten.map List.length) (c := []) (cs := rows.flatten.flatten) h hmax
      (flatMap_one _ fun cs => by show [_] = [_]; rw [List.length_map])
      ((flatMap_same (f' := id) rows fun ls => lines_sum d ls).trans (congrArg _ (flatMap_self _ fun _ => rfl)))
      (flatMap_none _ fun _ => rfl)
      (fun _ _ => rfl) (flatMap_two _ fun ls => crdsIn_lines d ls)
    obtain ⟨hm0, hm1, hm2⟩ := hm.resolve_left (by decide)
    rw [← List.length_flatten] at hm0
    rw [← List.length_flatten] at hm1
    obtain ⟨a, w', h1, h2, h3⟩ := poly_finish_any (.inl rfl) hn (by rw [hlen, List.length_map]) hm0 hm1 junk
    refine ⟨a, w', h1, h2, main h2 fun i y hy => ?_⟩
    rw [List.getElem?_map] at hy
    obtain ⟨c, hc, rfl⟩ := Option.map_eq_some_iff.mp hy
    exact .multilinestring (h3 i c hc)
  · obtain ⟨rows, rfl⟩ := rows_of (mk := fun ps : List (List (List Coord)) => Geom.multi .multipolygon d (ps.map (.polygon d))) (ys := ys) (fun y hy => by
      rcases hsh y hy with ⟨h, -⟩ | ⟨h, -⟩ | ⟨h, -⟩ | ⟨h, -⟩ | ⟨h, -⟩ | ⟨-, c, rfl⟩
      rotate_left 5
      · exact ⟨c, rfl⟩
      all_goals omega)
    obtain ⟨hn, hm⟩ := rows_nw (a := rows.map List.length) (b := rows.flatten.map List.length) (c := rows.flatten.flatten.map List.length) (cs := rows.flatten.flatten.flatten) h hmax
      (flatMap_one _ fun cs => by show [_] = [_]; rw [List.length_map])
      ((flatMap_same (f' := id) rows fun ls => polygons_offs1 d ls).trans (congrArg _ (flatMap_self _ fun _ => rfl)))
      ((flatMap_same (f' := List.flatten) rows fun ls => polygons_offs2 d ls).trans (congrArg _ (flatMap_two _ fun _ => rfl)))
      (fun _ _ => rfl) (flatMap_three _ fun ls => crdsIn_polygons d ls)
    obtain ⟨hm0, hm1, hm2⟩ := hm.resolve_left (by decide)
    rw [← List.length_flatten] at hm0
    rw [← List.length_flatten] at hm1
    rw [← List.length_flatten] at hm2
    obtain ⟨a, w', h1, h2, h3⟩ := multi_finish_any hn (by rw [hlen, List.length_map]) hm0 hm1 hm2 junk
    refine ⟨a, w', h1, h2, main h2 fun i y hy => ?_⟩
    rw [List.getElem?_map] at hy
    obtain ⟨c, hc, rfl⟩ := Option.map_eq_some_iff.mp hy
    exact .multipolygon (h3 i c hc)

end
end Verif
