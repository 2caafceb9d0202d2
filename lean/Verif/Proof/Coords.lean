import Verif.Model.Coords
import Verif.Spec.CoordViews
import Verif.Proof.Sequence
/-! Lemmas for dimension mapping and coordinate copies. -/
namespace Verif
open Spec

/-! ### writing lists of cells -/

abbrev Cell := Nat × Nat

def storeList : List (Cell × Dbl) → DMem → Option DMem
  | [], D => some D
  | (c, x) :: rest, D =>
    match D.store c x with
    | none => none
    | some D' => storeList rest D'

theorem storeList_append (a b : List (Cell × Dbl)) (D : DMem) :
    storeList (a ++ b) D = (storeList a D).bind (storeList b) := by
  induction a generalizing D with
  | nil => rfl
  | cons p a ih =>
    obtain ⟨c, x⟩ := p
    simp only [List.cons_append, storeList]
    cases D.store c x with
    | none => rfl
    | some D' => exact ih D'

theorem storeList_spec (L : List (Cell × Dbl)) : ∀ (D : DMem), (∀ p ∈ L, (D p.1.1 p.1.2).isSome) →
    (∀ p ∈ L, ∀ q ∈ L, p.1 = q.1 → p.2 = q.2) →
    ∃ D', storeList L D = some D' ∧ (∀ p ∈ L, D' p.1.1 p.1.2 = some p.2) ∧
      (∀ b i, (∀ p ∈ L, p.1 ≠ (b, i)) → D' b i = D b i) ∧ (∀ b i, (D' b i).isSome = (D b i).isSome) := by
  induction L with
  | nil => intro D _ _; exact ⟨D, rfl, by simp, by simp, by simp⟩
  | cons p L ih =>
    intro D ha hc
    obtain ⟨c, x⟩ := p
    have hs : D.store c x = some (fun b i => if b = c.1 ∧ i = c.2 then some x else D b i) := by
      have := ha (c, x) (by simp)
      simp only [DMem.store, this, if_true]
    generalize hD1 : (fun b i => if b = c.1 ∧ i = c.2 then some x else D b i) = D1 at hs
    have hsome : ∀ b i, (D1 b i).isSome = (D b i).isSome := by
      intro b i
      subst hD1
      simp only []
      split
      · rename_i h
        have := ha (c, x) (by simp)
        simp only [] at this
        rw [h.1, h.2, this]; rfl
      · rfl
    obtain ⟨D', h1, h2, h3, h4⟩ := ih D1 (fun p hp => by rw [hsome]; exact ha p (by simp [hp]))
      (fun p hp q hq => hc p (by simp [hp]) q (by simp [hq]))
    refine ⟨D', ?_, ?_, ?_, ?_⟩
    · simp only [storeList, hs, h1]
    · intro p hp
      rcases List.mem_cons.mp hp with rfl | hp
      · by_cases hex : ∃ q ∈ L, q.1 = c
        · obtain ⟨q, hq, rfl⟩ := hex
          rw [h2 q hq]
          rw [hc (q.1, x) (by simp) q (by simp [hq]) rfl]
        · rw [h3 c.1 c.2 (fun q hq he => hex ⟨q, hq, he⟩)]
          subst hD1; simp
      · exact h2 p hp
    · intro b i hne
      rw [h3 b i (fun p hp => hne p (by simp [hp]))]
      subst hD1
      simp only []
      rw [if_neg]
      intro h
      exact hne (c, x) (by simp) (by rw [h.1, h.2])
    · intro b i; rw [h4, hsome]

/-! ### the copy loops as cell lists -/

theorem copyCol_eq {S : DMem} {src : CoordView} {srcOff scol : Nat} {dst : CoordView} {dstOff dcol : Nat}
    (f : Nat → Dbl) (k : Nat) : ∀ (i : Nat) (D : DMem),
    (∀ t, i ≤ t → t < i + k → src.get S (srcOff + t) scol = some (f t)) →
    copyCol S src srcOff scol dst dstOff dcol k i D =
      storeList ((List.range' i k).map fun t => (dst.cell (dstOff + t) dcol, f t)) D := by
  induction k with
  | zero => intro i D _; rfl
  | succ k ih =>
    intro i D h
    simp only [copyCol, List.range'_succ, List.map_cons, storeList]
    rw [h i (by omega) (by omega)]
    simp only []
    cases D.store (dst.cell (dstOff + i) dcol) (f i) with
    | none => rfl
    | some D' => exact ih _ _ (fun t h1 h2 => h t (by omega) (by omega))

theorem nan_bytes : Dbl.ofBytes (emptyPointCoords.take 8) = Dbl.nan := by decide

theorem fillCol_eq {dst : CoordView} {dstOff dcol : Nat} (k : Nat) : ∀ (i : Nat) (D : DMem),
    fillCol dst dstOff dcol k i D =
      storeList ((List.range' i k).map fun t => (dst.cell (dstOff + t) dcol, Dbl.nan)) D := by
  induction k with
  | zero => intro i D; rfl
  | succ k ih =>
    intro i D
    simp only [fillCol, List.range'_succ, List.map_cons, storeList, nan_bytes]
    cases D.store (dst.cell (dstOff + i) dcol) Dbl.nan with
    | none => rfl
    | some D' => exact ih _ _

theorem copyXY_eq {S : DMem} {src : CoordView} {srcOff : Nat} {dst : CoordView} {dstOff : Nat}
    (f g : Nat → Dbl) (k : Nat) : ∀ (i : Nat) (D : DMem),
    (∀ t, i ≤ t → t < i + k → src.get S (srcOff + t) 0 = some (f t) ∧ src.get S (srcOff + t) 1 = some (g t)) →
    copyXY S src srcOff dst dstOff k i D =
      storeList ((List.range' i k).flatMap fun t =>
        [(dst.cell (dstOff + t) 0, f t), (dst.cell (dstOff + t) 1, g t)]) D := by
  induction k with
  | zero => intro i D _; rfl
  | succ k ih =>
    intro i D h
    simp only [copyXY, List.range'_succ, List.flatMap_cons, List.cons_append, List.nil_append, storeList]
    rw [(h i (by omega) (by omega)).1, (h i (by omega) (by omega)).2]
    simp only [Option.bind_eq_bind, Option.bind_some]
    cases D.store (dst.cell (dstOff + i) 0) (f i) with
    | none => rfl
    | some D' =>
      simp only [Option.bind_some]
      cases D'.store (dst.cell (dstOff + i) 1) (g i) with
      | none => rfl
      | some D'' => exact ih _ _ (fun t h1 h2 => h t (by omega) (by omega))

/-- Value of destination column `j` according to a dimension map. -/
def viaMap (mp : Quad Int) (c : Coord) (j : Nat) : Dbl :=
  if mp.get j = -1 then Dbl.nan else (c[(mp.get j).toNat]?).getD Dbl.nan

theorem viaMap_mapCoord (s d : Dims) (c : Coord) (hc : c.length = s.n) (j : Nat) (hj : j < d.n) :
    (mapCoord s d c)[j]? = some (viaMap (mapDimensions s.code d.code) c j) := by
  cases s <;> simp only [Dims.n] at hc
  · match c, hc with
    | [a, b], _ =>
      cases d <;> simp only [Dims.n] at hj <;>
        (have hj' : j = 0 ∨ j = 1 ∨ j = 2 ∨ j = 3 := by omega
         rcases hj' with rfl | rfl | rfl | rfl <;> first | omega | rfl)
  · match c, hc with
    | [a, b, e], _ =>
      cases d <;> simp only [Dims.n] at hj <;>
        (have hj' : j = 0 ∨ j = 1 ∨ j = 2 ∨ j = 3 := by omega
         rcases hj' with rfl | rfl | rfl | rfl <;> first | omega | rfl)
  · match c, hc with
    | [a, b, e], _ =>
      cases d <;> simp only [Dims.n] at hj <;>
        (have hj' : j = 0 ∨ j = 1 ∨ j = 2 ∨ j = 3 := by omega
         rcases hj' with rfl | rfl | rfl | rfl <;> first | omega | rfl)
  · match c, hc with
    | [a, b, e, f], _ =>
      cases d <;> simp only [Dims.n] at hj <;>
        (have hj' : j = 0 ∨ j = 1 ∨ j = 2 ∨ j = 3 := by omega
         rcases hj' with rfl | rfl | rfl | rfl <;> first | omega | rfl)

theorem mapDimensions_range (s d : Dims) (j : Nat) :
    (mapDimensions s.code d.code).get j = -1 ∨
      (0 ≤ (mapDimensions s.code d.code).get j ∧ ((mapDimensions s.code d.code).get j).toNat < s.n) := by
  match j with
  | 0 => cases s <;> cases d <;> decide
  | 1 => cases s <;> cases d <;> decide
  | 2 => cases s <;> cases d <;> decide
  | j + 3 =>
    have : (mapDimensions s.code d.code).get (j + 3) = (mapDimensions s.code d.code).d := rfl
    rw [this]
    cases s <;> cases d <;> decide

theorem mapDimensions_xy (s d : Dims) :
    (mapDimensions s.code d.code).get 0 = 0 ∧ (mapDimensions s.code d.code).get 1 = 1 := by
  cases s <;> cases d <;> decide

end Verif

namespace Verif
open Spec

theorem copyMapped_eq {S : DMem} {src : CoordView} {srcOff : Nat} {dst : CoordView} {dstOff : Nat} {s d : Dims}
    {cs : List Coord} (hs : Holds S src srcOff s cs) (j : Nat) (D : DMem) :
    copyMapped S src srcOff dst dstOff j ((mapDimensions s.code d.code).get j) cs.length D =
      storeList ((List.range cs.length).map fun t =>
        (dst.cell (dstOff + t) j, viaMap (mapDimensions s.code d.code) (cs[t]?.getD []) j)) D := by
  unfold copyMapped
  rw [List.range_eq_range']
  by_cases hm : (mapDimensions s.code d.code).get j = -1
  · rw [if_pos hm, fillCol_eq]
    congr 2
    funext t
    simp [viaMap, hm]
  · rw [if_neg hm, copyCol_eq (fun t => viaMap (mapDimensions s.code d.code) (cs[t]?.getD []) j)]
    intro t _ ht
    have hc : cs[t]? = some (cs[t]'(by omega)) := List.getElem?_eq_getElem (by omega)
    obtain ⟨hl, hv⟩ := hs t _ hc
    rcases mapDimensions_range s d j with h | ⟨h1, h2⟩
    · exact absurd h hm
    · have hx : (cs[t]'(by omega))[((mapDimensions s.code d.code).get j).toNat]? =
          some ((cs[t]'(by omega))[((mapDimensions s.code d.code).get j).toNat]'(by omega)) :=
        List.getElem?_eq_getElem (by omega)
      rw [hv _ _ hx]
      simp only [viaMap, hm, if_false, hc, Option.getD_some, hx]

theorem coordViewCopy_spec {S D : DMem} {src dst : CoordView} {srcOff dstOff : Nat} {s d : Dims} {cs : List Coord}
    (hs : Holds S src srcOff s cs) (hn : dst.nValues = d.n) (hw : Writable D dst dstOff cs.length d.n) :
    ∃ D', coordViewCopy S src s.code srcOff D dst d.code dstOff cs.length = some D' ∧
      Holds D' dst dstOff d (cs.map (mapCoord s d)) ∧
      (∀ b i, (∀ t, t < cs.length → ∀ j, j < d.n → dst.cell (dstOff + t) j ≠ (b, i)) → D' b i = D b i) ∧
      (∀ b i, (D' b i).isSome = (D b i).isSome) := by
  obtain ⟨halloc, hinj⟩ := hw
  have hdn := Dims.n_pos d
  have hsn := Dims.n_pos s
  let V : Nat → Nat → Dbl := fun t j => viaMap (mapDimensions s.code d.code) (cs[t]?.getD []) j
  let col : Nat → List (Cell × Dbl) := fun j =>
    (List.range cs.length).map fun t => (dst.cell (dstOff + t) j, V t j)
  let XY : List (Cell × Dbl) := (List.range cs.length).flatMap fun t =>
    [(dst.cell (dstOff + t) 0, V t 0), (dst.cell (dstOff + t) 1, V t 1)]
  let L : List (Cell × Dbl) := XY ++ ((if d.n = 2 then [] else col 2) ++ (if d.n = 4 then col 3 else []))
  have hrun : coordViewCopy S src s.code srcOff D dst d.code dstOff cs.length = storeList L D := by
    have hxy : ∀ D, copyXY S src srcOff dst dstOff cs.length 0 D = storeList XY D := by
      intro D
      show _ = storeList ((List.range cs.length).flatMap _) D
      rw [List.range_eq_range']
      refine copyXY_eq (fun t => V t 0) (fun t => V t 1) _ _ _ ?_
      intro t _ ht
      have hc : cs[t]? = some (cs[t]'(by omega)) := List.getElem?_eq_getElem (by omega)
      obtain ⟨hl, hv⟩ := hs t _ hc
      have h0 : (cs[t]'(by omega))[0]? = some ((cs[t]'(by omega))[0]'(by omega)) :=
        List.getElem?_eq_getElem (by omega)
      have h1 : (cs[t]'(by omega))[1]? = some ((cs[t]'(by omega))[1]'(by omega)) :=
        List.getElem?_eq_getElem (by omega)
      have hm := mapDimensions_xy s d
      refine ⟨?_, ?_⟩
      · rw [hv _ _ h0]; simp [V, viaMap, hm.1, hc, h0]
      · rw [hv _ _ h1]; simp [V, viaMap, hm.2, hc, h1]
    simp only [coordViewCopy, hxy]
    simp only [L, storeList_append, hn]
    cases storeList XY D with
    | none => rfl
    | some D1 =>
      simp only [Option.bind_eq_bind, Option.bind_some, storeList_append]
      by_cases h2 : d.n = 2
      · have h4 : ¬ d.n = 4 := by omega
        simp only [h2, if_true, storeList, Option.bind_some, Nat.reduceEqDiff, if_false]
      · simp only [h2, if_false, copyMapped_eq hs]
        have e : ∀ j, (List.range cs.length).map (fun t =>
          (dst.cell (dstOff + t) j, viaMap (mapDimensions s.code d.code) (cs[t]?.getD []) j)) = col j := fun _ => rfl
        simp only [e]
        cases storeList (col 2) D1 with
        | none => rfl
        | some D2 =>
          simp only [Option.bind_some]
          by_cases h3 : d.n = 3
          · simp only [h3, if_true, Nat.reduceEqDiff, if_false, storeList]
          · have h4 : d.n = 4 := by omega
            simp only [h4, Nat.reduceEqDiff, if_false, if_true]
  have hmem : ∀ p ∈ L, ∃ t j, t < cs.length ∧ j < d.n ∧ p = (dst.cell (dstOff + t) j, V t j) := by
    intro p hp
    simp only [L, List.mem_append] at hp
    rcases hp with hp | hp | hp
    · simp only [XY, List.mem_flatMap, List.mem_range, List.mem_cons, List.not_mem_nil, or_false] at hp
      obtain ⟨t, ht, rfl | rfl⟩ := hp
      · exact ⟨t, 0, ht, by omega, rfl⟩
      · exact ⟨t, 1, ht, by omega, rfl⟩
    · by_cases h2 : d.n = 2
      · rw [if_pos h2] at hp; simp at hp
      · rw [if_neg h2] at hp
        simp only [col, List.mem_map, List.mem_range] at hp
        obtain ⟨t, ht, rfl⟩ := hp
        exact ⟨t, 2, ht, by omega, rfl⟩
    · by_cases h4 : d.n = 4
      · rw [if_pos h4] at hp
        simp only [col, List.mem_map, List.mem_range] at hp
        obtain ⟨t, ht, rfl⟩ := hp
        exact ⟨t, 3, ht, by omega, rfl⟩
      · rw [if_neg h4] at hp; simp at hp
  have hmem' : ∀ t j, t < cs.length → j < d.n → (dst.cell (dstOff + t) j, V t j) ∈ L := by
    intro t j ht hj
    simp only [L, List.mem_append]
    have hj' : j = 0 ∨ j = 1 ∨ j = 2 ∨ j = 3 := by omega
    rcases hj' with rfl | rfl | rfl | rfl
    · left
      simp only [XY, List.mem_flatMap, List.mem_range]
      exact ⟨t, ht, by simp⟩
    · left
      simp only [XY, List.mem_flatMap, List.mem_range]
      exact ⟨t, ht, by simp⟩
    · right; left
      rw [if_neg (by omega)]
      simp only [col, List.mem_map, List.mem_range]
      exact ⟨t, ht, rfl⟩
    · right; right
      rw [if_pos (by omega)]
      simp only [col, List.mem_map, List.mem_range]
      exact ⟨t, ht, rfl⟩
  obtain ⟨D', h1, h2, h3, h4⟩ := storeList_spec L D
    (by
      intro p hp
      obtain ⟨t, j, ht, hj, rfl⟩ := hmem p hp
      exact halloc t ht j hj)
    (by
      intro p hp q hq he
      obtain ⟨t, j, ht, hj, rfl⟩ := hmem p hp
      obtain ⟨t', j', ht', hj', rfl⟩ := hmem q hq
      obtain ⟨rfl, rfl⟩ := hinj t ht j hj t' ht' j' hj' he
      rfl)
  refine ⟨D', by rw [hrun, h1], ?_, ?_, h4⟩
  · intro t c hc
    rw [List.getElem?_map] at hc
    cases hct : cs[t]? with
    | none => rw [hct] at hc; cases hc
    | some c0 =>
      rw [hct] at hc
      simp only [Option.map_some, Option.some.injEq] at hc
      subst hc
      have ht : t < cs.length := (List.getElem?_eq_some_iff.mp hct).1
      obtain ⟨hl, _⟩ := hs t _ hct
      have hlen : (mapCoord s d c0).length = d.n := by
        unfold mapCoord; cases d <;> rfl
      refine ⟨hlen, ?_⟩
      intro j x hx
      have hj : j < d.n := by
        have := (List.getElem?_eq_some_iff.mp hx).1
        omega
      rw [viaMap_mapCoord s d c0 hl j hj] at hx
      simp only [Option.some.injEq] at hx
      have := h2 _ (hmem' t j ht hj)
      simp only [V, hct, Option.getD_some, hx] at this
      exact this
  · intro b i hne
    refine h3 b i ?_
    intro p hp
    obtain ⟨t, j, ht, hj, rfl⟩ := hmem p hp
    exact hne t ht j hj

end Verif
