import Verif.Proof.NativeMulti
import Verif.Proof.NativeLine
import Verif.Proof.NativePoint
/-! # Native writer: what a finished array contains -/
namespace Verif
open Spec

/-- A finished array with a flag for every slot. -/
structure Finished (g : Int) (d : Dims) (k : CoordKind) (fl : List Bool) (a : AArray) : Prop where
  length : a.length = (fl.length : Int)
  nulls : a.nullCount = ((fl.filter (!·)).length : Int)
  offset : a.offset = 0
  valid : ∀ i : Nat, fl[i]? = some true → ValidAt a i
  null : ∀ i : Nat, fl[i]? = some false → NullAt a i
  shape : ListShape k d.n (listDepth g) a
  readable : OffsetsReadable (listDepth g) a
  buffers : a.buffers ≠ []

section
variable {g : Int} {d : Dims} {k : CoordKind} {w : NWriter} {ns : Nat → List Nat} {cs : List Coord} {fl : List Bool}

theorem bits_valid {a : AArray} {v : Option (List Byte)} (hb : a.buffers[0]? = some v) (ho : a.offset = 0) (hv : VBits v fl) :
    (∀ i : Nat, fl[i]? = some true → ValidAt a i) ∧ (∀ i : Nat, fl[i]? = some false → NullAt a i) := by
  have e : ∀ i : Nat, (a.offset + (i : Int)).toNat = i := by intro i; rw [ho]; omega
  rcases hv with ⟨rfl, hr⟩ | ⟨bs, rfl, h⟩
  · refine ⟨fun i _ => .inl hb, fun i hi => ?_⟩
    rw [hr, List.getElem?_replicate] at hi
    split at hi <;> cases hi
  · refine ⟨fun i hi => .inr ⟨bs, hb, by rw [ho]; exact Int.le_refl _, by rw [e]; exact h i _ hi⟩,
      fun i hi => ⟨bs, hb, by rw [ho]; exact Int.le_refl _, by rw [e]; exact h i _ hi⟩⟩

/-- The array a writer finishes. -/
theorem finish_any (hg : 1 ≤ g ∧ g ≤ 6) (h : NW g d k w ns cs fl) (junk : Nat → Byte)
    (hsum : ∀ i, i < listDepth g → (ns i).sum < 2 ^ 31 ∧ (ns i).sum ≤ lenAt g ns cs (i + 1)) (hfl : lenAt g ns cs 0 = fl.length) :
    ∃ b v w', nwFinish junk w =
      .ok ((builtLists b.syncCoords (listDepth g) d k cs.length (fun i => sums (ns i)) (listDepth g) 0 v).withNullCount w.nullCount) w' ∧
      Built g d k b (fun i => sums (ns i)) cs ∧
      Finished g d k fl ((builtLists b.syncCoords (listDepth g) d k cs.length (fun i => sums (ns i)) (listDepth g) 0 v).withNullCount w.nullCount) := by
  obtain ⟨b, v, w', h1, h2, h3, -, -⟩ := finish_nw hg h junk hsum hfl
  refine ⟨b, v, w', h1, h2, ?_⟩
  have hsh := shape_nullCount (shape_built (k := k) (d := d) b.syncCoords (listDepth g) cs.length (fun i => sums (ns i)) (listDepth g) 0 v) w.nullCount
  have hrd := readable_built (k := k) (d := d) b.syncCoords (listDepth g) cs.length (fun i => sums (ns i)) (listDepth g) 0 v w.nullCount
  have hnull : (w.nullCount : Int) = ((fl.filter (!·)).length : Int) := by rw [h.nulls]
  unfold lenAt at hfl
  generalize hm : listDepth g = m at *
  cases m with
  | zero =>
    rw [if_neg (by omega)] at hfl
    have hb : ((builtLists b.syncCoords 0 d k cs.length (fun i => sums (ns i)) 0 0 v).withNullCount w.nullCount).buffers[0]? = some v := by cases k <;> rfl
    have ho : ((builtLists b.syncCoords 0 d k cs.length (fun i => sums (ns i)) 0 0 v).withNullCount w.nullCount).offset = 0 := by cases k <;> rfl
    obtain ⟨h4, h5⟩ := bits_valid hb ho h3
    refine ⟨?_, ?_, ho, h4, h5, by rw [hm]; exact hsh, by rw [hm]; exact hrd, by cases k <;> exact List.cons_ne_nil _ _⟩
    · rw [← hfl]; cases k <;> rfl
    · rw [← hnull]; cases k <;> rfl
  | succ m =>
    rw [if_pos (by omega)] at hfl
    obtain ⟨h4, h5⟩ := bits_valid (a := (builtLists b.syncCoords (m + 1) d k cs.length (fun i => sums (ns i)) (m + 1) 0 v).withNullCount w.nullCount) rfl rfl h3
    refine ⟨?_, hnull, rfl, h4, h5, by rw [hm]; exact hsh, by rw [hm]; exact hrd, List.cons_ne_nil _ _⟩
    show (((sums (ns 0)).length - 1 : Nat) : Int) = _
    rw [length_sums, Nat.add_sub_cancel, hfl]

/-- Points. -/
theorem point_finish {rows : List Coord} (h : PointRest d k rows fl w) (junk : Nat → Byte) :
    ∃ a w', nwFinish junk w = .ok a w' ∧ Finished 1 d k fl a ∧ ∀ (i : Nat) (c : Coord), rows[i]? = some c → CoordAt d k a i c := by
  obtain ⟨b, v, w', h1, h2, h3⟩ := finish_any (by omega) h.nw junk (fun i hi => by exact absurd hi (by show ¬ i < 0; omega)) h.len.symm
  refine ⟨_, w', h1, h3, fun i c hc => ?_⟩
  refine coordAt_congr (coordAt_built h2 v hc) ?_ ?_
  · cases k <;> rfl
  · cases k <;> rfl

/-- Lists of coordinates. -/
theorem line_finish (hg : g = 4 ∨ g = 2) {rows : List (List Coord)} {lo : List Coord} (h : LineRest g d k rows lo fl w) (junk : Nat → Byte) :
    ∃ a w', nwFinish junk w = .ok a w' ∧ Finished g d k fl a ∧ ∀ (i : Nat) (r : List Coord), rows[i]? = some r → PartsAt (CoordAt d k) a i r := by
  have hd := depth_line hg
  have hm := h.max
  obtain ⟨b, v, w', h1, h2, h3⟩ := finish_any (by omega) h.nw junk (fun i hi => by
      have : i = 0 := by omega
      subst this
      unfold lenAt
      rw [if_neg (by omega)]
      show (rows.map List.length).sum < _ ∧ (rows.map List.length).sum ≤ _
      rw [← List.length_flatten, List.length_append]
      omega) (by
      unfold lenAt
      rw [if_pos (by omega), h.len]
      exact List.length_map _)
  rw [hd] at h1 h3
  refine ⟨_, w', h1, h3, fun i r hr => ?_⟩
  refine parts_at (xss := rows) (child := builtCoords b.syncCoords 1 d k (rows.flatten ++ lo).length none) rfl ?_ rfl rfl ?_ (by omega) ?_ hr
  · rw [h3.length, h.len]
  · have : (builtCoords b.syncCoords 1 d k (rows.flatten ++ lo).length none).length = ((rows.flatten ++ lo).length : Int) := by cases k <;> rfl
    rw [this, List.length_append]
    omega
  · intro t x hx
    have := coordAt_built h2 none (t := t) (c := x) (by rw [List.getElem?_append_left (List.getElem?_eq_some_iff.mp hx).1]; exact hx)
    rw [hd] at this
    exact this

/-- Lists of lists of coordinates. -/
theorem poly_finish_any (hg : g = 5 ∨ g = 3) {rows : List (List (List Coord))}
    (h : NW g d k w (ns3 (rows.map List.length) (rows.flatten.map List.length) []) rows.flatten.flatten fl) (hl : fl.length = rows.length)
    (hc : rows.flatten.length ≤ 2147483647) (hm : rows.flatten.flatten.length ≤ 2147483647) (junk : Nat → Byte) :
    ∃ a w', nwFinish junk w = .ok a w' ∧ Finished g d k fl a ∧ ∀ (i : Nat) (r : List (List Coord)), rows[i]? = some r → PartsAt (PartsAt (CoordAt d k)) a i r := by
  have hd := depth_poly hg
  obtain ⟨b, v, w', h1, h2, h3⟩ := finish_any (by omega) h junk (fun i hi => by
      have : i = 0 ∨ i = 1 := by omega
      unfold lenAt
      rcases this with rfl | rfl
      · rw [if_pos (by omega)]
        show (rows.map List.length).sum < _ ∧ (rows.map List.length).sum ≤ (rows.flatten.map List.length).length
        rw [← List.length_flatten, List.length_map]
        omega
      · rw [if_neg (by omega)]
        show (rows.flatten.map List.length).sum < _ ∧ (rows.flatten.map List.length).sum ≤ _
        rw [← List.length_flatten]
        omega) (by
      unfold lenAt
      rw [if_pos (by omega), hl]
      exact List.length_map _)
  rw [hd] at h1 h3
  refine ⟨_, w', h1, h3, fun i r hr => ?_⟩
  refine parts_at (xss := rows)
    (child := builtLists b.syncCoords 2 d k rows.flatten.flatten.length (fun i => sums (ns3 (rows.map List.length) (rows.flatten.map List.length) [] i)) 1 1 none)
    rfl ?_ rfl rfl ?_ (by omega) ?_ hr
  · rw [h3.length, hl]
  · show _ ≤ (((sums (rows.flatten.map List.length)).length - 1 : Nat) : Int)
    rw [length_sums, List.length_map, Nat.add_sub_cancel]
    omega
  · intro t x hx
    refine parts_at (xss := rows.flatten) (child := builtCoords b.syncCoords 2 d k rows.flatten.flatten.length none) rfl ?_ rfl rfl ?_ (by omega) ?_ hx
    · show (((sums (rows.flatten.map List.length)).length - 1 : Nat) : Int) = _
      rw [length_sums, List.length_map, Nat.add_sub_cancel]
    · have : (builtCoords b.syncCoords 2 d k rows.flatten.flatten.length none).length = (rows.flatten.flatten.length : Int) := by cases k <;> rfl
      rw [this]
      omega
    · intro t x hx
      have := coordAt_built h2 none hx
      rw [hd] at this
      exact this

theorem poly_finish (hg : g = 5 ∨ g = 3) {rows : List (List (List Coord))} (h : PolyRest g d k rows fl w) (junk : Nat → Byte) :
    ∃ a w', nwFinish junk w = .ok a w' ∧ Finished g d k fl a ∧ ∀ (i : Nat) (r : List (List Coord)), rows[i]? = some r → PartsAt (PartsAt (CoordAt d k)) a i r :=
  poly_finish_any hg h.nw h.len (Nat.le_trans (length_le_flatten _ h.ne) h.max) h.max junk

/-- Lists of lists of lists of coordinates. -/
theorem multi_finish_any {rows : List (List (List (List Coord)))}
    (h : NW 6 d k w (ns3 (rows.map List.length) (rows.flatten.map List.length) (rows.flatten.flatten.map List.length)) rows.flatten.flatten.flatten fl)
    (hl : fl.length = rows.length) (hcP : rows.flatten.length ≤ 2147483647) (hc : rows.flatten.flatten.length ≤ 2147483647)
    (hm : rows.flatten.flatten.flatten.length ≤ 2147483647) (junk : Nat → Byte) :
    ∃ a w', nwFinish junk w = .ok a w' ∧ Finished 6 d k fl a ∧
      ∀ (i : Nat) (r : List (List (List Coord))), rows[i]? = some r → PartsAt (PartsAt (PartsAt (CoordAt d k))) a i r := by
  have hd := depth_multi
  obtain ⟨b, v, w', h1, h2, h3⟩ := finish_any (by omega) h junk (fun i hi => by
      have : i = 0 ∨ i = 1 ∨ i = 2 := by omega
      unfold lenAt
      rcases this with rfl | rfl | rfl
      · rw [if_pos (by omega)]
        show (rows.map List.length).sum < _ ∧ (rows.map List.length).sum ≤ (rows.flatten.map List.length).length
        rw [← List.length_flatten, List.length_map]
        omega
      · rw [if_pos (by omega)]
        show (rows.flatten.map List.length).sum < _ ∧ (rows.flatten.map List.length).sum ≤ (rows.flatten.flatten.map List.length).length
        rw [← List.length_flatten, List.length_map]
        omega
      · rw [if_neg (by omega)]
        show (rows.flatten.flatten.map List.length).sum < _ ∧ (rows.flatten.flatten.map List.length).sum ≤ _
        rw [← List.length_flatten]
        omega) (by
      unfold lenAt
      rw [if_pos (by omega), hl]
      exact List.length_map _)
  rw [hd] at h1 h3
  refine ⟨_, w', h1, h3, fun i r hr => ?_⟩
  generalize hf : (fun i => sums (ns3 (rows.map List.length) (rows.flatten.map List.length) (rows.flatten.flatten.map List.length) i)) = f at *
  have f0 : f 0 = sums (rows.map List.length) := by rw [← hf]; rfl
  have f1 : f 1 = sums (rows.flatten.map List.length) := by rw [← hf]; rfl
  have f2 : f 2 = sums (rows.flatten.flatten.map List.length) := by rw [← hf]; rfl
  refine parts_at (xss := rows) (child := builtLists b.syncCoords 3 d k rows.flatten.flatten.flatten.length f 2 1 none)
    rfl ?_ (by rw [← f0]; rfl) rfl ?_ (by omega) ?_ hr
  · rw [h3.length, hl]
  · show _ ≤ (((f 1).length - 1 : Nat) : Int)
    rw [f1, length_sums, List.length_map, Nat.add_sub_cancel]
    omega
  · intro t x hx
    refine parts_at (xss := rows.flatten) (child := builtLists b.syncCoords 3 d k rows.flatten.flatten.flatten.length f 1 2 none)
      rfl ?_ (by rw [← f1]; rfl) rfl ?_ (by omega) ?_ hx
    · show (((f 1).length - 1 : Nat) : Int) = _
      rw [f1, length_sums, List.length_map, Nat.add_sub_cancel]
    · show _ ≤ (((f 2).length - 1 : Nat) : Int)
      rw [f2, length_sums, List.length_map, Nat.add_sub_cancel]
      omega
    · intro t x hx
      refine parts_at (xss := rows.flatten.flatten) (child := builtCoords b.syncCoords 3 d k rows.flatten.flatten.flatten.length none)
        rfl ?_ (by rw [← f2]; rfl) rfl ?_ (by omega) ?_ hx
      · show (((f 2).length - 1 : Nat) : Int) = _
        rw [f2, length_sums, List.length_map, Nat.add_sub_cancel]
      · have : (builtCoords b.syncCoords 3 d k rows.flatten.flatten.flatten.length none).length = (rows.flatten.flatten.flatten.length : Int) := by cases k <;> rfl
        rw [this]
        omega
      · intro t x hx
        exact coordAt_built h2 none hx

theorem multi_finish {rows : List (List (List (List Coord)))} (h : MultiRest d k rows fl w) (junk : Nat → Byte) :
    ∃ a w', nwFinish junk w = .ok a w' ∧ Finished 6 d k fl a ∧
      ∀ (i : Nat) (r : List (List (List Coord))), rows[i]? = some r → PartsAt (PartsAt (PartsAt (CoordAt d k))) a i r :=
  have hc := Nat.le_trans (length_le_flatten _ h.ne) h.max
  multi_finish_any h.nw h.len (Nat.le_trans (length_le_flatten _ h.neP) hc) hc h.max junk

end
end Verif
