import Verif.Proof.BuilderCoords
/-! # Builder: finishing an array of a native type -/
namespace Verif
open Spec

/-- Number of the buffer with a place in the tree. -/
def slotIndex (t : ATree BKind) (n : Nat) (p : List Nat) (j : Nat) : Option Nat :=
  (List.range n).find? fun i => (findBuffer BKind.nBuffers t i 0 0 []).1 = some ⟨p, p.length, j⟩

theorem content_eq (b : Builder) (p : List Nat) (j : Nat) : b.content p j =
    match slotIndex b.tree b.nBuffers p j with
    | none => if j = 0 then none else some []
    | some i => if j = 0 ∧ (b.bufs i).mem = [] then none else some ((b.bufs i).mem.take (b.bufs i).size) := rfl

/-- Lists nest at most this deep. -/
theorem depth_le (g : Int) : listDepth g ≤ 3 := by
  unfold listDepth
  split
  · omega
  split
  · omega
  split <;> omega

theorem slotIndex_list {l : Nat} (hl : l ≤ 3) (d : Dims) (k : CoordKind) (m : Nat) (hm : m < l) :
    slotIndex (listTree d k l) (numBuffers l d k) (List.replicate m 0) 1 = some (m + 1) := by
  have h : ∀ (l : Fin 4) (m : Fin 4), m.val < l.val →
      slotIndex (listTree d k l.val) (numBuffers l.val d k) (List.replicate m.val 0) 1 = some (m.val + 1) := by
    cases d <;> cases k <;> decide +kernel
  exact h ⟨l, by omega⟩ ⟨m, by omega⟩ hm

theorem slotIndex_root {l : Nat} (hl : l ≤ 3) (d : Dims) (k : CoordKind) :
    slotIndex (listTree d k l) (numBuffers l d k) [] 0 = some 0 := by
  have h : ∀ (l : Fin 4), slotIndex (listTree d k l.val) (numBuffers l.val d k) [] 0 = some 0 := by
    cases d <;> cases k <;> decide +kernel
  exact h ⟨l, by omega⟩

theorem slotIndex_below {l : Nat} (hl : l ≤ 3) (d : Dims) (k : CoordKind) (m : Nat) (hm : m < l) :
    slotIndex (listTree d k l) (numBuffers l d k) (List.replicate (m + 1) 0) 0 = none := by
  have h : ∀ (l : Fin 4) (m : Fin 4), m.val < l.val →
      slotIndex (listTree d k l.val) (numBuffers l.val d k) (List.replicate (m.val + 1) 0) 0 = none := by
    cases d <;> cases k <;> decide +kernel
  exact h ⟨l, by omega⟩ ⟨m, by omega⟩ hm

theorem slotIndex_sep {l : Nat} (hl : l ≤ 3) (d : Dims) (j : Nat) (hj : j < d.n) :
    slotIndex (listTree d .separate l) (numBuffers l d .separate) (List.replicate l 0 ++ [j]) 1 = some (l + 1 + j) := by
  have h : ∀ (l : Fin 4) (j : Fin 4), j.val < d.n →
      slotIndex (listTree d .separate l.val) (numBuffers l.val d .separate) (List.replicate l.val 0 ++ [j.val]) 1 = some (l.val + 1 + j.val) := by
    cases d <;> decide +kernel
  have := Dims.n_le d
  exact h ⟨l, by omega⟩ ⟨j, by omega⟩ hj

theorem slotIndex_sep0 {l : Nat} (hl : l ≤ 3) (d : Dims) (j : Nat) (hj : j < d.n) :
    slotIndex (listTree d .separate l) (numBuffers l d .separate) (List.replicate l 0 ++ [j]) 0 = none := by
  have h : ∀ (l : Fin 4) (j : Fin 4), j.val < d.n →
      slotIndex (listTree d .separate l.val) (numBuffers l.val d .separate) (List.replicate l.val 0 ++ [j.val]) 0 = none := by
    cases d <;> decide +kernel
  have := Dims.n_le d
  exact h ⟨l, by omega⟩ ⟨j, by omega⟩ hj

theorem slotIndex_int {l : Nat} (hl : l ≤ 3) (d : Dims) :
    slotIndex (listTree d .interleaved l) (numBuffers l d .interleaved) (List.replicate l 0 ++ [0]) 1 = some (l + 1) := by
  have h : ∀ (l : Fin 4),
      slotIndex (listTree d .interleaved l.val) (numBuffers l.val d .interleaved) (List.replicate l.val 0 ++ [0]) 1 = some (l.val + 1) := by
    cases d <;> decide +kernel
  exact h ⟨l, by omega⟩

theorem slotIndex_int0 {l : Nat} (hl : l ≤ 3) (d : Dims) :
    slotIndex (listTree d .interleaved l) (numBuffers l d .interleaved) (List.replicate l 0 ++ [0]) 0 = none := by
  have h : ∀ (l : Fin 4),
      slotIndex (listTree d .interleaved l.val) (numBuffers l.val d .interleaved) (List.replicate l.val 0 ++ [0]) 0 = none := by
    cases d <;> decide +kernel
  exact h ⟨l, by omega⟩

theorem nodup_native {l : Nat} (hl : l ≤ 3) (d : Dims) (k : CoordKind) :
    (flatBuffers BKind.nBuffers 0 [] (listTree d k l)).Nodup ∧ (flatBuffers BKind.nBuffers 0 [] (listTree d k l)).length = numBuffers l d k := by
  have h : ∀ (l : Fin 4), (flatBuffers BKind.nBuffers 0 [] (listTree d k l.val)).Nodup ∧
      (flatBuffers BKind.nBuffers 0 [] (listTree d k l.val)).length = numBuffers l.val d k := by
    cases d <;> cases k <;> decide +kernel
  exact h ⟨l, by omega⟩

/-! ## Lengths -/

theorem slot_inj {b : Builder} (hnd : (flatBuffers BKind.nBuffers 0 [] b.tree).Nodup) {i j : Nat} {f : FoundBuffer}
    (hi : b.slot i = some f) (hj : b.slot j = some f) : i = j := by
  rw [slot_eq] at hi hj
  obtain ⟨x, hx, h1⟩ := Option.map_eq_some_iff.mp hi
  obtain ⟨y, hy, h2⟩ := Option.map_eq_some_iff.mp hj
  have : x = y := toFound_inj (h1.trans h2.symm)
  subst this
  obtain ⟨hi', hx'⟩ := List.getElem?_eq_some_iff.mp hx
  obtain ⟨hj', hy'⟩ := List.getElem?_eq_some_iff.mp hy
  by_cases hlt : i < j
  · exact absurd (hx'.trans hy'.symm) (List.pairwise_iff_getElem.mp hnd i j hi' hj' hlt)
  · by_cases hgt : j < i
    · exact absurd (hy'.trans hx'.symm) (List.pairwise_iff_getElem.mp hnd j i hj' hi' hgt)
    · omega

theorem slot_of_index {b : Builder} {p : List Nat} {j i : Nat} (h : slotIndex b.tree b.nBuffers p j = some i) :
    i < b.nBuffers ∧ b.slot i = some ⟨p, p.length, j⟩ := by
  have h1 := List.find?_some h
  have h2 := List.mem_of_find?_eq_some h
  exact ⟨List.mem_range.mp h2, of_decide_eq_true h1⟩

theorem slot_level {b : Builder} {i : Nat} {f : FoundBuffer} (h : b.slot i = some f) : f.level = f.path.length := by
  rw [slot_eq] at h
  obtain ⟨x, -, rfl⟩ := Option.map_eq_some_iff.mp h
  rfl

theorem lengths_skip {b : Builder} {p : List Nat} : ∀ (k i : Nat) (len : List Nat → Int),
    (∀ i', i ≤ i' → i' < i + k → (b.slot i').isSome ∧ b.slot i' ≠ some ⟨p, p.length, 1⟩) → b.lengths k i len p = len p
  | 0, i, len, _ => rfl
  | k + 1, i, len, h => by
    unfold Builder.lengths
    obtain ⟨hs, hne⟩ := h i (by omega) (by omega)
    obtain ⟨f, hf⟩ := Option.isSome_iff_exists.mp hs
    rw [hf]
    dsimp only
    cases hl : lengthFromBuffer b.schema f (b.bufs i).size with
    | none => exact lengths_skip k (i + 1) len fun i' h1 h2 => h i' (by omega) (by omega)
    | some n =>
      dsimp only
      rw [lengths_skip k (i + 1) _ fun i' h1 h2 => h i' (by omega) (by omega)]
      rw [if_neg]
      intro hp
      apply hne
      have hi : f.i = 1 := by
        unfold lengthFromBuffer at hl
        by_cases hc : f.i = 1
        · exact hc
        · rw [if_pos hc] at hl; cases hl
      rw [hf, hp]
      have := slot_level hf
      cases f
      simp_all

theorem lengths_hit {b : Builder} {p : List Nat} {i0 : Nat} {N : Int} (hnd : (flatBuffers BKind.nBuffers 0 [] b.tree).Nodup)
    (hs0 : b.slot i0 = some ⟨p, p.length, 1⟩) (hN : lengthFromBuffer b.schema ⟨p, p.length, 1⟩ (b.bufs i0).size = some N) :
    ∀ (k i : Nat) (len : List Nat → Int), i ≤ i0 → i0 < i + k → (∀ i', i ≤ i' → i' < i + k → (b.slot i').isSome) →
      b.lengths k i len p = N
  | 0, i, len, h1, h2, _ => by omega
  | k + 1, i, len, h1, h2, hall => by
    unfold Builder.lengths
    by_cases hi : i = i0
    · subst hi
      rw [hs0]
      dsimp only
      rw [hN]
      dsimp only
      rw [lengths_skip k (i + 1)]
      · rw [if_pos rfl]
      · intro i' h3 h4
        refine ⟨hall i' (by omega) (by omega), ?_⟩
        intro hc
        have := slot_inj hnd hs0 hc
        omega
    · obtain ⟨f, hf⟩ := Option.isSome_iff_exists.mp (hall i (by omega) (by omega))
      rw [hf]
      dsimp only
      cases hl : lengthFromBuffer b.schema f (b.bufs i).size with
      | none => exact lengths_hit hnd hs0 hN k (i + 1) len (by omega) (by omega) fun i' h3 h4 => hall i' (by omega) (by omega)
      | some n => exact lengths_hit hnd hs0 hN k (i + 1) _ (by omega) (by omega) fun i' h3 h4 => hall i' (by omega) (by omega)

/-! ## The array -/

def bytesOf (b : Builder) (i : Nat) : List Byte := (b.bufs i).mem.take (b.bufs i).size

/-- The array of coordinates. -/
def builtCoords (b : Builder) (l : Nat) (d : Dims) (k : CoordKind) (N : Nat) (v : Option (List Byte)) : AArray :=
  match k with
  | .separate => .mk N 0 0 [v] ((List.range d.n).map fun j => .mk N 0 0 [none, some (bytesOf b (l + 1 + j))] [])
  | .interleaved => .mk N 0 0 [v] [.mk ((N * d.n : Nat) : Int) 0 0 [none, some (bytesOf b (l + 1))] []]

/-- The array of lists from level `lv` on, `m` levels of them. -/
def builtLists (b : Builder) (l : Nat) (d : Dims) (k : CoordKind) (N : Nat) (offs : Nat → List Int) : (m lv : Nat) → Option (List Byte) → AArray
  | 0, _, v => builtCoords b l d k N v
  | m + 1, lv, v => .mk (((offs lv).length - 1 : Nat) : Int) 0 0 [v, some (i32Bytes (offs lv))] [builtLists b l d k N offs m (lv + 1) none]

/-- What a builder of a native type holds, sizes of coordinate buffers included. -/
structure Synced (g : Int) (d : Dims) (k : CoordKind) (b : Builder) (offs : Nat → List Int) (N : Nat) : Prop where
  native : NativeB g d k b
  offsets : ∀ i, i < listDepth g → Has (b.bufs (i + 1)) (i32Bytes (offs i))
  sizes : ∀ i, listDepth g < i → i < b.nBuffers → (b.bufs i).size = 8 * strideOf d k * N ∧ (b.bufs i).size ≤ (b.bufs i).mem.length

theorem coordLevel_native {g : Int} (hg : 1 ≤ g ∧ g ≤ 6) : coordLevel g = some (listDepth g) := by
  have h6 : g = 1 ∨ g = 2 ∨ g = 3 ∨ g = 4 ∨ g = 5 ∨ g = 6 := by omega
  rcases h6 with rfl | rfl | rfl | rfl | rfl | rfl <;> rfl

theorem coordScale_native {g : Int} {d : Dims} {k : CoordKind} {b : Builder} (hb : NativeB g d k b) :
    coordScale b.schema = some (strideOf d k : Int) := by
  unfold coordScale
  rw [hb.coords, hb.dims]
  cases k <;> cases d <;> rfl

theorem nativeId_range {g : Int} (hg : 1 ≤ g ∧ g ≤ 6) (d : Dims) (k : CoordKind) : nativeId g d k < 20000 := by
  unfold nativeId
  have h1 : (d.code : Int) ≤ 4 := by cases d <;> decide
  have h2 : k.code ≤ 2 := by cases k <;> decide
  omega

theorem lengthFromBuffer_native {g : Int} (hg : 1 ≤ g ∧ g ≤ 6) {d : Dims} {k : CoordKind} {b : Builder} (hb : NativeB g d k b)
    (p : List Nat) (lev size : Nat) :
    lengthFromBuffer b.schema ⟨p, lev, 1⟩ size =
      some (if size = 0 then 0 else if lev < listDepth g then (size : Int) / 4 - 1 else (size : Int) / 8) := by
  have hr := nativeId_range hg d k
  have ht : (b.schema.type : Int) < 20000 := by rw [hb.type]; exact hr
  unfold lengthFromBuffer
  rw [if_neg (by simp)]
  by_cases h0 : size = 0
  · rw [if_pos h0, if_pos h0]
  rw [if_neg h0, if_neg h0]
  have h1 : ¬ (b.schema.type = 100001 ∨ b.schema.type = 100003) := by
    generalize b.schema.type = t at ht
    intro hc
    have : ∀ t : Int, t < 20000 → t = 100001 ∨ t = 100003 → False := by omega
    exact this t ht hc
  have h2 : ¬ (b.schema.type = 100002 ∨ b.schema.type = 100004) := by
    generalize b.schema.type = t at ht
    intro hc
    have : ∀ t : Int, t < 20000 → t = 100002 ∨ t = 100004 → False := by omega
    exact this t ht hc
  rw [if_neg h1, if_neg h2, hb.geometry, coordLevel_native hg]
  dsimp only
  split <;> rfl

section
variable {g : Int} {d : Dims} {k : CoordKind} {b : Builder} {offs : Nat → List Int} {N : Nat}

theorem slots_some (hg : NativeB g d k b) : ∀ i, i < b.nBuffers → (b.slot i).isSome := by
  intro i hi
  obtain ⟨hnd, hlen⟩ := nodup_native (depth_le g) d k
  rw [slot_eq, hg.tree]
  rw [hg.nBuffers, ← hlen] at hi
  rw [List.getElem?_eq_getElem hi]
  rfl

theorem length_of_index (hg : 1 ≤ g ∧ g ≤ 6) (hb : NativeB g d k b) {p : List Nat} {i : Nat}
    (h : slotIndex b.tree b.nBuffers p 1 = some i) :
    b.lengths b.nBuffers 0 (fun _ => 0) p =
      if (b.bufs i).size = 0 then 0 else if p.length < listDepth g then ((b.bufs i).size : Int) / 4 - 1 else ((b.bufs i).size : Int) / 8 := by
  obtain ⟨h1, h2⟩ := slot_of_index h
  have hnd : (flatBuffers BKind.nBuffers 0 [] b.tree).Nodup := by rw [hb.tree]; exact (nodup_native (depth_le g) d k).1
  exact lengths_hit hnd h2 (lengthFromBuffer_native hg hb p p.length (b.bufs i).size) b.nBuffers 0 _ (by omega) (by omega)
    fun i' _ hi' => slots_some hb i' (by omega)

/-- Lengths of the arrays. -/
def lens (b : Builder) : List Nat → Int := setContainerLength b.schema (b.lengths b.nBuffers 0 fun _ => 0)

theorem lens_other (hg : 1 ≤ g ∧ g ≤ 6) (hb : NativeB g d k b) {p : List Nat} (hp : p.length ≠ listDepth g) :
    lens b p = b.lengths b.nBuffers 0 (fun _ => 0) p := by
  unfold lens setContainerLength
  rw [coordScale_native hb, hb.geometry, coordLevel_native hg]
  dsimp only
  rw [if_neg]
  intro hc
  rw [hc, List.length_replicate] at hp
  exact hp rfl

theorem lens_list (hg : 1 ≤ g ∧ g ≤ 6) (hs : Synced g d k b offs N) {m : Nat} (hm : m < listDepth g) :
    lens b (List.replicate m 0) = (((offs m).length - 1 : Nat) : Int) := by
  have hb := hs.native
  rw [lens_other hg hb (by rw [List.length_replicate]; omega)]
  have hi := slotIndex_list (depth_le g) d k m hm
  rw [← hb.tree, ← hb.nBuffers] at hi
  rw [length_of_index hg hb hi, List.length_replicate, if_pos hm]
  obtain ⟨h1, -⟩ := hs.offsets m hm
  rw [length_i32Bytes] at h1
  rw [h1]
  split <;> omega

theorem lens_leaf (hg : 1 ≤ g ∧ g ≤ 6) (hs : Synced g d k b offs N) {j i : Nat}
    (hi : slotIndex b.tree b.nBuffers (List.replicate (listDepth g) 0 ++ [j]) 1 = some i) (hl : listDepth g < i) :
    lens b (List.replicate (listDepth g) 0 ++ [j]) = ((strideOf d k * N : Nat) : Int) := by
  have hb := hs.native
  rw [lens_other hg hb (by rw [List.length_append, List.length_replicate, List.length_singleton]; omega)]
  have hnl : ¬ (List.replicate (listDepth g) 0 ++ [j]).length < listDepth g := by
    rw [List.length_append, List.length_replicate]; omega
  rw [length_of_index hg hb hi, if_neg hnl]
  obtain ⟨h1, -⟩ := hs.sizes i hl (slot_of_index hi).1
  rw [h1]
  have h8 : ((8 * strideOf d k * N : Nat) : Int) / 8 = ((strideOf d k * N : Nat) : Int) := by rw [Nat.mul_assoc]; omega
  split
  · rename_i h0
    have : strideOf d k * N = 0 := by rw [Nat.mul_assoc] at h0; omega
    omega
  · exact h8

theorem leaf_index (hb : NativeB g d k b) :
    slotIndex b.tree b.nBuffers (List.replicate (listDepth g) 0 ++ [0]) 1 = some (listDepth g + 1) := by
  rw [hb.tree, hb.nBuffers]
  cases k
  · exact slotIndex_sep (depth_le g) d 0 (by have := Dims.n_pos d; omega)
  · exact slotIndex_int (depth_le g) d

theorem lens_coords (hg : 1 ≤ g ∧ g ≤ 6) (hs : Synced g d k b offs N) : lens b (List.replicate (listDepth g) 0) = (N : Int) := by
  have hb := hs.native
  have hleaf := lens_leaf hg hs (leaf_index hb) (by omega)
  rw [lens_other hg hb (by rw [List.length_append, List.length_replicate, List.length_singleton]; omega)] at hleaf
  unfold lens setContainerLength
  rw [coordScale_native hb, hb.geometry, coordLevel_native hg]
  dsimp only
  rw [if_pos rfl]
  have : List.replicate (listDepth g + 1) 0 = List.replicate (listDepth g) 0 ++ [0] := by
    rw [List.replicate_succ']
  rw [this, hleaf]
  have hp := strideOf_pos d k
  rw [Int.natCast_mul, Int.mul_ediv_cancel_left _ (by omega)]

/-- The validity bitmap of the root. -/
def validityOf (b : Builder) : Option (List Byte) := if (b.bufs 0).mem = [] then none else some (bytesOf b 0)

theorem content_validity (hb : NativeB g d k b) {m : Nat} (hm : m ≤ listDepth g) :
    b.content (List.replicate m 0) 0 = if m = 0 then validityOf b else none := by
  rw [content_eq, hb.tree, hb.nBuffers]
  cases m with
  | zero =>
    have := slotIndex_root (depth_le g) d k
    rw [show List.replicate 0 0 = ([] : List Nat) from rfl, this]
    show (if 0 = 0 ∧ (b.bufs 0).mem = [] then none else _) = validityOf b
    unfold validityOf bytesOf
    by_cases h : (b.bufs 0).mem = []
    · rw [if_pos h, if_pos ⟨rfl, h⟩]
    · rw [if_neg h, if_neg (by simp [h])]
  | succ m => rw [slotIndex_below (depth_le g) d k m (by omega)]; rfl

theorem content_index {p : List Nat} {i : Nat} (h : slotIndex b.tree b.nBuffers p 1 = some i) : b.content p 1 = some (bytesOf b i) := by
  rw [content_eq, h]
  dsimp only
  rw [if_neg (by simp)]
  rfl

theorem arraysAt_leaves (len : List Nat → Int) (p : List Nat) : ∀ (n k0 : Nat),
    b.arraysAt len (List.replicate n (.node .double [])) p k0 =
      (List.range' k0 n).map fun j => .mk (len (p ++ [j])) 0 0 [b.content (p ++ [j]) 0, b.content (p ++ [j]) 1] []
  | 0, _ => rfl
  | n + 1, k0 => by
    rw [List.replicate_succ, List.range'_succ, List.map_cons]
    unfold Builder.arraysAt
    rw [arraysAt_leaves len p n (k0 + 1)]
    rfl

theorem arrayAt_coords (hg : 1 ≤ g ∧ g ≤ 6) (hs : Synced g d k b offs N) :
    b.arrayAt (lens b) (coordTree d k) (List.replicate (listDepth g) 0) =
      builtCoords b (listDepth g) d k N (if listDepth g = 0 then validityOf b else none) := by
  have hb := hs.native
  have hv := content_validity hb (Nat.le_refl (listDepth g))
  have hl := lens_coords hg hs
  cases k with
  | separate =>
    show AArray.mk (lens b _) 0 0 [b.content _ 0] (b.arraysAt (lens b) (List.replicate d.n (.node .double [])) _ 0) = _
    rw [hl, hv, arraysAt_leaves]
    unfold builtCoords
    dsimp only
    congr 1
    rw [List.range_eq_range']
    apply List.map_congr_left
    intro j hj
    have hj' : j < d.n := by
      rw [← List.range_eq_range'] at hj
      exact List.mem_range.mp hj
    have hi := slotIndex_sep (depth_le g) d j hj'
    rw [← hb.tree, ← hb.nBuffers] at hi
    have hi0 := slotIndex_sep0 (depth_le g) d j hj'
    rw [← hb.tree, ← hb.nBuffers] at hi0
    rw [content_index hi, lens_leaf hg hs hi (by omega), content_eq, hi0]
    show AArray.mk ((1 * N : Nat) : Int) _ _ _ _ = _
    rw [Nat.one_mul]
    rfl
  | interleaved =>
    show AArray.mk (lens b _) 0 0 [b.content _ 0] (b.arraysAt (lens b) (List.replicate 1 (.node .double [])) _ 0) = _
    rw [hl, hv, arraysAt_leaves]
    unfold builtCoords
    dsimp only
    congr 1
    have hi := leaf_index hb
    have hi0 := slotIndex_int0 (depth_le g) d
    rw [← hb.tree, ← hb.nBuffers] at hi0
    show [AArray.mk _ _ _ _ _] = _
    rw [content_index hi, lens_leaf hg hs hi (by omega), content_eq, hi0]
    show [AArray.mk ((d.n * N : Nat) : Int) _ _ _ _] = _
    rw [Nat.mul_comm]
    rfl

theorem arrayAt_lists (hg : 1 ≤ g ∧ g ≤ 6) (hs : Synced g d k b offs N) : ∀ (m lv : Nat), lv + m = listDepth g →
    b.arrayAt (lens b) (listTree d k m) (List.replicate lv 0) =
      builtLists b (listDepth g) d k N offs m lv (if lv = 0 then validityOf b else none)
  | 0, lv, h => by
    have hlv : lv = listDepth g := by omega
    subst hlv
    exact arrayAt_coords hg hs
  | m + 1, lv, h => by
    have hb := hs.native
    show AArray.mk (lens b _) 0 0 [b.content _ 0, b.content _ 1] [b.arrayAt (lens b) (listTree d k m) (List.replicate lv 0 ++ [0])] = _
    have e : List.replicate lv 0 ++ [0] = List.replicate (lv + 1) (0 : Nat) := by rw [List.replicate_succ']
    have hi := slotIndex_list (depth_le g) d k lv (by omega)
    rw [← hb.tree, ← hb.nBuffers] at hi
    rw [e, arrayAt_lists hg hs m (lv + 1) (by omega), lens_list hg hs (by omega), content_validity hb (by omega), content_index hi]
    show _ = AArray.mk (((offs lv).length - 1 : Nat) : Int) 0 0 [_, some (i32Bytes (offs lv))] [builtLists b (listDepth g) d k N offs m (lv + 1) none]
    have ho := (hs.offsets lv (by omega)).2.2.1
    rw [if_neg (by omega : ¬ lv + 1 = 0)]
    unfold bytesOf
    rw [ho]

theorem array_eq (hg : 1 ≤ g ∧ g ≤ 6) (hs : Synced g d k b offs N) :
    b.array = builtLists b (listDepth g) d k N offs (listDepth g) 0 (validityOf b) := by
  have := arrayAt_lists hg hs (listDepth g) 0 (by omega)
  unfold Builder.array
  rw [hs.native.tree]
  exact this

end

end Verif
