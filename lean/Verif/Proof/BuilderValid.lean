import Verif.Proof.BuilderFinish
/-! # Builder: what is finished passes validation -/
namespace Verif
open Spec

theorem drop_i32Bytes (vs : List Int) (t : Nat) : (i32Bytes vs).drop (4 * t) = i32Bytes (vs.drop t) := by
  induction t generalizing vs with
  | zero => rfl
  | succ t ih =>
    cases vs with
    | nil => simp [i32Bytes]
    | cons v vs =>
      show (leBytes 4 _ ++ i32Bytes vs).drop (4 * (t + 1)) = i32Bytes (vs.drop t)
      rw [← ih vs, show 4 * (t + 1) = (leBytes 4 (BitVec.ofInt 32 v).toNat).length + 4 * t by rw [length_leBytes]; omega, ← List.drop_drop, List.drop_left]

theorem i32At_i32Bytes {vs : List Int} {t : Nat} {v : Int} (h : vs[t]? = some v) (hv : -2 ^ 31 ≤ v ∧ v < 2 ^ 31) :
    i32At (i32Bytes vs) t = some v := by
  obtain ⟨ht, hv'⟩ := List.getElem?_eq_some_iff.mp h
  unfold i32At
  rw [length_i32Bytes, if_pos (by omega), show (4 * (t : Int)).toNat = 4 * t by omega, drop_i32Bytes,
    List.drop_eq_getElem_cons ht, hv']
  show some (BitVec.ofNat 32 (leVal ((leBytes 4 (BitVec.ofInt 32 v).toNat ++ i32Bytes (vs.drop (t + 1))).take 4))).toInt = some v
  rw [List.take_append_of_le_length (by rw [length_leBytes]; omega), List.take_of_length_le (by rw [length_leBytes]; omega),
    leVal_leBytes_of_lt (BitVec.isLt _), BitVec.ofNat_toNat, BitVec.setWidth_eq, BitVec.toInt_ofInt]
  congr 1
  rw [Int.bmod_eq_of_le] <;> omega

/-- Number of slots at a level: of a list array, one less than it has offsets. -/
def levelLen (l : Nat) (offs : Nat → List Int) (N lv : Nat) : Nat := if lv < l then (offs lv).length - 1 else N

/-- Offsets that validation accepts. -/
structure OffsOk (l : Nat) (offs : Nat → List Int) (N : Nat) : Prop where
  range : ∀ i, i < l → ∀ v ∈ offs i, 0 ≤ v ∧ v < 2 ^ 31
  last : ∀ i v, i < l → (offs i)[(offs i).length - 1]? = some v → v ≤ (levelLen l offs N (i + 1) : Int)

section
variable {g : Int} {d : Dims} {k : CoordKind} {b : Builder} {offs : Nat → List Int} {N : Nat}

/-- A validity bitmap long enough for `n` slots, or none. -/
def BitsFit (v : Option (List Byte)) (n : Nat) : Prop := ∀ vb, v = some vb → vb = [] ∨ bytesForBits n ≤ vb.length

theorem bitsFit_none (n : Nat) : BitsFit none n := by intro vb h; cases h

theorem builtLists_length (l : Nat) : ∀ (m lv : Nat) (v : Option (List Byte)), lv + m = l →
    (builtLists b l d k N offs m lv v).length = (levelLen l offs N lv : Int)
  | 0, lv, v, h => by
    unfold levelLen
    rw [if_neg (by omega)]
    cases k <;> rfl
  | m + 1, lv, v, h => by
    unfold levelLen
    rw [if_pos (by omega)]
    rfl

theorem minimal_validity {v : Option (List Byte)} {n : Nat} (h : BitsFit v n) (len : Int) (hn : len = n) (r : List (Option (List Byte))) (c : List AArray) :
    ((decide ((AArray.mk len 0 0 (v :: r) c).nullCount = 0) && decide ((AArray.mk len 0 0 (v :: r) c).bufSize 0 = 0)) ||
      decide ((bytesForBits (AArray.mk len 0 0 (v :: r) c).length.toNat : Int) ≤ (AArray.mk len 0 0 (v :: r) c).bufSize 0)) = true := by
  subst hn
  cases v with
  | none => rfl
  | some vb =>
    rcases h vb rfl with rfl | hle
    · rfl
    · rw [Bool.or_eq_true]
      right
      refine decide_eq_true ?_
      show (bytesForBits (n : Int).toNat : Int) ≤ (vb.length : Int)
      rw [Int.toNat_natCast]
      omega

theorem bytesOf_length (hs : Synced g d k b offs N) {i : Nat} (h1 : listDepth g < i) (h2 : i < b.nBuffers) :
    (bytesOf b i).length = 8 * (strideOf d k * N) := by
  obtain ⟨h3, h4⟩ := hs.sizes i h1 h2
  unfold bytesOf
  rw [List.length_take, ← Nat.mul_assoc]
  omega

theorem minimal_leaf {bs : List Byte} {n : Nat} (h : bs.length = 8 * n) : naTreeMinimal (.node .double []) (.mk n 0 0 [none, some bs] []) = true := by
  unfold naTreeMinimal naMinimalOk naTreesMinimal
  have h1 : decide (0 ≤ (AArray.mk (n : Int) 0 0 [none, some bs] []).length) = true := decide_eq_true (by show 0 ≤ (n : Int); omega)
  have h2 := minimal_validity (bitsFit_none n) (n : Int) rfl [some bs] []
  have h3 : decide (8 * (AArray.mk (n : Int) 0 0 [none, some bs] []).length ≤ (AArray.mk (n : Int) 0 0 [none, some bs] []).bufSize 1) = true :=
    decide_eq_true (by show 8 * (n : Int) ≤ (bs.length : Int); omega)
  rw [h1, h2]
  dsimp only
  rw [h3]
  rfl

theorem minimal_leaves {n : Nat} : ∀ (r : List Nat) (f : Nat → List Byte), (∀ j ∈ r, (f j).length = 8 * n) →
    naTreesMinimal (List.replicate r.length (.node .double [])) (r.map fun j => .mk n 0 0 [none, some (f j)] []) = true
  | [], f, _ => by unfold naTreesMinimal; rfl
  | j :: r, f, h => by
    rw [List.length_cons, List.replicate_succ, List.map_cons]
    unfold naTreesMinimal
    rw [minimal_leaf (h j (by simp)), minimal_leaves r f fun j' hj' => h j' (by simp [hj'])]
    rfl

theorem minimal_coords (hs : Synced g d k b offs N) {v : Option (List Byte)} (hv : BitsFit v N) :
    naTreeMinimal (coordTree d k) (builtCoords b (listDepth g) d k N v) = true := by
  have hb := hs.native
  cases k with
  | separate =>
    have hnb : b.nBuffers = 1 + listDepth g + d.n := hb.nBuffers
    unfold coordTree builtCoords
    dsimp only
    unfold naTreeMinimal naMinimalOk
    rw [minimal_validity hv _ rfl]
    have h1 : decide (0 ≤ (AArray.mk (N : Int) 0 0 [v] ((List.range d.n).map fun j => .mk N 0 0 [none, some (bytesOf b (listDepth g + 1 + j))] [])).length) = true :=
      decide_eq_true (by show 0 ≤ (N : Int); omega)
    have h2 := minimal_leaves (n := N) (List.range d.n) (fun j => bytesOf b (listDepth g + 1 + j)) (by
      intro j hj
      rw [List.mem_range] at hj
      rw [bytesOf_length hs (by omega) (by omega)]
      show 8 * (1 * N) = _
      omega)
    rw [List.length_range] at h2
    rw [h1]
    show ((true && true && (List.all ((List.range d.n).map fun j => AArray.mk (N : Int) 0 0 [none, some (bytesOf b (listDepth g + 1 + j))] [])
      fun c => decide ((N : Int) ≤ c.length))) && naTreesMinimal _ ((List.range d.n).map fun j => AArray.mk (N : Int) 0 0 [none, some (bytesOf b (listDepth g + 1 + j))] [])) = true
    rw [h2]
    simp only [Bool.true_and, Bool.and_true]
    rw [List.all_eq_true]
    intro c hc
    obtain ⟨j, -, rfl⟩ := List.mem_map.mp hc
    exact decide_eq_true (Int.le_refl _)
  | interleaved =>
    have hnb : b.nBuffers = 1 + listDepth g + 1 := hb.nBuffers
    unfold coordTree builtCoords
    dsimp only
    unfold naTreeMinimal naMinimalOk
    rw [minimal_validity hv _ rfl]
    have h1 : decide (0 ≤ (AArray.mk (N : Int) 0 0 [v] [.mk ((N * d.n : Nat) : Int) 0 0 [none, some (bytesOf b (listDepth g + 1))] []]).length) = true :=
      decide_eq_true (by show 0 ≤ (N : Int); omega)
    have h2 := minimal_leaf (n := N * d.n) (bs := bytesOf b (listDepth g + 1)) (by
      rw [bytesOf_length hs (by omega) (by omega)]
      show 8 * (d.n * N) = _
      rw [Nat.mul_comm d.n])
    rw [h1]
    show ((true && true && decide ((N : Int) * (d.n : Int) ≤ ((N * d.n : Nat) : Int))) && naTreesMinimal [_] [_]) = true
    unfold naTreesMinimal
    rw [h2, decide_eq_true (by rw [Int.natCast_mul]; exact Int.le_refl _)]
    unfold naTreesMinimal
    rfl

theorem minimal_lists (hs : Synced g d k b offs N) : ∀ (m lv : Nat) (v : Option (List Byte)), lv + m = listDepth g →
    BitsFit v (levelLen (listDepth g) offs N lv) →
    naTreeMinimal (listTree d k m) (builtLists b (listDepth g) d k N offs m lv v) = true
  | 0, lv, v, h, hv => by
    unfold levelLen at hv
    rw [if_neg (by omega)] at hv
    exact minimal_coords hs hv
  | m + 1, lv, v, h, hv => by
    have ih := minimal_lists hs m (lv + 1) none (by omega) (bitsFit_none _)
    unfold listTree builtLists naTreeMinimal naMinimalOk
    have hlen : (((offs lv).length - 1 : Nat) : Int) = ((levelLen (listDepth g) offs N lv : Nat) : Int) := by
      unfold levelLen
      rw [if_pos (by omega)]
    rw [minimal_validity hv _ hlen]
    have h1 : (decide ((((offs lv).length - 1 : Nat) : Int) = 0) || decide (4 * ((((offs lv).length - 1 : Nat) : Int) + 1) ≤ ((i32Bytes (offs lv)).length : Int))) = true := by
      rw [length_i32Bytes, Bool.or_eq_true, decide_eq_true_eq, decide_eq_true_eq]
      omega
    show ((decide (0 ≤ (((offs lv).length - 1 : Nat) : Int)) && true && (decide ((((offs lv).length - 1 : Nat) : Int) = 0) ||
      decide (4 * ((((offs lv).length - 1 : Nat) : Int) + 1) ≤ ((i32Bytes (offs lv)).length : Int)))) && naTreesMinimal [_] [_]) = true
    unfold naTreesMinimal
    rw [ih, h1, decide_eq_true (by omega : 0 ≤ (((offs lv).length - 1 : Nat) : Int))]
    unfold naTreesMinimal
    rfl

theorem default_leaves {n : Nat} : ∀ (r : List Nat) (f : Nat → List Byte),
    naTreesDefault (List.replicate r.length (.node .double [])) (r.map fun j => .mk n 0 0 [none, some (f j)] []) = some true
  | [], f => by unfold naTreesDefault; rfl
  | j :: r, f => by
    rw [List.length_cons, List.replicate_succ, List.map_cons]
    unfold naTreesDefault
    rw [default_leaves r f]
    unfold naTreeDefault naDefaultOk naTreesDefault
    rfl

theorem default_coords (l : Nat) {v : Option (List Byte)} :
    naTreeDefault (coordTree d k) (builtCoords b l d k N v) = some true := by
  cases k with
  | separate =>
    unfold coordTree builtCoords naTreeDefault naDefaultOk
    dsimp only
    have h := default_leaves (n := N) (List.range d.n) (fun j => bytesOf b (l + 1 + j))
    rw [List.length_range] at h
    have hall : ((AArray.mk (N : Int) 0 0 [v] ((List.range d.n).map fun j => .mk N 0 0 [none, some (bytesOf b (l + 1 + j))] [])).children.all
        fun c => decide ((AArray.mk (N : Int) 0 0 [v] ((List.range d.n).map fun j => .mk N 0 0 [none, some (bytesOf b (l + 1 + j))] [])).length ≤ c.length)) = true := by
      rw [List.all_eq_true]
      intro c hc
      obtain ⟨j, -, rfl⟩ := List.mem_map.mp hc
      exact decide_eq_true (Int.le_refl _)
    rw [hall]
    exact h
  | interleaved => rfl

theorem default_lists (hs : Synced g d k b offs N) (ho : OffsOk (listDepth g) offs N) : ∀ (m lv : Nat) (v : Option (List Byte)),
    lv + m = listDepth g → naTreeDefault (listTree d k m) (builtLists b (listDepth g) d k N offs m lv v) = some true
  | 0, lv, v, h => default_coords (listDepth g)
  | m + 1, lv, v, h => by
    have ih := default_lists hs ho m (lv + 1) none (by omega)
    unfold listTree builtLists naTreeDefault naDefaultOk
    have hcl := builtLists_length (b := b) (d := d) (k := k) (N := N) (offs := offs) (listDepth g) m (lv + 1) none (by omega)
    have hoff : naOffsetsOk i32At (AArray.mk (((offs lv).length - 1 : Nat) : Int) 0 0 [v, some (i32Bytes (offs lv))] [builtLists b (listDepth g) d k N offs m (lv + 1) none])
        (builtLists b (listDepth g) d k N offs m (lv + 1) none).length = some true := by
      unfold naOffsetsOk
      show (if i32Bytes (offs lv) = [] then some true else _) = some true
      by_cases hemp : i32Bytes (offs lv) = []
      · rw [if_pos hemp]
      have hl0 : (offs lv).length ≠ 0 := by
        intro hc
        exact hemp (by rw [List.length_eq_zero_iff.mp hc]; rfl)
      rw [if_neg hemp]
      have hfirst : (offs lv)[0]? = some (offs lv)[0] := List.getElem?_eq_getElem (by omega)
      have hlast : (offs lv)[(offs lv).length - 1]? = some (offs lv)[(offs lv).length - 1] := List.getElem?_eq_getElem (by omega)
      have r1 := ho.range lv (by omega) _ (List.mem_of_getElem? hfirst)
      have r2 := ho.range lv (by omega) _ (List.mem_of_getElem? hlast)
      have hle := ho.last lv _ (by omega) hlast
      show ((i32At (i32Bytes (offs lv)) 0).bind fun first => (i32At (i32Bytes (offs lv)) (((offs lv).length - 1 : Nat) : Int)).bind fun last =>
        some (decide (0 ≤ first) && decide (0 ≤ last) && decide (last ≤ _))) = some true
      have e0 := i32At_i32Bytes hfirst (by omega)
      have e1 := i32At_i32Bytes hlast (by omega)
      rw [e1]
      rw [show ((0 : Nat) : Int) = 0 from rfl] at e0
      rw [e0, hcl]
      simp only [Option.bind_some]
      rw [decide_eq_true r1.1, decide_eq_true r2.1, decide_eq_true hle]
      rfl
    show (Option.bind (naOffsetsOk i32At _ (builtLists b (listDepth g) d k N offs m (lv + 1) none).length) fun ok => if ok = true then naTreesDefault [_] [_] else some false) = _
    rw [hoff]
    simp only [Option.bind_some, if_true]
    unfold naTreesDefault
    rw [ih]
    unfold naTreesDefault
    rfl

end

/-! ## Finish -/

theorem syncCoords_same (b : Builder) : SameType b b.syncCoords := by
  unfold Builder.syncCoords
  dsimp only
  split
  · exact ⟨rfl, rfl, rfl, rfl, rfl, rfl⟩
  split <;> exact ⟨rfl, rfl, rfl, rfl, rfl, rfl⟩

theorem syncCoords_bufs {g : Int} {d : Dims} {k : CoordKind} {b : Builder} (hb : NativeB g d k b) (i : Nat) :
    b.syncCoords.bufs i = if listDepth g < i ∧ i < b.nBuffers then { b.bufs i with size := max (b.bufs i).size (b.sizeCoords * 8 * strideOf d k) } else b.bufs i := by
  have hlt := numBuffers_pos (listDepth g) d k
  rw [← hb.nBuffers] at hlt
  unfold Builder.syncCoords
  dsimp only
  cases k with
  | separate =>
    have hnb : b.nBuffers = 1 + listDepth g + d.n := hb.nBuffers
    rw [if_neg (by rw [hb.coords]; decide), if_pos (by rw [hb.coords]; rfl)]
    dsimp only
    rw [hb.nValues]
    by_cases h : listDepth g < i ∧ i < b.nBuffers
    · rw [if_pos h, if_pos (by omega)]
      show _ = { b.bufs i with size := max (b.bufs i).size (b.sizeCoords * 8 * 1) }
      rw [Nat.mul_one]
    · rw [if_neg h, if_neg (by omega)]
  | interleaved =>
    have hnb : b.nBuffers = 1 + listDepth g + 1 := hb.nBuffers
    rw [if_pos (by rw [hb.coords]; rfl)]
    dsimp only
    rw [hb.nValues]
    by_cases h : listDepth g < i ∧ i < b.nBuffers
    · have hi : i = b.nBuffers - 1 := by omega
      rw [if_pos h, hi, setAt_get]
      rfl
    · rw [if_neg h, setAt_ne _ _ (by omega)]

/-- What a native builder holds. -/
structure Built (g : Int) (d : Dims) (k : CoordKind) (b : Builder) (offs : Nat → List Int) (cs : List Coord) : Prop where
  native : NativeB g d k b
  offsets : ∀ i, i < listDepth g → Has (b.bufs (i + 1)) (i32Bytes (offs i))
  coords : CoordsOk g d k b cs

section
variable {g : Int} {d : Dims} {k : CoordKind} {b : Builder} {offs : Nat → List Int} {cs : List Coord}

theorem mem_room (hb : NativeB g d k b) (h : CoordsOk g d k b cs) {i : Nat} (h1 : listDepth g < i) (h2 : i < b.nBuffers) :
    8 * strideOf d k * cs.length ≤ (b.bufs i).mem.length := by
  rw [h.len i h1 h2]
  have hc := h.cap
  have hle := h.le
  rw [h.size, hc, Nat.le_div_iff_mul_le (strideOf_pos d k), Nat.le_div_iff_mul_le (by omega)] at hle
  rw [Nat.mul_assoc, Nat.mul_comm (strideOf d k)]
  omega

theorem synced_of_built (h : Built g d k b offs cs) :
    Synced g d k b.syncCoords offs cs.length := by
  refine ⟨h.native.of_same (syncCoords_same b), ?_, ?_⟩
  · intro i hi
    rw [syncCoords_bufs h.native, if_neg (by omega)]
    exact h.offsets i hi
  · intro i h1 h2
    rw [(syncCoords_same b).nBuffers] at h2
    rw [syncCoords_bufs h.native, if_pos ⟨h1, h2⟩]
    dsimp only
    have hf := h.coords.fits i h1 h2
    have hr := mem_room h.native h.coords h1 h2
    rw [h.coords.size]
    have e : cs.length * 8 * strideOf d k = 8 * strideOf d k * cs.length := by
      rw [Nat.mul_right_comm, Nat.mul_comm, ← Nat.mul_assoc, Nat.mul_right_comm]
    rw [e]
    refine ⟨?_, ?_⟩ <;> omega

/-- Finishing succeeds and gives the array described. -/
theorem bFinish_run (hg : 1 ≤ g ∧ g ≤ 6) (h : Built g d k b offs cs)
    (ho : OffsOk (listDepth g) offs cs.length) (hv0 : (b.bufs 0).size ≤ (b.bufs 0).mem.length)
    (hv : BitsFit (validityOf b) (levelLen (listDepth g) offs cs.length 0)) :
    bFinish b = .ok ((builtLists b.syncCoords (listDepth g) d k cs.length offs (listDepth g) 0 (validityOf b)).withNullCount
      (if (b.bufs 0).mem = [] then 0 else -1)) b.syncCoords.fresh := by
  have hs := synced_of_built h
  have hv1 : validityOf b.syncCoords = validityOf b := by
    have e : b.syncCoords.bufs 0 = b.bufs 0 := by rw [syncCoords_bufs h.native, if_neg (fun hc => absurd hc.1 (Nat.not_lt_zero _))]
    unfold validityOf bytesOf
    rw [e]
  have ha := array_eq hg hs
  rw [hv1] at ha
  have hmin := minimal_lists hs (listDepth g) 0 (validityOf b) (by omega) hv
  have hdef := default_lists hs ho (listDepth g) 0 (validityOf b) (by omega)
  unfold bFinish
  rw [M.bind_run, M.modify_run]
  dsimp only
  rw [M.bind_run, M.get_run]
  dsimp only
  have hany : ((List.range b.syncCoords.nBuffers).any fun i => decide ((b.syncCoords.bufs i).mem.length < (b.syncCoords.bufs i).size)) = false := by
    rw [List.any_eq_false]
    intro i hi
    rw [List.mem_range] at hi
    simp only [decide_eq_true_eq]
    by_cases h0 : i = 0
    · subst h0
      rw [syncCoords_bufs h.native, if_neg (by omega)]
      omega
    · by_cases hl : i ≤ listDepth g
      · obtain ⟨i', rfl⟩ : ∃ i', i = i' + 1 := ⟨i - 1, by omega⟩
        have := (hs.offsets i' (by omega)).2.1
        omega
      · have := (hs.sizes i (by omega) hi).2
        omega
  have hall : ((List.range b.syncCoords.nBuffers).all fun i => (b.syncCoords.slot i).isSome) = true := by
    rw [List.all_eq_true]
    intro i hi
    exact slots_some hs.native i (List.mem_range.mp hi)
  rw [hany, if_neg (by decide), hall, if_neg (by decide), ha, hs.native.tree, hmin, if_neg (by decide), hdef]
  simp only [M.bind_run, orUb, M.pure_run, M.modify_run, if_true]
  have hbuf0 : ∃ len rest ch, builtLists b.syncCoords (listDepth g) d k cs.length offs (listDepth g) 0 (validityOf b) = .mk len 0 0 (validityOf b :: rest) ch := by
    cases listDepth g with
    | zero => cases k <;> exact ⟨_, _, _, rfl⟩
    | succ m => exact ⟨_, _, _, rfl⟩
  obtain ⟨len, rest, ch, he⟩ := hbuf0
  rw [he]
  show Res.ok (if some (validityOf b) = some none then _ else _) _ = _
  unfold validityOf
  by_cases hm : (b.bufs 0).mem = []
  · rw [if_pos hm, if_pos rfl, if_pos hm]
    rfl
  · rw [if_neg hm, if_neg (by simp), if_neg hm]

end
end Verif
