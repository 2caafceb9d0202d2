import Verif.Proof.BuilderFind
import Verif.Proof.Coords
import Verif.Proof.Hoare
import Verif.Props.ArrayView
/-! # Builder: appends -/
namespace Verif
open Spec

/-! ## Static parts -/

/-- Distance of coordinates. -/
def strideOf (d : Dims) : CoordKind → Nat
  | .separate => 1
  | .interleaved => d.n

/-- A builder of a native type. -/
structure NativeB (g : Int) (d : Dims) (k : CoordKind) (b : Builder) : Prop where
  type : b.schema.type = nativeId g d k
  geometry : b.schema.geometryType = g
  dims : b.schema.dimensions = d.code
  coords : b.schema.coordType = k.code
  tree : b.tree = listTree d k (listDepth g)
  nOffsets : b.nOffsets = listDepth g
  nValues : b.nValues = d.n
  stride : b.stride = strideOf d k
  nBuffers : b.nBuffers = numBuffers (listDepth g) d k

theorem init_inv {t : TypeId} {b : Builder} (h : builderInitFromType t = .ok b) :
    typeTree t = some b.tree ∧ b.schema.type = t ∧ b.schema.geometryType = geometryTypeFromType t ∧
    b.schema.dimensions = dimensionsFromType t ∧ b.schema.coordType = coordTypeFromType t ∧
    b.nOffsets = (arrayViewInit b.schema).nOffsets ∧ b.nValues = (arrayViewInit b.schema).nValues.toNat ∧
    b.stride = (arrayViewInit b.schema).stride.toNat ∧
    b.nBuffers = 1 + b.nOffsets + (if b.schema.coordType = 1 then b.nValues else 1) ∧
    b.bufs = (fun _ => ⟨[], 0, 0, false⟩) ∧ b.sizeCoords = 0 ∧ b.capCoords = 0 ∧ b.values = (fun _ => none) ∧
    (∀ i, i < b.nBuffers → (b.slot i).isSome) ∧ t ≠ 100005 ∧ t ≠ 100006 := by
  unfold builderInitFromType at h
  cases hs : schemaViewInitFromType t { extName := none, extMetadata := none, type := 0, geometryType := 0, dimensions := 0, coordType := 0 } with
  | err rc s => rw [hs] at h; cases h
  | ub => rw [hs] at h; cases h
  | ok u s =>
    rw [hs] at h
    simp only at h
    have hst : s.type = t ∧ s.geometryType = geometryTypeFromType t ∧ s.dimensions = dimensionsFromType t ∧
        s.coordType = coordTypeFromType t := by
      unfold schemaViewInitFromType at hs
      rw [M.bind_run, M.modify_run] at hs
      simp only at hs
      split at hs
      · cases hs; exact ⟨rfl, rfl, rfl, rfl⟩
      · cases he : extensionNameFromType t with
        | none => rw [he] at hs; cases hs
        | some n => rw [he] at hs; cases hs; exact ⟨rfl, rfl, rfl, rfl⟩
    obtain ⟨h1, h2, h3, h4⟩ := hst
    have hav : arrayViewInitFromType s.type = .ok (arrayViewInit s) s := by
      unfold arrayViewInitFromType
      rw [h1, M.bind_run, hs]
    unfold builderInitInternal at h
    split at h
    · cases h
    rename_i hview
    rw [hav] at h
    simp only at h
    cases hsc : schemaInit s.type with
    | error rc => rw [hsc] at h; cases h
    | ok sc =>
      rw [hsc] at h
      simp only at h
      cases htr : treeOf sc with
      | none => rw [htr] at h; cases h
      | some tree =>
        rw [htr] at h
        simp only at h
        generalize hn : 1 + (arrayViewInit s).nOffsets + (if s.coordType = 1 then (arrayViewInit s).nValues.toNat else 1) = n at h
        split at h
        · rename_i hall
          cases h
          refine ⟨?_, h1, h2, h3, h4, rfl, rfl, rfl, hn.symm, rfl, rfl, rfl, rfl, ?_, ?_, ?_⟩
          · unfold typeTree
            rw [← h1, hsc]
            exact htr
          · intro i hi
            rw [List.all_eq_true] at hall
            exact hall i (List.mem_range.mpr hi)
          · intro hc; exact hview (.inl (h1.trans hc))
          · intro hc; exact hview (.inr (h1.trans hc))
        · cases h

theorem init_native {g : Int} (hg : 1 ≤ g ∧ g ≤ 6) {d : Dims} {k : CoordKind} {b : Builder}
    (h : builderInitFromType (nativeId g d k) = .ok b) : NativeB g d k b := by
  obtain ⟨h1, h2, h3, h4, h5, h6, h7, h8, h9, -⟩ := init_inv h
  have hm := C02_make_then_split g d.code k.code (validParts_of hg d k)
  rw [makeType_eq (validParts_of hg d k)] at hm
  obtain ⟨-, m1, m2, m3⟩ := hm
  have e3 : b.schema.geometryType = g := h3.trans m1
  have e4 : b.schema.dimensions = d.code := h4.trans m2
  have e5 : b.schema.coordType = k.code := h5.trans m3
  have hno : b.nOffsets = listDepth g := by
    rw [h6]
    show avNumOffsets b.schema.geometryType = _
    rw [e3, avNumOffsets_eq hg]
  have hnv : b.nValues = d.n := by
    rw [h7]
    show (avNumValues b.schema.geometryType b.schema.dimensions).toNat = _
    rw [e3, e4, avNumValues_eq (by omega)]
    rfl
  refine ⟨h2, e3, e4, e5, ?_, hno, hnv, ?_, ?_⟩
  · have := typeTree_native hg d k
    rw [h1] at this
    exact Option.some.inj this
  · rw [h8]
    show (avStride b.schema.coordType (avNumValues b.schema.geometryType b.schema.dimensions)).toNat = _
    rw [e3, e4, e5, avNumValues_eq (by omega)]
    cases k <;> rfl
  · rw [h9, hno, hnv, e5]
    cases k <;> rfl

/-! ## Raw buffers -/

/-- A buffer after reserving. -/
def grown (junk : Nat → Byte) (x : BBuf) (n : Nat) : BBuf :=
  if x.size + n ≤ x.mem.length then x else { x with mem := bufferReserve junk x.mem x.size n, gen := x.gen + 1 }

theorem growByFactor_ge (cap min : Nat) : min ≤ growByFactor cap min := by
  unfold growByFactor
  split <;> omega

theorem growByFactor_ge' (cap min : Nat) : cap ≤ growByFactor cap min := by
  unfold growByFactor
  split <;> omega

theorem grown_size (junk : Nat → Byte) (x : BBuf) (n : Nat) : (grown junk x n).size = x.size := by
  unfold grown; split <;> rfl

theorem grown_owned (junk : Nat → Byte) (x : BBuf) (n : Nat) : (grown junk x n).owned = x.owned := by
  unfold grown; split <;> rfl

theorem grown_mem (junk : Nat → Byte) (x : BBuf) (n : Nat) : ∃ l, (grown junk x n).mem = x.mem ++ l := by
  unfold grown bufferReserve
  split
  · exact ⟨[], by simp⟩
  · rename_i h
    exact ⟨_, rfl⟩

theorem grown_length (junk : Nat → Byte) (x : BBuf) (n : Nat) :
    (grown junk x n).mem.length = if x.size + n ≤ x.mem.length then x.mem.length else growByFactor x.mem.length (x.size + n) := by
  unfold grown bufferReserve
  split
  · rfl
  · rename_i h
    dsimp only
    rw [List.length_append, List.length_map, List.length_range]
    have := growByFactor_ge' x.mem.length (x.size + n)
    omega

theorem grown_fits (junk : Nat → Byte) (x : BBuf) (n : Nat) : x.size + n ≤ (grown junk x n).mem.length := by
  rw [grown_length]
  split
  · assumption
  · exact growByFactor_ge _ _

theorem setAt_self {α : Type} (f : Nat → α) (i : Nat) : setAt f i (f i) = f := by
  funext j
  unfold setAt
  split
  · rename_i h; rw [h]
  · rfl

theorem setAt_get {α : Type} (f : Nat → α) (i : Nat) (x : α) : setAt f i x i = x := if_pos rfl

theorem setAt_setAt {α : Type} (f : Nat → α) (i : Nat) (x y : α) : setAt (setAt f i x) i y = setAt f i y := by
  funext j
  unfold setAt
  split <;> rfl

theorem bBuf_run {b : Builder} {i : Nat} (hi : i < b.nBuffers) : bBuf i b = .ok (b.bufs i) b := if_pos hi

theorem reserveBuffer_run (junk : Nat → Byte) {b : Builder} {i : Nat} (n : Nat) (hi : i < b.nBuffers) (ho : (b.bufs i).owned = false) :
    bReserveBuffer junk i n b = .ok () { b with bufs := setAt b.bufs i (grown junk (b.bufs i) n) } := by
  unfold bReserveBuffer
  rw [M.bind_ok (bBuf_run hi)]
  unfold grown
  split
  · rw [setAt_self]; rfl
  · rw [ho]; rfl

theorem appendUnsafe_run {b : Builder} {i : Nat} {bs : List Byte} (hi : i < b.nBuffers)
    (hf : (b.bufs i).size + bs.length ≤ (b.bufs i).mem.length) :
    bAppendBufferUnsafe i bs b = .ok ()
      { b with bufs := setAt b.bufs i { b.bufs i with
          mem := (b.bufs i).mem.take (b.bufs i).size ++ bs ++ (b.bufs i).mem.drop ((b.bufs i).size + bs.length),
          size := (b.bufs i).size + bs.length } } := by
  unfold bAppendBufferUnsafe
  rw [M.bind_ok (bBuf_run hi)]
  unfold memcpyAt
  rw [if_pos hf]
  rfl

/-- What an append makes of a buffer. -/
def appended (x : BBuf) (bs : List Byte) : BBuf :=
  { x with mem := x.mem.take x.size ++ bs ++ x.mem.drop (x.size + bs.length), size := x.size + bs.length }

/-- A buffer holds these bytes. -/
def Has (x : BBuf) (c : List Byte) : Prop :=
  x.size = c.length ∧ x.size ≤ x.mem.length ∧ x.mem.take x.size = c ∧ x.owned = false

theorem has_grown {x : BBuf} {c : List Byte} (h : Has x c) (junk : Nat → Byte) (n : Nat) : Has (grown junk x n) c := by
  obtain ⟨h1, h2, h3, h4⟩ := h
  obtain ⟨l, hl⟩ := grown_mem junk x n
  refine ⟨by rw [grown_size, h1], by rw [grown_size, hl, List.length_append]; omega, ?_, by rw [grown_owned, h4]⟩
  rw [grown_size, hl, List.take_append_of_le_length h2, h3]

theorem has_appended {x : BBuf} {c : List Byte} (h : Has x c) {bs : List Byte} (hf : x.size + bs.length ≤ x.mem.length) :
    Has (appended x bs) (c ++ bs) := by
  obtain ⟨h1, h2, h3, h4⟩ := h
  refine ⟨?_, ?_, ?_, h4⟩
  · show x.size + bs.length = _
    rw [List.length_append, h1]
  · show x.size + bs.length ≤ (x.mem.take x.size ++ bs ++ x.mem.drop (x.size + bs.length)).length
    simp only [List.length_append, List.length_take, List.length_drop]
    omega
  · show (x.mem.take x.size ++ bs ++ x.mem.drop (x.size + bs.length)).take (x.size + bs.length) = _
    rw [h3, List.take_append_of_le_length (by rw [List.length_append, h1]; omega), List.take_of_length_le (by rw [List.length_append, h1]; omega)]

theorem check_run {b : Builder} {i : Nat} (n : Nat) (hi : i < b.nBuffers) :
    bBufferCheck i n b = .ok (decide ((b.bufs i).size + n ≤ (b.bufs i).mem.length)) b := by
  unfold bBufferCheck
  rw [M.bind_ok (bBuf_run hi)]
  rfl

theorem appendBuffer_run (junk : Nat → Byte) {b : Builder} {i : Nat} {c : List Byte} (bs : List Byte) (hi : i < b.nBuffers)
    (h : Has (b.bufs i) c) :
    ∃ x, bAppendBuffer junk i bs b = .ok () { b with bufs := setAt b.bufs i x } ∧ Has x (c ++ bs) := by
  unfold bAppendBuffer
  rw [M.bind_ok (check_run bs.length hi)]
  by_cases hf : (b.bufs i).size + bs.length ≤ (b.bufs i).mem.length
  · rw [decide_eq_true hf, if_pos rfl, M.bind_ok (rfl : (pure () : M Builder Unit) b = _), appendUnsafe_run hi hf]
    exact ⟨_, rfl, has_appended h hf⟩
  · rw [decide_eq_false hf, if_neg (by decide), M.bind_ok (reserveBuffer_run junk bs.length hi h.2.2.2)]
    have hg := grown_fits junk (b.bufs i) bs.length
    rw [← grown_size junk (b.bufs i) bs.length] at hg
    have hu := appendUnsafe_run (b := { b with bufs := setAt b.bufs i (grown junk (b.bufs i) bs.length) }) (i := i) (bs := bs) hi
      (by dsimp only; rw [setAt_get]; exact hg)
    rw [hu]
    dsimp only
    rw [setAt_setAt, setAt_get]
    exact ⟨_, rfl, has_appended (has_grown h junk bs.length) hg⟩

/-! ## Offsets -/

theorem length_i32Bytes (vs : List Int) : (i32Bytes vs).length = 4 * vs.length := by
  induction vs with
  | nil => rfl
  | cons v vs ih =>
    show (leBytes 4 _ ++ i32Bytes vs).length = _
    rw [List.length_append, ih, List.length_cons, length_leBytes]
    omega

theorem i32Bytes_eq (vs : List Int) : i32Bytes vs = int32Bytes vs := by
  unfold i32Bytes int32Bytes
  congr 1

theorem offsetCheck_run {b : Builder} {i : Nat} (n : Nat) (hi : i + 1 < b.nBuffers) :
    bOffsetCheck i n b = .ok (decide ((b.bufs (i + 1)).size / 4 + n ≤ (b.bufs (i + 1)).mem.length / 4)) b := by
  unfold bOffsetCheck
  rw [M.bind_ok (bBuf_run hi)]
  rfl

theorem offsetReserve_run (junk : Nat → Byte) {b : Builder} {i : Nat} (n : Nat) (hi : i + 1 < b.nBuffers)
    (ho : (b.bufs (i + 1)).owned = false) (hs : (b.bufs (i + 1)).size ≤ (b.bufs (i + 1)).mem.length) :
    ∃ m, bOffsetReserve junk i n b = .ok () { b with bufs := setAt b.bufs (i + 1) (grown junk (b.bufs (i + 1)) m) } ∧
      (m = 0 ∧ (b.bufs (i + 1)).size / 4 + n ≤ (b.bufs (i + 1)).mem.length / 4 ∨ m = n * 4) := by
  unfold bOffsetReserve
  rw [M.bind_ok (offsetCheck_run n hi)]
  by_cases hf : (b.bufs (i + 1)).size / 4 + n ≤ (b.bufs (i + 1)).mem.length / 4
  · rw [decide_eq_true hf, if_pos rfl]
    refine ⟨0, ?_, .inl ⟨rfl, hf⟩⟩
    have : grown junk (b.bufs (i + 1)) 0 = b.bufs (i + 1) := by unfold grown; rw [if_pos (by omega)]
    rw [this, setAt_self]
    rfl
  · rw [decide_eq_false hf, if_neg (by decide), reserveBuffer_run junk _ hi ho]
    exact ⟨_, rfl, .inr rfl⟩

theorem offsetAppend_run (junk : Nat → Byte) {b : Builder} {i : Nat} {c : List Byte} (vs : List Int) (hi : i + 1 < b.nBuffers)
    (h : Has (b.bufs (i + 1)) c) (ha : c.length % 4 = 0) :
    ∃ x, bOffsetAppend junk i vs b = .ok () { b with bufs := setAt b.bufs (i + 1) x } ∧ Has x (c ++ i32Bytes vs) := by
  unfold bOffsetAppend bOffsetAppendUnsafe
  rw [M.bind_ok (offsetCheck_run vs.length hi)]
  have hs := h.1
  by_cases hf : (b.bufs (i + 1)).size / 4 + vs.length ≤ (b.bufs (i + 1)).mem.length / 4
  · have hf' : (b.bufs (i + 1)).size + (i32Bytes vs).length ≤ (b.bufs (i + 1)).mem.length := by rw [length_i32Bytes]; omega
    rw [decide_eq_true hf, if_pos rfl, M.bind_ok (rfl : (pure () : M Builder Unit) b = _), appendUnsafe_run hi hf']
    exact ⟨_, rfl, has_appended h hf'⟩
  · rw [decide_eq_false hf, if_neg (by decide)]
    obtain ⟨m, hr, hm⟩ := offsetReserve_run junk vs.length hi h.2.2.2 h.2.1
    have hm : m = vs.length * 4 := by
      rcases hm with ⟨-, h'⟩ | h'
      · exact absurd h' hf
      · exact h'
    rw [M.bind_ok hr]
    have hg := grown_fits junk (b.bufs (i + 1)) m
    rw [← grown_size junk (b.bufs (i + 1)) m] at hg
    have hg' : (grown junk (b.bufs (i + 1)) m).size + (i32Bytes vs).length ≤ (grown junk (b.bufs (i + 1)) m).mem.length := by
      rw [length_i32Bytes]; omega
    have hu := appendUnsafe_run (b := { b with bufs := setAt b.bufs (i + 1) (grown junk (b.bufs (i + 1)) m) }) (i := i + 1)
      (bs := i32Bytes vs) hi (by dsimp only; rw [setAt_get]; exact hg')
    rw [hu]
    dsimp only
    rw [setAt_setAt, setAt_get]
    exact ⟨_, rfl, has_appended (has_grown h junk m) hg'⟩

/-! ## Doubles in memory -/

theorem length_putCells (f : Nat → Option Dbl) (mem : List Byte) : (putCells f mem).length = mem.length := by
  unfold putCells
  rw [List.length_append, List.length_drop]
  have : ∀ l : List Nat, (l.flatMap fun t => ((f t).getD 0).bytes).length = 8 * l.length := by
    intro l
    induction l with
    | nil => rfl
    | cons a l ih => rw [List.flatMap_cons, List.length_append, ih, Dbl.length_bytes, List.length_cons]; omega
  rw [this, List.length_range]
  omega

theorem range_flatMap_at (f : Nat → Dbl) (n t : Nat) (ht : t < n) :
    (((List.range n).flatMap fun i => (f i).bytes).drop (8 * t)).take 8 = (f t).bytes := by
  have hn : n = t + 1 + (n - t - 1) := by omega
  rw [hn, List.range_add, List.range_succ, List.flatMap_append, List.flatMap_append]
  have hl : ∀ l : List Nat, (l.flatMap fun i => (f i).bytes).length = 8 * l.length := by
    intro l
    induction l with
    | nil => rfl
    | cons a l ih => rw [List.flatMap_cons, List.length_append, ih, Dbl.length_bytes, List.length_cons]; omega
  rw [List.append_assoc, List.drop_append_of_le_length (by rw [hl, List.length_range]; omega), List.drop_eq_nil_of_le (by rw [hl, List.length_range]; omega)]
  rw [List.nil_append]
  simp only [List.flatMap_cons, List.flatMap_nil, List.append_nil]
  rw [List.take_append_of_le_length (by rw [Dbl.length_bytes]; omega), List.take_of_length_le (by rw [Dbl.length_bytes]; omega)]

theorem f64At_putCells (f : Nat → Option Dbl) (mem : List Byte) (t : Nat) (ht : 8 * t + 8 ≤ mem.length) :
    f64At (putCells f mem) t = some ((f t).getD 0) := by
  unfold f64At
  rw [length_putCells, if_pos (by omega)]
  congr 1
  have : (8 * (t : Int)).toNat = 8 * t := by omega
  rw [this]
  unfold putCells
  have hl : ((List.range (mem.length / 8)).flatMap fun t => ((f t).getD 0).bytes).length = 8 * (mem.length / 8) := by
    generalize mem.length / 8 = n
    induction n with
    | zero => rfl
    | succ n ih => rw [List.range_succ, List.flatMap_append, List.length_append, ih]; simp [Dbl.length_bytes]; omega
  rw [List.drop_append_of_le_length (by omega), List.take_append_of_le_length (by rw [List.length_drop]; omega),
    range_flatMap_at (fun t => (f t).getD 0) _ _ (by omega), Dbl.ofBytes_bytes]

theorem f64At_none {mem : List Byte} {t : Nat} (h : ¬ 8 * t + 8 ≤ mem.length) : f64At mem t = none := by
  unfold f64At
  rw [if_neg (by omega)]

theorem f64At_isSome {mem : List Byte} {t : Nat} : (f64At mem t).isSome ↔ 8 * t + 8 ≤ mem.length := by
  unfold f64At
  split <;> simp <;> omega

/-- Writing back what is there changes nothing. -/
theorem putCells_self (mem : List Byte) : putCells (fun t => f64At mem t) mem = mem := by
  unfold putCells
  suffices h : ∀ n, 8 * n ≤ mem.length → ((List.range n).flatMap fun t => ((f64At mem (t : Nat)).getD 0).bytes) = mem.take (8 * n) by
    rw [h _ (by omega), Nat.mul_comm]
    exact List.take_append_drop _ _
  intro n hn
  induction n with
  | zero => simp
  | succ n ih =>
    rw [List.range_succ, List.flatMap_append, ih (by omega)]
    simp only [List.flatMap_cons, List.flatMap_nil, List.append_nil]
    unfold f64At
    rw [if_pos (by omega), Option.getD_some, Dbl.bytes_ofBytes (by rw [List.length_take, List.length_drop]; omega)]
    have : (8 * (n : Int)).toNat = 8 * n := by omega
    rw [this, Nat.mul_succ, List.take_add]

theorem putCells_congr {f : Nat → Option Dbl} {mem : List Byte} (h : ∀ t, f t = f64At mem t) : putCells f mem = mem := by
  rw [funext h, putCells_self]

end Verif
