import Verif.Proof.BuilderHistory
/-! # Builder: reading finished arrays -/
namespace Verif
open Spec

/-! ## What every operation leaves alone -/

def KeepsType {α : Type} (m : M Builder α) : Prop := ∀ b b', (m b).state? = some b' → SameType b b'

theorem keepsType_pure {α : Type} (x : α) : KeepsType (pure x : M Builder α) := by
  intro b b' h
  cases h
  exact .rfl' b

theorem keepsType_fail {α : Type} (rc : Code) : KeepsType (M.fail rc : M Builder α) := by
  intro b b' h
  cases h
  exact .rfl' b

theorem keepsType_undef {α : Type} : KeepsType (M.undef : M Builder α) := by
  intro b b' h
  cases h

theorem keepsType_get : KeepsType (M.get : M Builder Builder) := by
  intro b b' h
  cases h
  exact .rfl' b

theorem keepsType_modify {f : Builder → Builder} (hf : ∀ b, SameType b (f b)) : KeepsType (M.modify f) := by
  intro b b' h
  cases h
  exact hf b

theorem keepsType_bind {α β : Type} {m : M Builder α} {f : α → M Builder β} (hm : KeepsType m) (hf : ∀ x, KeepsType (f x)) :
    KeepsType (m >>= f) := by
  intro b b' h
  rw [M.bind_run] at h
  cases hb : m b with
  | ok x s =>
    rw [hb] at h
    exact (hm b s (by rw [hb]; rfl)).trans (hf x s b' h)
  | err rc s =>
    rw [hb] at h
    cases h
    exact hm b b' (by rw [hb]; rfl)
  | ub => rw [hb] at h; cases h

theorem keepsType_ite {α : Type} {c : Prop} [Decidable c] {m m' : M Builder α} (h : KeepsType m) (h' : KeepsType m') :
    KeepsType (if c then m else m') := by
  split <;> assumption

theorem keepsType_orUb {α : Type} (x : Option α) : KeepsType (orUb x : M Builder α) := by
  cases x
  · exact keepsType_undef
  · exact keepsType_pure _

theorem keepsType_bBuf (i : Nat) : KeepsType (bBuf i) := by
  intro b b' h
  unfold bBuf at h
  split at h <;> cases h
  exact .rfl' b

theorem keepsType_setBuf (i : Nat) (x : BBuf) : KeepsType (bSetBuf i x) := keepsType_modify fun _ => ⟨rfl, rfl, rfl, rfl, rfl, rfl⟩

theorem keepsType_reserve (junk : Nat → Byte) (i n : Nat) : KeepsType (bReserveBuffer junk i n) :=
  keepsType_bind (keepsType_bBuf i) fun _ => keepsType_ite (keepsType_pure _) (keepsType_ite keepsType_undef (keepsType_setBuf _ _))

theorem keepsType_check (i n : Nat) : KeepsType (bBufferCheck i n) := keepsType_bind (keepsType_bBuf i) fun _ => keepsType_pure _

theorem keepsType_append (i : Nat) (bs : List Byte) : KeepsType (bAppendBufferUnsafe i bs) :=
  keepsType_bind (keepsType_bBuf i) fun _ => keepsType_bind (keepsType_orUb _) fun _ => keepsType_setBuf _ _

theorem keepsType_setSize (i n : Nat) : KeepsType (bSetSize i n) := keepsType_bind (keepsType_bBuf i) fun _ => keepsType_setBuf _ _

theorem keepsType_separate (junk : Nat → Byte) (n : Nat) : ∀ k i, KeepsType (bReserveSeparate junk n k i)
  | 0, _ => keepsType_pure _
  | k + 1, i => keepsType_bind keepsType_get fun _ => keepsType_bind (keepsType_setSize _ _) fun _ =>
      keepsType_bind (keepsType_reserve _ _ _) fun _ => keepsType_separate junk n k (i + 1)

theorem keepsType_offsetCheck (i n : Nat) : KeepsType (bOffsetCheck i n) := keepsType_bind (keepsType_bBuf (i + 1)) fun _ => keepsType_pure _

theorem keepsType_coordsCheck (n : Nat) : KeepsType (bCoordsCheck n) := by
  intro b b' h
  cases h
  exact .rfl' b

theorem keepsType_coordsReserve (junk : Nat → Byte) (n : Nat) : KeepsType (bCoordsReserve junk n) := by
  unfold bCoordsReserve
  refine keepsType_bind (keepsType_coordsCheck n) fun _ => keepsType_ite (keepsType_pure _) ?_
  refine keepsType_bind keepsType_get fun b => ?_
  dsimp only
  refine keepsType_ite ?_ (keepsType_ite ?_ (keepsType_fail _))
  · exact keepsType_bind (keepsType_setSize _ _) fun _ => keepsType_bind (keepsType_reserve _ _ _) fun _ =>
      keepsType_bind (keepsType_bBuf _) fun _ => keepsType_modify fun _ => ⟨rfl, rfl, rfl, rfl, rfl, rfl⟩
  · exact keepsType_bind (keepsType_separate _ _ _ _) fun _ =>
      keepsType_bind (keepsType_bBuf _) fun _ => keepsType_modify fun _ => ⟨rfl, rfl, rfl, rfl, rfl, rfl⟩

theorem keepsType_coordsUnsafe (S : DMem) (src : CoordView) (dims off n : Nat) : KeepsType (bCoordsAppendUnsafe S src dims off n) :=
  keepsType_bind keepsType_get fun _ => keepsType_bind (keepsType_orUb _) fun _ => keepsType_modify fun _ => ⟨rfl, rfl, rfl, rfl, rfl, rfl⟩

theorem keepsType_op (junk : Nat → Byte) (op : BOp) : KeepsType (op.run junk) := by
  cases op with
  | reserveBuffer i n => exact keepsType_bind (keepsType_reserve _ _ _) fun _ => keepsType_pure _
  | appendBuffer i bs =>
    exact keepsType_bind (keepsType_bind (keepsType_check _ _) fun _ => keepsType_bind (keepsType_ite (keepsType_pure _) (keepsType_reserve _ _ _))
      fun _ => keepsType_append _ _) fun _ => keepsType_pure _
  | checkedBuffer i bs =>
    exact keepsType_bind (keepsType_check _ _) fun _ => keepsType_ite (keepsType_bind (keepsType_append _ _) fun _ => keepsType_pure _) (keepsType_pure _)
  | reserveOffsets i n =>
    exact keepsType_bind (keepsType_bind (keepsType_offsetCheck _ _) fun _ => keepsType_ite (keepsType_pure _) (keepsType_reserve _ _ _)) fun _ => keepsType_pure _
  | appendOffsets i vs =>
    exact keepsType_bind (keepsType_bind (keepsType_offsetCheck _ _) fun _ => keepsType_bind (keepsType_ite (keepsType_pure _)
      (keepsType_bind (keepsType_offsetCheck _ _) fun _ => keepsType_ite (keepsType_pure _) (keepsType_reserve _ _ _)))
      fun _ => keepsType_append _ _) fun _ => keepsType_pure _
  | checkedOffsets i vs =>
    exact keepsType_bind (keepsType_offsetCheck _ _) fun _ => keepsType_ite (keepsType_bind (keepsType_append _ _) fun _ => keepsType_pure _) (keepsType_pure _)
  | reserveCoords n => exact keepsType_bind (keepsType_coordsReserve _ _) fun _ => keepsType_pure _
  | appendCoords S src s off cs =>
    exact keepsType_bind (keepsType_bind (keepsType_coordsCheck _) fun _ => keepsType_bind (keepsType_ite (keepsType_pure _) (keepsType_coordsReserve _ _))
      fun _ => keepsType_coordsUnsafe _ _ _ _ _) fun _ => keepsType_pure _
  | checkedCoords S src s off cs =>
    exact keepsType_bind (keepsType_coordsCheck _) fun _ => keepsType_ite (keepsType_bind (keepsType_coordsUnsafe _ _ _ _ _) fun _ => keepsType_pure _) (keepsType_pure _)

theorem keepsType_owned (i : Int) (v : List Byte) : KeepsType (bSetOwnedBuffer i v) :=
  keepsType_bind keepsType_get fun _ => keepsType_ite (keepsType_fail _) (keepsType_setBuf _ _)

theorem keepsType_finish : KeepsType bFinish := by
  refine keepsType_bind (keepsType_modify syncCoords_same) fun _ => keepsType_bind keepsType_get fun b => ?_
  dsimp only
  refine keepsType_ite keepsType_undef (keepsType_ite (keepsType_fail _) (keepsType_ite (keepsType_fail _) ?_))
  exact keepsType_bind (keepsType_orUb _) fun _ => keepsType_ite (keepsType_bind (keepsType_modify fresh_same) fun _ => keepsType_pure _) (keepsType_fail _)

theorem builderOf_same {t : TypeId} {b : Builder} (h : BuilderOf t b) : ∃ b0, builderInitFromType t = .ok b0 ∧ SameType b0 b := by
  induction h with
  | init h => exact ⟨_, h, .rfl' _⟩
  | op _ h ih =>
    obtain ⟨b0, h1, h2⟩ := ih
    exact ⟨b0, h1, h2.trans (keepsType_op _ _ _ _ h)⟩
  | owned _ h ih =>
    obtain ⟨b0, h1, h2⟩ := ih
    exact ⟨b0, h1, h2.trans (keepsType_owned _ _ _ _ h)⟩
  | finish _ h ih =>
    obtain ⟨b0, h1, h2⟩ := ih
    exact ⟨b0, h1, h2.trans (keepsType_finish _ _ h)⟩

theorem startOf_builderOf {t : TypeId} {b : Builder} (h : StartOf t b) : Blank b ∧ ∃ b0, builderInitFromType t = .ok b0 ∧ SameType b0 b := by
  cases h with
  | init h => exact ⟨blank_init h, _, h, .rfl' _⟩
  | @finish b1 a _ h1 h2 =>
    obtain ⟨b0, h3, h4⟩ := builderOf_same h1
    refine ⟨?_, b0, h3, h4.trans (keepsType_finish _ _ (by rw [h2]; rfl))⟩
    rw [(finish_inv h2).1]
    exact blank_fresh _

theorem builderOf_start {t : TypeId} {b : Builder} (h : StartOf t b) : BuilderOf t b := by
  cases h with
  | init h => exact .init h
  | finish h1 h2 => exact .finish h1 (by rw [h2]; rfl)

theorem builderOf_ops {t : TypeId} {junk : Nat → Byte} : ∀ (ops : List BOp) (b : Builder) (rs : List Bool) (b' : Builder), BuilderOf t b →
    runBOps junk ops b = .ok rs b' → BuilderOf t b'
  | [], b, rs, b', h, hr => by
    cases hr
    exact h
  | op :: ops, b, rs, b', h, hr => by
    unfold runBOps at hr
    obtain ⟨r, b1, h1, h2⟩ := M.bind_eq_ok.mp hr
    obtain ⟨rs', b2, h3, h4⟩ := M.bind_eq_ok.mp h2
    cases h4
    exact builderOf_ops ops b1 rs' b' (.op h (by rw [h1]; rfl)) h3

theorem builder_type {t : TypeId} {b : Builder} (h : builderInitFromType t = .ok b) : t ∈ builderTypes := by
  obtain ⟨h1, -, -, -, -, -, -, -, -, -, -, -, -, -, h2, h3⟩ := init_inv h
  unfold builderTypes
  rw [List.mem_filter]
  refine ⟨?_, decide_eq_true ⟨h2, h3⟩⟩
  unfold typeTree at h1
  cases hs : schemaInit t with
  | error rc => rw [hs] at h1; cases h1
  | ok s => exact created_parts t s hs

theorem builder_numbers {t : TypeId} {b : Builder} (h : builderInitFromType t = .ok b) :
    (flatBuffers BKind.nBuffers 0 [] b.tree).Nodup ∧ b.nBuffers = (flatBuffers BKind.nBuffers 0 [] b.tree).length := by
  have hc := List.all_eq_true.mp all_typeChecks t (builder_type h)
  unfold typeChecks at hc
  rw [(init_inv h).1, h] at hc
  simp only [Bool.and_eq_true, decide_eq_true_eq] at hc
  exact hc

theorem builder_exists {t : TypeId} (h : t ∈ builderTypes) : ∃ b, builderInitFromType t = .ok b := by
  have hc := List.all_eq_true.mp all_typeChecks t h
  unfold typeChecks at hc
  split at hc
  · rename_i b _ hb
    exact ⟨_, hb⟩
  · cases hc

/-! ## Coordinates -/

theorem f64At_take {m : List Byte} {n t : Nat} (h : 8 * t + 8 ≤ n) : f64At (m.take n) t = f64At m t := by
  unfold f64At
  by_cases hc : 8 * t + 8 ≤ m.length
  · rw [if_pos (by rw [List.length_take]; omega), if_pos (by omega)]
    congr 2
    rw [List.drop_take, List.take_take, Nat.min_eq_left (by omega)]
  · rw [if_neg (by rw [List.length_take]; omega), if_neg (by omega)]

theorem below_builtLists (b : Builder) (l : Nat) (d : Dims) (k : CoordKind) (N : Nat) (offs : Nat → List Int) : ∀ (m lv : Nat) (v : Option (List Byte)),
    ∃ v', Below m (builtLists b l d k N offs m lv v) (builtCoords b l d k N v')
  | 0, lv, v => ⟨v, rfl⟩
  | m + 1, lv, v => by
    obtain ⟨v', h⟩ := below_builtLists b l d k N offs m (lv + 1) none
    exact ⟨v', _, rfl, h⟩

/-- The level below which `q` levels of lists follow. -/
theorem below_builtLists_at (b : Builder) (l : Nat) (d : Dims) (k : CoordKind) (N : Nat) (offs : Nat → List Int) : ∀ (q m lv : Nat) (v : Option (List Byte)) (x : AArray),
    q ≤ m → Below q (builtLists b l d k N offs m lv v) x → ∃ v', x = builtLists b l d k N offs (m - q) (lv + q) v'
  | 0, m, lv, v, x, _, h => ⟨v, h⟩
  | q + 1, 0, lv, v, x, hq, h => by omega
  | q + 1, m + 1, lv, v, x, hq, h => by
    obtain ⟨c, hc, hx⟩ := h
    have : c = builtLists b l d k N offs m (lv + 1) none := (Option.some.inj hc).symm
    subst this
    obtain ⟨v', h'⟩ := below_builtLists_at b l d k N offs q m (lv + 1) none x (by omega) hx
    refine ⟨v', ?_⟩
    rw [h', show m + 1 - (q + 1) = m - q by omega, show lv + 1 + q = lv + (q + 1) by omega]

section
variable {g : Int} {d : Dims} {k : CoordKind} {b : Builder} {offs : Nat → List Int} {cs : List Coord}

theorem coordAt_built (h : Built g d k b offs cs) (v : Option (List Byte)) {t : Nat} {c : Coord} (hc : cs[t]? = some c) :
    CoordAt d k (builtCoords b.syncCoords (listDepth g) d k cs.length v) t c := by
  have hs := synced_of_built h
  obtain ⟨h1, h2⟩ := h.coords.holds t c hc
  have ht : t < cs.length := (List.getElem?_eq_some_iff.mp hc).1
  have hmem : ∀ i, (b.syncCoords.bufs i).mem = (b.bufs i).mem := by
    intro i
    rw [syncCoords_bufs h.native]
    split <;> rfl
  have hnb : b.syncCoords.nBuffers = numBuffers (listDepth g) d k := hs.native.nBuffers
  have key : ∀ (j : Nat) (x : Dbl), c[j]? = some x →
      f64At (bytesOf b.syncCoords (coordCell (listDepth g) d k t j).1) ((coordCell (listDepth g) d k t j).2 : Nat) = some x := by
    intro j x hx
    have hj : j < d.n := by rw [← h1]; exact (List.getElem?_eq_some_iff.mp hx).1
    have hr := coordCell_range (listDepth g) d k (t := t) hj
    rw [← hnb] at hr
    obtain ⟨h3, -⟩ := hs.sizes _ hr.1 hr.2
    have hlt := coordCell_lt (listDepth g) d k hj ht
    unfold bytesOf
    rw [h3, f64At_take, hmem, h2 j x hx]
    have : (coordCell (listDepth g) d k t j).2 + 1 ≤ cs.length * strideOf d k := hlt
    have e : 8 * strideOf d k * cs.length = 8 * (cs.length * strideOf d k) := by rw [Nat.mul_assoc, Nat.mul_comm (strideOf d k)]
    omega
  refine ⟨h1, ?_⟩
  cases k with
  | separate =>
    intro j x hx
    have hj : j < d.n := by rw [← h1]; exact (List.getElem?_eq_some_iff.mp hx).1
    refine ⟨.mk cs.length 0 0 [none, some (bytesOf b.syncCoords (listDepth g + 1 + j))] [], ?_, ?_⟩
    · show ((List.range d.n).map _)[j]? = _
      rw [List.getElem?_map, List.getElem?_range hj]
      rfl
    · refine ⟨_, rfl, ?_⟩
      show f64At _ (0 + (0 + (t : Int))) = _
      rw [Int.zero_add, Int.zero_add]
      exact key j x hx
  | interleaved =>
    intro j x hx
    refine ⟨.mk ((cs.length * d.n : Nat) : Int) 0 0 [none, some (bytesOf b.syncCoords (listDepth g + 1))] [], rfl, _, rfl, ?_⟩
    show f64At _ (0 + ((0 + (t : Int)) * (d.n : Int) + (j : Int))) = _
    have := key j x hx
    rw [show (0 + ((0 + (t : Int)) * (d.n : Int) + (j : Int))) = ((t * d.n + j : Nat) : Int) by
      rw [Int.zero_add, Int.zero_add, Int.natCast_add, Int.natCast_mul]]
    exact this

theorem shape_built (b : Builder) (l N : Nat) (offs : Nat → List Int) : ∀ (m lv : Nat) (v : Option (List Byte)),
    ListShape k d.n m (builtLists b l d k N offs m lv v)
  | 0, lv, v => by
    show CoordShape k d.n (builtCoords b l d k N v)
    cases k with
    | separate =>
      refine ⟨by show ((List.range d.n).map _).length = _; simp, ?_⟩
      intro c hc
      obtain ⟨j, -, rfl⟩ := List.mem_map.mp hc
      rfl
    | interleaved => exact ⟨_, rfl, rfl⟩
  | m + 1, lv, v => ⟨rfl, _, rfl, shape_built b l N offs m (lv + 1) none⟩

theorem i32At_isSome {vs : List Int} {t : Nat} (h : t < vs.length) : (i32At (i32Bytes vs) t).isSome := by
  unfold i32At
  rw [if_pos (by rw [length_i32Bytes]; omega)]
  rfl

theorem readable_built (b : Builder) (l N : Nat) (offs : Nat → List Int) (m lv : Nat) (v : Option (List Byte)) (n : Int) :
    OffsetsReadable m ((builtLists b l d k N offs m lv v).withNullCount n) := by
  intro q x hq hx hpos
  have hl : ∀ (q' : Nat) (vs : List Int), 0 < ((vs.length - 1 : Nat) : Int) →
      (i32At (i32Bytes vs) 0).isSome ∧ (i32At (i32Bytes vs) (0 + ((vs.length - 1 : Nat) : Int))).isSome := by
    intro q' vs hv
    refine ⟨i32At_isSome (t := 0) (by omega), ?_⟩
    rw [Int.zero_add]
    exact i32At_isSome (by omega)
  cases q with
  | zero =>
    obtain ⟨m', rfl⟩ : ∃ m', m = m' + 1 := ⟨m - 1, by omega⟩
    have : x = .mk (((offs lv).length - 1 : Nat) : Int) n 0 [v, some (i32Bytes (offs lv))] [builtLists b l d k N offs m' (lv + 1) none] := hx
    subst this
    exact ⟨_, rfl, hl 0 _ hpos⟩
  | succ q =>
    have hx' : Below (q + 1) (builtLists b l d k N offs m lv v) x := by
      cases hb : builtLists b l d k N offs m lv v with
      | mk a1 a2 a3 a4 a5 =>
        rw [hb] at hx
        exact hx
    obtain ⟨v', h'⟩ := below_builtLists_at b l d k N offs (q + 1) m lv v x (by omega) hx'
    obtain ⟨m', hm'⟩ : ∃ m', m - (q + 1) = m' + 1 := ⟨m - (q + 1) - 1, by omega⟩
    rw [hm'] at h'
    subst h'
    exact ⟨_, rfl, hl 0 _ hpos⟩

end

theorem shape_nullCount {k : CoordKind} {n m : Nat} {a : AArray} (h : ListShape k n m a) (z : Int) : ListShape k n m (a.withNullCount z) := by
  cases a with
  | mk l nc o bu ch =>
    cases m with
    | zero => cases k <;> exact h
    | succ m => exact h

theorem below_nullCount {m : Nat} {a x : AArray} (h : Below m a x) (z : Int) :
    ∃ x', Below m (a.withNullCount z) x' ∧ x'.length = x.length ∧ x'.offset = x.offset ∧ x'.buffers = x.buffers ∧ x'.children = x.children := by
  cases a with
  | mk l nc o bu ch =>
    cases m with
    | zero =>
      have : x = .mk l nc o bu ch := h
      subst this
      exact ⟨_, rfl, rfl, rfl, rfl, rfl⟩
    | succ m => exact ⟨x, h, rfl, rfl, rfl, rfl⟩

theorem coordAt_congr {d : Dims} {k : CoordKind} {a a' : AArray} {t : Nat} {c : Coord} (h : CoordAt d k a t c) (ho : a'.offset = a.offset)
    (hc : a'.children = a.children) : CoordAt d k a' t c := by
  unfold CoordAt at h ⊢
  rw [ho, hc]
  exact h

/-- Bytes in groups of four are numbers. -/
theorem exists_i32Bytes : ∀ (n : Nat) (bs : List Byte), bs.length = 4 * n → ∃ vs, bs = i32Bytes vs
  | 0, bs, h => ⟨[], by rw [List.length_eq_zero_iff.mp (by omega : bs.length = 0)]; rfl⟩
  | n + 1, bs, h => by
    obtain ⟨vs, hvs⟩ := exists_i32Bytes n (bs.drop 4) (by rw [List.length_drop]; omega)
    refine ⟨((BitVec.ofNat 32 (leVal (bs.take 4))).toInt) :: vs, ?_⟩
    show bs = leBytes 4 _ ++ i32Bytes vs
    rw [← hvs, BitVec.ofInt_toInt]
    have h4 : (bs.take 4).length = 4 := by rw [List.length_take]; omega
    have hlt := leVal_lt (bs.take 4)
    rw [h4] at hlt
    rw [BitVec.toNat_ofNat, Nat.mod_eq_of_lt (by omega)]
    have := leBytes_leVal (bs.take 4)
    rw [h4] at this
    rw [this, List.take_append_drop]

end Verif
