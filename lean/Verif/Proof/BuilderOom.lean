import Verif.Proof.BuilderOomHeap
/-!
# Builders when memory runs out: every call keeps what the ledger says
-/
namespace Verif.Oom
open Verif.Spec

def addr (s : Sys) : Holder → Option Nat
  | .buf i => if i < s.n then (s.bufs i).data else none
  | .view i => if i < s.n then (s.views i).data else none
  | .arr k i => if i < s.n then match s.arrays[k]? with | some (some f) => (f i).data | _ => none else none

def capOf (s : Sys) : Holder → Nat
  | .buf i => if i < s.n then (s.bufs i).cap else 0
  | .view i => if i < s.n then (s.views i).cap else 0
  | .arr k i => if i < s.n then match s.arrays[k]? with | some (some f) => (f i).cap | _ => 0 else 0

abbrev Inv (s : Sys) : Prop := HInv (addr s) (capOf s) s.heap s.next

/-- Blocks that nothing but a view points to -/
abbrev Lost (s : Sys) (a : Nat) : Prop := LostIn (addr s) s.heap a

/-- The ledger tells the truth about the builder and the arrays. -/
structure Rel (s : Sys) (l : Ledger) : Prop where
  inv : Inv s
  coords : s.sizeCoords = 0
  dead : s.alive = false → ∀ i, s.views i = ⟨none, 0, 0⟩
  len : ∀ i, i < s.n → (s.views i).size = (l.bytes i).length
  fits : ∀ i, i < s.n → (s.views i).size ≤ (s.views i).cap
  same : ∀ i, i < s.n → l.hurt i = false → (s.views i).data = (s.bufs i).data ∨ (s.views i).data = none
  bytes : ∀ i, i < s.n → l.hurt i = false → (block s.heap (s.views i).data).take (s.views i).size = l.bytes i
  dn : s.arrays.length = l.done.length
  arr : ∀ (k : Nat) (f : Nat → NBuf), s.arrays[k]? = some (some f) → ∃ d : Nat → List Byte × Bool, l.done[k]? = some d ∧ ∀ i, i < s.n → (f i).size = (d i).1.length ∧
    ((d i).2 = false → (f i).size ≤ (f i).cap ∧ (block s.heap (f i).data).take (f i).size = (d i).1)

theorem block_some {H : Heap} {a : Nat} {m : List Byte} (h : H a = some m) : block H (some a) = m := by simp [block, h]

theorem HInv.congr {A C H N A' C'} (v : HInv A C H N) (hA : A' = A) (hC : C' = C) : HInv A' C' H N := by subst hA; subst hC; exact v

/-- The length of the block of a holder is its capacity. -/
theorem block_length {A C H N} (v : HInv A C H N) (h : Holder) : (block H (A h)).length = C h := by
  cases e : A h with
  | none => simp [block, v.null h e]
  | some a =>
    obtain ⟨m, h1, h2⟩ := v.good h a e
    rw [block_some h1, h2]

theorem view_block {s : Sys} (v : Inv s) {i : Nat} (hi : i < s.n) : (block s.heap (s.views i).data).length = (s.views i).cap := by
  have := block_length v (.view i); simpa [addr, capOf, hi] using this
theorem buf_block {s : Sys} (v : Inv s) {i : Nat} (hi : i < s.n) : (block s.heap (s.bufs i).data).length = (s.bufs i).cap := by
  have := block_length v (.buf i); simpa [addr, capOf, hi] using this
theorem arr_block {s : Sys} (v : Inv s) {k i : Nat} {f : Nat → NBuf} (hi : i < s.n) (hf : s.arrays[k]? = some (some f)) :
    (block s.heap (f i).data).length = (f i).cap := by
  have := block_length v (.arr k i); simpa [addr, capOf, hi, hf] using this

/-- What `ArrowBufferReserve` does -/
theorem nReserve_cases (junk : Nat → Nat → Byte) (mem : Bool) (x : NBuf) (add : Nat) (H : Heap) (N : Nat) :
    (x.size + add ≤ x.cap ∧ nReserve junk mem x add H N = (true, x, H, N)) ∨
    (¬ x.size + add ≤ x.cap ∧ mem = false ∧ nReserve junk mem x add H N = (false, ⟨none, 0, 0⟩, H, N)) ∨
    (¬ x.size + add ≤ x.cap ∧ mem = true ∧ ∃ c, x.size + add ≤ c ∧ x.cap ≤ c ∧
      nReserve junk mem x add H N = (true, ⟨some N, x.size, c⟩,
        poke (free H x.data) N (some (block H x.data ++ (List.range (c - (block H x.data).length)).map (junk N))), N + 1)) := by
  unfold nReserve
  by_cases h : x.size + add ≤ x.cap
  · left; simp [h]
  · right
    cases mem with
    | false => left; simp [h]
    | true =>
      right
      refine ⟨h, rfl, growByFactor x.cap (x.size + add), growByFactor_ge _ _, growByFactor_ge' _ _, ?_⟩
      simp [h]

/-- Whatever `block` is not moved -/
theorem block_poke_other {H : Heap} {N : Nat} {d : Option Nat} {m : Option (List Byte)} (h : d ≠ some N) : block (poke H N m) d = block H d := by
  cases d with
  | none => rfl
  | some a => simp only [block, Option.bind_some]; rw [poke_other]; rintro rfl; exact h rfl

theorem block_free_other {H : Heap} {e d : Option Nat} (h : d = none ∨ d ≠ e) : block (free H e) d = block H d := by
  cases d with
  | none => rfl
  | some a =>
    simp only [block, Option.bind_some]
    rw [free_other]
    rintro rfl
    rcases h with h | h
    · simp at h
    · exact h rfl

/-- `GeoArrowBuilderReserveBuffer` succeeds. -/
theorem reserve_ok {junk : Nat → Nat → Byte} {mem : Bool} {i add : Nat} {s : Sys} {l : Ledger} (r : Rel s l) (ha : s.alive = true) (hi : i < s.n)
    (hm : mem = true ∨ (s.views i).size + add ≤ (s.bufs i).cap) :
    ∃ s', reserve junk mem i add s = some (0, s') ∧ Rel s' l ∧ s'.alive = s.alive ∧ s'.n = s.n ∧ s'.arrays = s.arrays ∧
      (s'.views i).size + add ≤ (s'.views i).cap ∧ (∀ a, Lost s' a ↔ Lost s a) := by
  unfold reserve
  rw [if_pos ⟨ha, hi⟩]
  rcases nReserve_cases junk mem { s.bufs i with size := (s.views i).size } add s.heap s.next with ⟨h1, h2⟩ | ⟨h1, h2, h3⟩ | ⟨h1, h2, c, hc1, hc2, h3⟩
  · rw [h2]
    simp only [if_true]
    refine ⟨_, rfl, ?_, rfl, rfl, rfl, by simpa [poke] using h1, ?_⟩
    · have hA : addr { s with bufs := poke s.bufs i { s.bufs i with size := (s.views i).size }, views := poke s.views i { s.views i with data := (s.bufs i).data, cap := (s.bufs i).cap } }
          = fun h => if h = .view i then addr s (.buf i) else addr s h := by
        funext h
        cases h with
        | buf j => by_cases hj : j = i <;> simp [addr, poke, hj]
        | view j => by_cases hj : j = i <;> simp [addr, poke, hj]
        | arr k j => simp [addr]
      have hC : capOf { s with bufs := poke s.bufs i { s.bufs i with size := (s.views i).size }, views := poke s.views i { s.views i with data := (s.bufs i).data, cap := (s.bufs i).cap } }
          = fun h => if h = .view i then capOf s (.buf i) else capOf s h := by
        funext h
        cases h with
        | buf j => by_cases hj : j = i <;> simp [capOf, poke, hj]
        | view j => by_cases hj : j = i <;> simp [capOf, poke, hj]
        | arr k j => simp [capOf]
      constructor
      · exact (r.inv.follow i).congr hA hC
      · exact r.coords
      · intro h; exact absurd (ha.symm.trans h) (by simp)
      · intro j hj
        by_cases hji : j = i
        · subst hji; simpa [poke] using r.len j hj
        · simpa [poke, hji] using r.len j hj
      · intro j hj
        by_cases hji : j = i
        · subst hji; simp only [poke, if_true]; dsimp only at h1; omega
        · simpa [poke, hji] using r.fits j hj
      · intro j hj hh
        by_cases hji : j = i
        · subst hji; left; simp [poke]
        · simpa [poke, hji] using r.same j hj hh
      · intro j hj hh
        by_cases hji : j = i
        · subst hji
          simp only [poke, if_true]
          rcases r.same j hj hh with e | e
          · rw [← e]; exact r.bytes j hj hh
          · have h0 := view_block r.inv hj
            rw [e] at h0
            have hf := r.fits j hj
            have hz : (s.views j).size = 0 := by simp [block] at h0; omega
            have hb := r.len j hj
            rw [hz] at hb ⊢
            rw [List.length_eq_zero_iff.mp hb.symm]; simp
        · simpa [poke, hji] using r.bytes j hj hh
      · exact r.dn
      · exact r.arr
    · intro a
      unfold Lost LostIn
      have e1 : ∀ j, addr { s with bufs := poke s.bufs i { s.bufs i with size := (s.views i).size }, views := poke s.views i { s.views i with data := (s.bufs i).data, cap := (s.bufs i).cap } } (.buf j) = addr s (.buf j) := by
        intro j; by_cases hj : j = i <;> simp [addr, poke, hj]
      simp only [e1]
      exact Iff.rfl
  · rcases hm with hm | hm
    · rw [hm] at h2; cases h2
    · exact absurd hm h1
  · rw [h3]
    simp only [if_true]
    dsimp only at hc1 hc2
    have hbl := buf_block r.inv hi
    have hml : (block s.heap (s.bufs i).data ++ (List.range (c - (block s.heap (s.bufs i).data).length)).map (junk s.next)).length = c := by
      simp; omega
    generalize hM : block s.heap (s.bufs i).data ++ (List.range (c - (block s.heap (s.bufs i).data).length)).map (junk s.next) = M at hml
    have hA : ∀ x, addr { s with bufs := poke s.bufs i ⟨some s.next, x, c⟩, heap := poke (free s.heap (s.bufs i).data) s.next (some M), next := s.next + 1, views := poke s.views i { s.views i with data := some s.next, cap := c } }
        = fun h => if h.key = (none, i) then some s.next else addr s h := by
      intro x; funext h
      cases h with
      | buf j => by_cases hj : j = i <;> simp [addr, poke, hj, hi, Holder.key]
      | view j => by_cases hj : j = i <;> simp [addr, poke, hj, hi, Holder.key]
      | arr k j => simp [addr, Holder.key]
    have hC : ∀ x, capOf { s with bufs := poke s.bufs i ⟨some s.next, x, c⟩, heap := poke (free s.heap (s.bufs i).data) s.next (some M), next := s.next + 1, views := poke s.views i { s.views i with data := some s.next, cap := c } }
        = fun h => if h.key = (none, i) then M.length else capOf s h := by
      intro x; funext h
      cases h with
      | buf j => by_cases hj : j = i <;> simp [capOf, poke, hj, hi, Holder.key, hml]
      | view j => by_cases hj : j = i <;> simp [capOf, poke, hj, hi, Holder.key, hml]
      | arr k j => simp [capOf, Holder.key]
    have hbuf : addr s (.buf i) = (s.bufs i).data := by simp [addr, hi]
    have hv := r.inv.grow i M
    have hL := r.inv.grow_lost i M
    rw [hbuf] at hv hL
    have keep : ∀ (h : Holder), h.key ≠ (none, i) →
        block (poke (free s.heap (s.bufs i).data) s.next (some M)) (addr s h) = block s.heap (addr s h) := by
      intro h hk
      rw [block_poke_other, block_free_other]
      · cases e : addr s h with
        | none => exact Or.inl rfl
        | some a =>
          right
          intro he
          exact hk (r.inv.uniq h (.buf i) a e (by rw [hbuf, ← he]))
      · intro e; have := r.inv.old e; omega
    refine ⟨_, rfl, ?_, rfl, rfl, rfl, by simpa [poke] using hc1, ?_⟩
    · constructor
      · exact hv.congr (hA _) (hC _)
      · exact r.coords
      · intro h; exact absurd (ha.symm.trans h) (by simp)
      · intro j hj
        by_cases hji : j = i
        · subst hji; simpa [poke] using r.len j hj
        · simpa [poke, hji] using r.len j hj
      · intro j hj
        by_cases hji : j = i
        · subst hji; simp only [poke, if_true]; omega
        · simpa [poke, hji] using r.fits j hj
      · intro j hj hh
        by_cases hji : j = i
        · subst hji; left; simp [poke]
        · simpa [poke, hji] using r.same j hj hh
      · intro j hj hh
        by_cases hji : j = i
        · subst hji
          have hb := r.bytes j hj hh
          have hf := r.fits j hj
          have hvb := view_block r.inv hj
          simp only [poke_same]
          rw [block_some (poke_same _ _ _), ← hM]
          rcases r.same j hj hh with e | e
          · rw [← hb, e]
            rw [e] at hvb
            rw [List.take_append_of_le_length (by omega)]
          · rw [e] at hvb
            have hz : (s.views j).size = 0 := by simp [block] at hvb; omega
            have hb := r.len j hj
            rw [hz] at hb ⊢
            rw [List.length_eq_zero_iff.mp hb.symm]; simp
        · have := keep (.view j) (by simp [Holder.key, hji])
          simp only [addr, hj, if_true] at this
          have hb := r.bytes j hj hh
          simp only [poke_other _ _ hji]
          rw [this]; exact hb
      · exact r.dn
      · intro k f hf
        obtain ⟨d, h4, h5⟩ := r.arr k f hf
        refine ⟨d, h4, fun j hj => ⟨(h5 j hj).1, fun hd => ⟨((h5 j hj).2 hd).1, ?_⟩⟩⟩
        have := keep (.arr k j) (by simp [Holder.key])
        have e : addr s (.arr k j) = (f j).data := by
          have hf' : s.arrays[k]? = some (some f) := hf
          simp only [addr]; rw [if_pos hj, hf']
        rw [e] at this
        show (block (poke (free s.heap (s.bufs i).data) s.next (some M)) (f j).data).take (f j).size = _
        rw [this]; exact ((h5 j hj).2 hd).2
    · intro a
      unfold Lost
      rw [hA]
      exact hL a

/-- `GeoArrowBuilderReserveBuffer` finds no memory. -/
theorem reserve_fail {junk : Nat → Nat → Byte} {i add : Nat} {s : Sys} {l : Ledger} (r : Rel s l) (ha : s.alive = true) (hi : i < s.n)
    (hm : ¬ (s.views i).size + add ≤ (s.bufs i).cap) :
    reserve junk false i add s = some (ENOMEM, { s with bufs := poke s.bufs i ⟨none, 0, 0⟩ }) ∧
      Rel { s with bufs := poke s.bufs i ⟨none, 0, 0⟩ } { l with hurt := fun j => if j = i then true else l.hurt j } ∧
      ∀ a, Lost s a → Lost { s with bufs := poke s.bufs i ⟨none, 0, 0⟩ } a := by
  refine ⟨?_, ?_, ?_⟩
  · unfold reserve nReserve
    simp [ha, hi, hm]
  · have hA : addr { s with bufs := poke s.bufs i ⟨none, 0, 0⟩ } = fun h => if h = .buf i then none else addr s h := by
      funext h
      cases h with
      | buf j => by_cases hj : j = i <;> simp [addr, poke, hj]
      | view j => simp [addr]
      | arr k j => simp [addr]
    have hC : capOf { s with bufs := poke s.bufs i ⟨none, 0, 0⟩ } = fun h => if h = .buf i then 0 else capOf s h := by
      funext h
      cases h with
      | buf j => by_cases hj : j = i <;> simp [capOf, poke, hj]
      | view j => simp [capOf]
      | arr k j => simp [capOf]
    constructor
    · exact (r.inv.drop (fun h => h = .buf i)).congr hA hC
    · exact r.coords
    · intro h; exact absurd (ha.symm.trans h) (by simp)
    · exact r.len
    · exact r.fits
    · intro j hj hh
      by_cases hji : j = i
      · simp [hji] at hh
      · simp only [hji, if_false] at hh
        simpa [poke, hji] using r.same j hj hh
    · intro j hj hh
      by_cases hji : j = i
      · simp [hji] at hh
      · simp only [hji, if_false] at hh
        exact r.bytes j hj hh
    · exact r.dn
    · exact r.arr
  · rintro a ⟨h1, h2, h3⟩
    refine ⟨h1, fun j => ?_, h3⟩
    by_cases hj : j = i
    · simp [addr, poke, hj]
    · have := h2 j; simpa [addr, poke, hj] using this

/-- Bytes that fit are appended. -/
theorem appendUnsafe_ok {i : Nat} {bs : List Byte} {s : Sys} {l : Ledger} (r : Rel s l) (ha : s.alive = true) (hi : i < s.n)
    (hf : (s.views i).size + bs.length ≤ (s.views i).cap) :
    ∃ s', appendUnsafe i bs s = some s' ∧ Rel s' { l with bytes := fun j => if j = i then l.bytes j ++ bs else l.bytes j } ∧
      s'.alive = s.alive ∧ s'.n = s.n ∧ s'.arrays = s.arrays ∧ (∀ a, Lost s' a ↔ Lost s a) := by
  by_cases hb : bs = []
  · subst hb
    refine ⟨s, by simp [appendUnsafe], ?_, rfl, rfl, rfl, fun _ => Iff.rfl⟩
    have : ({ l with bytes := fun j => if j = i then l.bytes j ++ [] else l.bytes j } : Ledger) = l := by
      cases l; simp
    rw [this]; exact r
  · have hpos : 0 < bs.length := List.length_pos_iff.mpr hb
    have hvl := view_block r.inv hi
    cases e : (s.views i).data with
    | none => rw [e] at hvl; simp [block] at hvl; omega
    | some a =>
      obtain ⟨m, h1, h2⟩ := r.inv.good (.view i) a (by simp [addr, hi, e])
      simp only [capOf, hi, if_true] at h2
      have heq : appendUnsafe i bs s = some { s with
          heap := poke s.heap a (some (m.take (s.views i).size ++ bs ++ m.drop ((s.views i).size + bs.length))),
          views := poke s.views i { s.views i with size := (s.views i).size + bs.length } } := by
        have hle : (s.views i).size + bs.length ≤ m.length := by omega
        simp only [appendUnsafe, hb, if_false, e, h1, memcpyAt, if_pos hle]
      rw [heq]
      have hml : (m.take (s.views i).size ++ bs ++ m.drop ((s.views i).size + bs.length)).length = m.length := by
        simp; omega
      have hpre : (m.take (s.views i).size ++ bs ++ m.drop ((s.views i).size + bs.length)).take ((s.views i).size + bs.length)
          = m.take (s.views i).size ++ bs := by
        rw [List.take_append_of_le_length (by simp; omega), List.take_of_length_le (by simp; omega)]
      generalize m.take (s.views i).size ++ bs ++ m.drop ((s.views i).size + bs.length) = m' at hml hpre heq
      have hA : addr { s with heap := poke s.heap a (some m'), views := poke s.views i { s.views i with size := (s.views i).size + bs.length } } = addr s := by
        funext h
        cases h with
        | buf j => simp [addr]
        | view j => by_cases hj : j = i <;> simp [addr, poke, hj]
        | arr k j => simp [addr]
      have hC : capOf { s with heap := poke s.heap a (some m'), views := poke s.views i { s.views i with size := (s.views i).size + bs.length } } = capOf s := by
        funext h
        cases h with
        | buf j => simp [capOf]
        | view j => by_cases hj : j = i <;> simp [capOf, poke, hj]
        | arr k j => simp [capOf]
      have keep : ∀ h : Holder, h.key ≠ (none, i) → block (poke s.heap a (some m')) (addr s h) = block s.heap (addr s h) := by
        intro h hk
        apply block_poke_other
        intro he
        exact hk (r.inv.uniq h (.view i) a he (by simp [addr, hi, e]))
      refine ⟨_, rfl, ?_, rfl, rfl, rfl, ?_⟩
      · constructor
        · exact (r.inv.write h1 hml).congr hA hC
        · exact r.coords
        · intro h; exact absurd (ha.symm.trans h) (by simp)
        · intro j hj
          by_cases hji : j = i
          · subst hji; simp [poke, r.len j hj]
          · simpa [poke, hji] using r.len j hj
        · intro j hj
          by_cases hji : j = i
          · subst hji; simpa [poke] using hf
          · simpa [poke, hji] using r.fits j hj
        · intro j hj hh
          by_cases hji : j = i
          · subst hji; have := r.same j hj hh; simpa [poke] using this
          · simpa [poke, hji] using r.same j hj hh
        · intro j hj hh
          by_cases hji : j = i
          · subst hji
            have := r.bytes j hj hh
            rw [e, block_some h1] at this
            simp only [poke_same, if_true]
            rw [e, block_some (poke_same _ _ _), hpre, this]
          · have hk := keep (.view j) (by simp [Holder.key, hji])
            simp only [addr, hj, if_true] at hk
            simp only [poke_other _ _ hji, hji, if_false]
            rw [hk]; exact r.bytes j hj hh
        · exact r.dn
        · intro k f hfk
          obtain ⟨d, h4, h5⟩ := r.arr k f hfk
          refine ⟨d, h4, fun j hj => ⟨(h5 j hj).1, fun hd => ⟨((h5 j hj).2 hd).1, ?_⟩⟩⟩
          have hk := keep (.arr k j) (by simp [Holder.key])
          have e' : addr s (.arr k j) = (f j).data := by
            have hf' : s.arrays[k]? = some (some f) := hfk
            simp only [addr]; rw [if_pos hj, hf']
          rw [e'] at hk
          show (block (poke s.heap a (some m')) (f j).data).take (f j).size = _
          rw [hk]; exact ((h5 j hj).2 hd).2
      · intro b
        unfold Lost
        rw [hA]
        exact write_lost h1 b

end Verif.Oom
