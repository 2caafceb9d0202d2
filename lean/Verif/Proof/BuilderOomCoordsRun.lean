import Verif.Proof.BuilderOomCoords
/-!
# Builders when memory runs out: histories with coordinates
-/
namespace Verif.Oom
open Verif.Spec

/-- What holds of the coordinates of a builder, besides what the ledger says of it once settled -/
structure Rest (s : Sys) (l : Ledger) : Prop where
  shape : Shape s
  low : ∀ i, firstCoord s ≤ i → i < s.n → (s.views i).size ≤ s.sizeCoords * wide s
  room : ∀ i, firstCoord s ≤ i → i < s.n → s.capCoords * wide s ≤ (s.views i).cap
  ptr : 0 < s.capCoords → ∀ j, j < s.nValues → s.values j = (s.views (ordBuf s j)).data.map fun a => (a, ordOff s j)
  caps : (∀ i j, firstCoord s ≤ i → i < s.n → firstCoord s ≤ j → j < s.n → (s.bufs i).cap = (s.bufs j).cap) ∨
    ∀ i, firstCoord s ≤ i → i < s.n → (s.bufs i).cap ≤ 1
  unhurt : ∀ i, firstCoord s ≤ i → i < s.n → l.hurt i = false
  plain : s.kind = none → s.capCoords = 0

/-- `s'` is `s` but for memory, arrays and the `i`-th buffer. -/
structure Near (i : Nat) (s s' : Sys) : Prop where
  n : s'.n = s.n
  kind : s'.kind = s.kind
  nValues : s'.nValues = s.nValues
  size : s'.sizeCoords = s.sizeCoords
  cap : s'.capCoords = s.capCoords
  values : s'.values = s.values
  alive : s'.alive = s.alive
  views : ∀ j, j ≠ i → s'.views j = s.views j
  bufs : ∀ j, j ≠ i → s'.bufs j = s.bufs j

theorem first_congr {s s' : Sys} (h1 : s'.n = s.n) (h2 : s'.kind = s.kind) (h3 : s'.nValues = s.nValues) : firstCoord s' = firstCoord s := by
  unfold firstCoord; rw [h1, h2, h3]
theorem wide_congr {s s' : Sys} (h2 : s'.kind = s.kind) (h3 : s'.nValues = s.nValues) : wide s' = wide s := by
  unfold wide; rw [h2, h3]
theorem ordBuf_congr {s s' : Sys} (h1 : s'.n = s.n) (h2 : s'.kind = s.kind) (h3 : s'.nValues = s.nValues) : ordBuf s' = ordBuf s := by
  funext j; unfold ordBuf; rw [h2, first_congr h1 h2 h3]
theorem ordOff_congr {s s' : Sys} (h2 : s'.kind = s.kind) : ordOff s' = ordOff s := by
  funext j; unfold ordOff; rw [h2]
theorem shape_congr {s s' : Sys} (sh : Shape s) (h1 : s'.n = s.n) (h2 : s'.kind = s.kind) (h3 : s'.nValues = s.nValues) : Shape s' := by
  constructor
  · intro h; rw [h3, h1]; exact sh.sep (by rw [← h2]; exact h)
  · intro h; rw [h3, h1]; exact sh.int (by rw [← h2]; exact h)

theorem ordBuf_range {s : Sys} (sh : Shape s) {j : Nat} (hj : j < s.nValues) (hk : s.kind ≠ none) : firstCoord s ≤ ordBuf s j ∧ ordBuf s j < s.n := by
  unfold ordBuf firstCoord
  cases h : s.kind with
  | none => exact absurd h hk
  | some k =>
    cases k with
    | separate => have := sh.sep h; simp; omega
    | interleaved => have := sh.int h; simp; omega

theorem ordBuf_ge (s : Sys) (j : Nat) : firstCoord s ≤ ordBuf s j := by
  unfold ordBuf; split <;> omega

theorem first_le (s : Sys) : firstCoord s ≤ s.n := by
  unfold firstCoord
  cases s.kind with
  | none => exact Nat.le_refl _
  | some k => cases k <;> simp

theorem Rest.near {i : Nat} {s s' : Sys} {l l' : Ledger} (r : Rest s l) (x : Near i s s') (hi : i < firstCoord s)
    (hl : ∀ j, j ≠ i → l'.hurt j = l.hurt j) : Rest s' l' := by
  have hF := first_congr x.n x.kind x.nValues
  have hW := wide_congr x.kind x.nValues
  constructor
  · exact shape_congr r.shape x.n x.kind x.nValues
  · intro j h1 h2; rw [hF] at h1; rw [x.n] at h2; rw [x.views j (by omega), x.size, hW]; exact r.low j h1 h2
  · intro j h1 h2; rw [hF] at h1; rw [x.n] at h2; rw [x.views j (by omega), x.cap, hW]; exact r.room j h1 h2
  · intro h j hj
    rw [x.cap] at h; rw [x.nValues] at hj
    rw [x.values, ordBuf_congr x.n x.kind x.nValues, ordOff_congr x.kind, x.views _ (by have := ordBuf_ge s j; omega)]
    exact r.ptr h j hj
  · rw [hF, x.n]
    rcases r.caps with h | h
    · left; intro a b h1 h2 h3 h4
      rw [x.bufs a (by omega), x.bufs b (by omega)]; exact h a b h1 h2 h3 h4
    · right; intro a h1 h2
      rw [x.bufs a (by omega)]; exact h a h1 h2
  · intro j h1 h2; rw [hF] at h1; rw [x.n] at h2; rw [hl j (by omega)]; exact r.unhurt j h1 h2
  · intro h; rw [x.cap]; exact r.plain (by rw [← x.kind]; exact h)

/-- The capacity after `ArrowBufferReserve` -/
def grownCap (c need : Nat) : Nat := if need ≤ c then c else growByFactor c need

theorem grownCap_ge (c need : Nat) : need ≤ grownCap c need := by
  unfold grownCap; split
  · assumption
  · exact growByFactor_ge _ _

/-- What reserving does, exactly as far as capacities go -/
theorem reserve_near {junk : Nat → Nat → Byte} {mem : Bool} {i add : Nat} {s : Sys} {rc : Code} {s' : Sys}
    (h : reserve junk mem i add s = some (rc, s')) : Near i s s' ∧ (rc = 0 → (s'.views i).size = (s.views i).size ∧ (s'.views i).data = (s'.bufs i).data ∧
      (s'.views i).cap = (s'.bufs i).cap ∧ (s'.bufs i).cap = grownCap (s.bufs i).cap ((s.views i).size + add)) := by
  unfold reserve at h
  by_cases hp : s.alive = true ∧ i < s.n
  · rw [if_pos hp] at h
    have hc : (nReserve junk mem { s.bufs i with size := (s.views i).size } add s.heap s.next).1 = true →
        (nReserve junk mem { s.bufs i with size := (s.views i).size } add s.heap s.next).2.1.cap = grownCap (s.bufs i).cap ((s.views i).size + add) := by
      unfold nReserve grownCap
      dsimp only
      by_cases hle : (s.views i).size + add ≤ (s.bufs i).cap
      · simp [hle]
      · simp only [hle, if_false]
        cases mem <;> simp
    generalize nReserve junk mem { s.bufs i with size := (s.views i).size } add s.heap s.next = r at h hc
    obtain ⟨ok, b, H, N⟩ := r
    cases ok with
    | false =>
      simp only [Bool.false_eq_true, if_false, Option.some.injEq, Prod.mk.injEq] at h
      obtain ⟨rfl, rfl⟩ := h
      refine ⟨⟨rfl, rfl, rfl, rfl, rfl, rfl, rfl, fun _ _ => rfl, fun j hj => poke_other _ _ hj⟩, fun h => absurd h (by decide)⟩
    | true =>
      simp only [if_true, Option.some.injEq, Prod.mk.injEq] at h
      obtain ⟨rfl, rfl⟩ := h
      refine ⟨⟨rfl, rfl, rfl, rfl, rfl, rfl, rfl, fun j hj => poke_other _ _ hj, fun j hj => poke_other _ _ hj⟩, fun _ => ?_⟩
      simp only [poke_same]
      exact ⟨trivial, trivial, trivial, hc rfl⟩
  · rw [if_neg hp] at h; cases h

theorem appendUnsafe_near {i : Nat} {bs : List Byte} {s s' : Sys} (h : appendUnsafe i bs s = some s') : Near i s s' := by
  unfold appendUnsafe at h
  dsimp only at h
  split at h
  · cases h; exact ⟨rfl, rfl, rfl, rfl, rfl, rfl, rfl, fun _ _ => rfl, fun _ _ => rfl⟩
  · split at h
    · cases h
    · split at h
      · cases h
      · split at h
        · cases h
        · cases h; exact ⟨rfl, rfl, rfl, rfl, rfl, rfl, rfl, fun j hj => poke_other _ _ hj, fun _ _ => rfl⟩

theorem Near.trans {i : Nat} {s t u : Sys} (x : Near i s t) (y : Near i t u) : Near i s u :=
  ⟨y.n.trans x.n, y.kind.trans x.kind, y.nValues.trans x.nValues, y.size.trans x.size, y.cap.trans x.cap, y.values.trans x.values,
    y.alive.trans x.alive, fun j hj => (y.views j hj).trans (x.views j hj), fun j hj => (y.bufs j hj).trans (x.bufs j hj)⟩

theorem append_near {junk : Nat → Nat → Byte} {mem : Bool} {i : Nat} {bs : List Byte} {s : Sys} {rc : Code} {s' : Sys}
    (h : append junk mem i bs s = some (rc, s')) : Near i s s' := by
  unfold append at h
  split at h
  · split at h
    · cases e : appendUnsafe i bs s with
      | none => rw [e] at h; cases h
      | some t => rw [e] at h; cases h; exact appendUnsafe_near e
    · cases e : reserve junk mem i bs.length s with
      | none => rw [e] at h; cases h
      | some p =>
        obtain ⟨rc1, s1⟩ := p
        rw [e] at h
        simp only at h
        have h1 := (reserve_near e).1
        split at h
        · cases e2 : appendUnsafe i bs s1 with
          | none => rw [e2] at h; cases h
          | some t => rw [e2] at h; cases h; exact h1.trans (appendUnsafe_near e2)
        · cases h; exact h1
  · cases h

theorem rest_blank {s s' : Sys} {l : Ledger} (sh : Shape s) (h1 : s'.n = s.n) (h2 : s'.kind = s.kind) (h3 : s'.nValues = s.nValues)
    (hv : ∀ i, s'.views i = ⟨none, 0, 0⟩) (hb : ∀ i, s'.bufs i = ⟨none, 0, 0⟩) (hc : s'.capCoords = 0) (hl : ∀ i, l.hurt i = false) : Rest s' l where
  shape := shape_congr sh h1 h2 h3
  low i _ _ := by rw [hv]; exact Nat.zero_le _
  room i _ _ := by rw [hc]; simp
  ptr h := by rw [hc] at h; exact absurd h (by omega)
  caps := Or.inr fun i _ _ => by rw [hb]; exact Nat.zero_le _
  unhurt i _ _ := hl i
  plain _ := hc

/-- Finishing in vain -/
theorem rest_failed {junk : Nat → Nat → Byte} {mem : Nat → Bool} {s : Sys} {l : Ledger} (r : Rest s l) (v : Rel (settle s) l) :
    Rest (finalize junk mem (s.n - 1) 1 (syncSizes (raiseSizes s))).2 l := by
  obtain ⟨bufs, heap, next, h1, _, h3⟩ := finalize_frame junk mem (s.n - 1) 1 (syncSizes (raiseSizes s))
  rw [h1]
  have hv : (raiseSizes s).views = (settle s).views := by rw [settle_eq r.shape]; rfl
  have hsb : ∀ j, j < s.n → (syncSizes (raiseSizes s)).bufs j = { s.bufs j with size := ((settle s).views j).size } := by
    intro j hj
    have : (raiseSizes s).n = s.n := by rw [raise_views r.shape]
    have hb : (raiseSizes s).bufs = s.bufs := by rw [raise_views r.shape]
    simp only [syncSizes]
    rw [this, if_pos hj, hv, hb]
  rw [raise_views r.shape] at h3 hsb ⊢
  have hbj : ∀ j, firstCoord s ≤ j → j < s.n → (bufs j).cap = (s.bufs j).cap ∨ ((s.bufs j).data = none ∧ (bufs j).cap ≤ 1) := by
    intro j hF hj
    rcases h3 j with h | ⟨h, h'⟩
    · left; rw [h, hsb j hj]
    · right
      rw [hsb j hj] at h h'
      dsimp only at h h'
      refine ⟨h, ?_⟩
      have hc : (s.bufs j).cap = 0 := by
        have := v.inv.null (.buf j) (by simp [addr, settle, h]); simpa [capOf, hj, settle] using this
      have hz : ((settle s).views j).size = 0 := by
        have hf := v.fits j hj
        have hcap : ((settle s).views j).cap = 0 := by
          have hd : ((settle s).views j).data = none := by
            rcases v.same j hj (r.unhurt j hF hj) with e | e
            · rw [e]; exact h
            · exact e
          have := v.inv.null (.view j) (by simp [addr, hd]); simpa [capOf, show j < (settle s).n from hj] using this
        omega
      rcases h' with h' | h'
      · omega
      · rw [h', hc, hz]; unfold growByFactor; split <;> omega
  constructor
  · exact shape_congr r.shape rfl rfl rfl
  · intro i hF hi
    have hF' : firstCoord s ≤ i := hF
    have hi' : i < s.n := hi
    show (if firstCoord s ≤ i ∧ i < s.n then top (s.views i) (s.sizeCoords * wide s) else s.views i).size ≤ s.sizeCoords * wide s
    rw [if_pos ⟨hF', hi'⟩, top_size]
    have := r.low i hF' hi'
    omega
  · intro i hF hi
    have hF' : firstCoord s ≤ i := hF
    have hi' : i < s.n := hi
    show s.capCoords * wide s ≤ (if firstCoord s ≤ i ∧ i < s.n then top (s.views i) (s.sizeCoords * wide s) else s.views i).cap
    rw [if_pos ⟨hF', hi'⟩, top_cap]
    exact r.room i hF' hi'
  · intro h j hj
    have := r.ptr h j hj
    show s.values j = ((settle s).views (ordBuf s j)).data.map fun a => (a, ordOff s j)
    rw [settle_data]; exact this
  · by_cases hn : ∃ j, firstCoord s ≤ j ∧ j < s.n ∧ (s.bufs j).data = none
    · right
      obtain ⟨j, hF, hj, hd⟩ := hn
      have hc : (s.bufs j).cap = 0 := by
        have := v.inv.null (.buf j) (by simp [addr, settle, hd]); simpa [capOf, hj, settle] using this
      intro i hiF hi
      show (bufs i).cap ≤ 1
      rcases hbj i hiF hi with h | ⟨_, h⟩
      · rw [h]
        rcases r.caps with h | h
        · rw [h i j hiF hi hF hj, hc]; omega
        · exact h i hiF hi
      · exact h
    · have keep : ∀ j, firstCoord s ≤ j → j < s.n → (bufs j).cap = (s.bufs j).cap := by
        intro j hF hj
        rcases hbj j hF hj with h | ⟨h, _⟩
        · exact h
        · exact absurd ⟨j, hF, hj, h⟩ hn
      rcases r.caps with h | h
      · left; intro i j a b c d
        show (bufs i).cap = (bufs j).cap
        rw [keep i a b, keep j c d]; exact h i j a b c d
      · right; intro i a b
        show (bufs i).cap ≤ 1
        rw [keep i a b]; exact h i a b
  · exact r.unhurt
  · exact r.plain

/-- Calls on other buffers and on the builder as a whole -/
theorem rest_raw {junk : Nat → Nat → Byte} {c : Call} {s : Sys} {l : Ledger} (r : Rest s l) (v : Rel (settle s) l) (hc : IsRaw c) (ht : Tidy s c)
    {rc : Code} {s' : Sys} (h : c.run junk s = some (rc, s')) :
    Rest s' (l.note c rc) ∧ s'.n = s.n ∧ s'.kind = s.kind ∧ s'.nValues = s.nValues := by
  cases c with
  | coords mem cs => exact hc.elim
  | coordsReserve mem n => exact hc.elim
  | reserve mem i add =>
    have x := (reserve_near h).1
    refine ⟨r.near x ht fun j hj => ?_, x.n, x.kind, x.nValues⟩
    simp only [Ledger.note]; split <;> simp [hj]
  | append mem i bs =>
    have x := append_near h
    refine ⟨r.near x ht fun j hj => ?_, x.n, x.kind, x.nValues⟩
    simp only [Ledger.note]; split <;> simp [hj]
  | release k =>
    simp only [Call.run, release] at h
    split at h
    · simp only [Option.some.injEq, Prod.mk.injEq] at h
      obtain ⟨rfl, rfl⟩ := h
      exact ⟨⟨⟨r.shape.sep, r.shape.int⟩, r.low, r.room, r.ptr, r.caps, r.unhurt, r.plain⟩, rfl, rfl, rfl⟩
    · cases h
  | reset =>
    simp only [Call.run, reset] at h
    split at h
    · simp only [Option.some.injEq, Prod.mk.injEq] at h
      obtain ⟨rfl, rfl⟩ := h
      exact ⟨rest_blank r.shape rfl rfl rfl (fun _ => rfl) (fun _ => rfl) rfl fun _ => rfl, rfl, rfl, rfl⟩
    · simp only [Option.some.injEq, Prod.mk.injEq] at h
      obtain ⟨rfl, rfl⟩ := h
      exact ⟨⟨r.shape, r.low, r.room, r.ptr, r.caps, fun _ _ _ => rfl, r.plain⟩, rfl, rfl, rfl⟩
  | finish mem valid =>
    simp only [Call.run, finish] at h
    split at h
    · have hf := rest_failed (junk := junk) (mem := mem) r v
      obtain ⟨bufs, heap, next, h1, _, _⟩ := finalize_frame junk mem (s.n - 1) 1 (syncSizes (raiseSizes s))
      have hs : ∀ t, (finalize junk mem (s.n - 1) 1 (syncSizes (raiseSizes s))).2 = t → t.n = s.n ∧ t.kind = s.kind ∧ t.nValues = s.nValues := by
        intro t ht
        rw [← ht, h1, raise_views r.shape]
        exact ⟨rfl, rfl, rfl⟩
      have hs := hs _ rfl
      generalize finalize junk mem (s.n - 1) 1 (syncSizes (raiseSizes s)) = q at h hf hs
      obtain ⟨ok, t⟩ := q
      cases ok with
      | false =>
        simp only [Bool.false_eq_true, if_false, Option.some.injEq, Prod.mk.injEq] at h
        obtain ⟨rfl, rfl⟩ := h
        refine ⟨?_, hs⟩
        simp only [Ledger.note]; rw [if_neg (by decide)]; exact hf
      | true =>
        cases valid with
        | false =>
          simp only [if_true, Bool.false_eq_true, if_false, Option.some.injEq, Prod.mk.injEq] at h
          obtain ⟨rfl, rfl⟩ := h
          refine ⟨?_, hs⟩
          simp only [Ledger.note]; rw [if_neg (by decide)]; exact hf
        | true =>
          simp only [if_true, Option.some.injEq, Prod.mk.injEq] at h
          obtain ⟨rfl, rfl⟩ := h
          refine ⟨?_, hs⟩
          simp only [Ledger.note, if_true]
          exact rest_blank r.shape hs.1 hs.2.1 hs.2.2 (fun _ => rfl) (fun _ => rfl) rfl fun _ => rfl
    · cases h

end Verif.Oom
