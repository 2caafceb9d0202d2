import Verif.Proof.BuilderOomCoordsRun
import Verif.Proof.BuilderRead
/-!
# Builders when memory runs out: what calls on coordinates write
-/
namespace Verif.Oom
open Verif.Spec

/-- Raising the size of a buffer of coordinates does not change the settled state. -/
theorem settle_raise {s : Sys} {i : Nat} (hF : firstCoord s ≤ i) (hi : i < s.n) (hl : (s.views i).size ≤ s.sizeCoords * wide s) :
    settle { s with views := poke s.views i { s.views i with size := s.sizeCoords * wide s } } = settle s := by
  simp only [settle, Sys.mk.injEq, true_and, and_true]
  funext j
  show (if firstCoord s ≤ j ∧ j < s.n then top (poke s.views i _ j) (s.sizeCoords * wide s) else poke s.views i _ j) = _
  by_cases hj : j = i
  · subst hj
    rw [poke_same, if_pos ⟨hF, hi⟩, if_pos ⟨hF, hi⟩, top_self (Nat.le_refl _)]
    unfold top
    split
    · rfl
    · have : (s.views j).size = s.sizeCoords * wide s := by omega
      rw [← this]
  · rw [poke_other _ _ hj]

/-- Memory for one buffer of coordinates -/
theorem reserve_coord {junk : Nat → Nat → Byte} {m : Bool} {i add : Nat} {s : Sys} {l : Ledger} (v : Rel (settle s) l) (ha : s.alive = true)
    (hF : firstCoord s ≤ i) (hi : i < s.n) (hl : (s.views i).size ≤ s.sizeCoords * wide s) :
    (∃ s', reserve junk m i add { s with views := poke s.views i { s.views i with size := s.sizeCoords * wide s } } = some (0, s') ∧ Rel (settle s') l ∧ Near i s s' ∧
      (s'.views i).size = s.sizeCoords * wide s ∧ (s'.views i).cap = (s'.bufs i).cap ∧ (s'.bufs i).cap = grownCap (s.bufs i).cap (s.sizeCoords * wide s + add)) ∨
    (m = false ∧ ∃ s', reserve junk m i add { s with views := poke s.views i { s.views i with size := s.sizeCoords * wide s } } = some (ENOMEM, s')) := by
  obtain ⟨t, ht⟩ : ∃ t : Sys, t = { s with views := poke s.views i { s.views i with size := s.sizeCoords * wide s } } := ⟨_, rfl⟩
  have hst : settle t = settle s := by rw [ht]; exact settle_raise hF hi hl
  have htv : t.views i = { s.views i with size := s.sizeCoords * wide s } := by rw [ht]; exact poke_same _ _ _
  have hz : ((settle t).views i).size = (t.views i).size := by
    rw [hst, htv]
    simp only [settle]
    rw [if_pos ⟨hF, hi⟩, top_size]; omega
  have hn : Near i s t := by rw [ht]; exact ⟨rfl, rfl, rfl, rfl, rfl, rfl, rfl, fun j hj => poke_other _ _ hj, fun _ _ => rfl⟩
  have hcm := settle_reserve (junk := junk) (mem := m) (i := i) (add := add) hz
  have htb : t.bufs = s.bufs := by rw [ht]
  rw [hst] at hcm
  rw [← ht]
  by_cases hm : m = true ∨ ((settle s).views i).size + add ≤ ((settle s).bufs i).cap
  · left
    obtain ⟨u, h1, h2, _⟩ := reserve_ok (junk := junk) v ha hi hm
    rw [h1] at hcm
    cases e : reserve junk m i add t with
    | none => rw [e] at hcm; cases hcm
    | some p =>
      obtain ⟨rc, s'⟩ := p
      rw [e] at hcm
      simp only [Option.map_some, Option.some.injEq, Prod.mk.injEq] at hcm
      obtain ⟨rfl, rfl⟩ := hcm
      obtain ⟨x, y⟩ := reserve_near e
      obtain ⟨y1, y2, y3, y4⟩ := y rfl
      refine ⟨s', rfl, h2, hn.trans x, ?_, y3, ?_⟩
      · rw [y1, htv]
      · rw [y4, htb, htv]
  · right
    have hmem : m = false := by cases m <;> simp_all
    subst hmem
    obtain ⟨h1, _⟩ := reserve_fail (junk := junk) (i := i) (add := add) v ha hi (fun h => hm (Or.inr h))
    rw [h1] at hcm
    cases e : reserve junk false i add t with
    | none => rw [e] at hcm; cases hcm
    | some p =>
      obtain ⟨rc, s'⟩ := p
      rw [e] at hcm
      simp only [Option.map_some, Option.some.injEq, Prod.mk.injEq] at hcm
      refine ⟨rfl, s', by rw [← hcm.1]⟩

/-- `s'` is `s` but for memory, arrays and buffers of coordinates. -/
structure Around (s s' : Sys) : Prop where
  n : s'.n = s.n
  kind : s'.kind = s.kind
  nValues : s'.nValues = s.nValues
  size : s'.sizeCoords = s.sizeCoords
  alive : s'.alive = s.alive

/-- Memory for the buffers of separate coordinates -/
theorem reserve_separate {junk : Nat → Nat → Byte} {mem : Nat → Bool} {add : Nat} {l : Ledger} : ∀ (k i : Nat) (s : Sys), Rel (settle s) l → s.alive = true →
    s.kind = some .separate → (∀ j, firstCoord s ≤ j → j < s.n → (s.views j).size ≤ s.sizeCoords * wide s) → firstCoord s ≤ i → i + k ≤ s.n →
    (∃ s', reserveSeparate junk mem add k i s = some (0, s') ∧ Rel (settle s') l ∧ Around s s' ∧
      (∀ j, i ≤ j → j < i + k → (s'.views j).size ≤ s.sizeCoords * wide s ∧ (s'.views j).cap = (s'.bufs j).cap ∧
        (s'.bufs j).cap = grownCap (s.bufs j).cap (s.sizeCoords * wide s + add * 8)) ∧
      ∀ j, ¬ (i ≤ j ∧ j < i + k) → s'.views j = s.views j ∧ s'.bufs j = s.bufs j) ∨
    ∃ s', reserveSeparate junk mem add k i s = some (ENOMEM, s') ∧ ∃ j, mem j = false
  | 0, i, s, v, ha, hk, hl, hF, hi =>
    Or.inl ⟨s, rfl, v, ⟨rfl, rfl, rfl, rfl, rfl⟩, fun j h1 h2 => by omega, fun _ _ => ⟨rfl, rfl⟩⟩
  | k + 1, i, s, v, ha, hk, hl, hF, hi => by
    have hw : wide s = 8 := by simp [wide, hk]
    rcases reserve_coord (junk := junk) (m := mem i) (add := add * 8) v ha hF (by omega) (hl i hF (by omega)) with ⟨s1, e, v1, x, z1, z2, z3⟩ | ⟨hm, s1, e⟩
    · have hF1 := first_congr x.n x.kind x.nValues
      have hW1 := wide_congr x.kind x.nValues
      have hl1 : ∀ j, firstCoord s1 ≤ j → j < s1.n → (s1.views j).size ≤ s1.sizeCoords * wide s1 := by
        intro j h1 h2
        rw [x.size, hW1]
        by_cases hj : j = i
        · subst hj; omega
        · rw [x.views j hj]; exact hl j (by rw [← hF1]; exact h1) (by rw [← x.n]; exact h2)
      have hstep : reserveSeparate junk mem add (k + 1) i s = reserveSeparate junk mem add k (i + 1) s1 := by
        rw [hw] at e
        simp only [reserveSeparate, e, if_true]
      rw [hstep]
      rcases reserve_separate (junk := junk) (mem := mem) (add := add) k (i + 1) s1 v1 (by rw [x.alive]; exact ha) (by rw [x.kind]; exact hk) hl1 (by omega)
        (by rw [x.n]; omega) with ⟨s', e', v', y, y1, y2⟩ | ⟨s', e', hm⟩
      · left
        refine ⟨s', e', v', ⟨y.n.trans x.n, y.kind.trans x.kind, y.nValues.trans x.nValues, y.size.trans x.size, y.alive.trans x.alive⟩, fun j h1 h2 => ?_, fun j hj => ?_⟩
        · by_cases hj : j = i
          · subst hj
            obtain ⟨g1, g2⟩ := y2 j (by omega)
            rw [g1, g2]
            exact ⟨by omega, z2, z3⟩
          · have := y1 j (by omega) (by omega)
            rw [x.bufs j hj, x.size, hW1] at this
            exact this
        · obtain ⟨g1, g2⟩ := y2 j (by omega)
          rw [g1, g2, x.views j (by omega), x.bufs j (by omega)]
          exact ⟨rfl, rfl⟩
      · exact Or.inr ⟨s', e', hm⟩
    · right
      refine ⟨s1, ?_, i, hm⟩
      rw [hw] at e
      have hne : ENOMEM ≠ 0 := by decide
      simp only [reserveSeparate, e, hne, if_false]

theorem grownCap_small {c need : Nat} (hc : c ≤ 1) (hn : 8 ≤ need) : grownCap c need = need := by
  unfold grownCap growByFactor
  rw [if_neg (by omega), if_neg (by omega)]

/-- `GeoArrowBuilderCoordsReserve` -/
theorem coordsReserve_ok {junk : Nat → Nat → Byte} {mem : Nat → Bool} {add : Nat} {s : Sys} {l : Ledger} (r : Rest s l) (v : Rel (settle s) l)
    (ha : s.alive = true) :
    (∃ s', coordsReserve junk mem add s = some (0, s') ∧ Rel (settle s') l ∧ Rest s' l ∧ Around s s' ∧ s'.sizeCoords + add ≤ s'.capCoords) ∨
    (∃ s', coordsReserve junk mem add s = some (ENOMEM, s') ∧ ∃ j, mem j = false) ∨
    (s.kind = none ∧ coordsReserve junk mem add s = some (-1, s)) := by
  unfold coordsReserve
  by_cases hle : s.sizeCoords + add ≤ s.capCoords
  · left; exact ⟨s, if_pos hle, v, r, ⟨rfl, rfl, rfl, rfl, rfl⟩, hle⟩
  · rw [if_neg hle]
    cases hk : s.kind with
    | none => exact Or.inr (Or.inr ⟨rfl, rfl⟩)
    | some k =>
      cases k with
      | interleaved =>
        obtain ⟨hnv, hn⟩ := r.shape.int hk
        have hF : firstCoord s = s.n - 1 := by simp [firstCoord, hk]
        have hw : wide s = 8 * s.nValues := by simp [wide, hk]
        rcases reserve_coord (junk := junk) (m := mem (s.n - 1)) (i := s.n - 1) (add := add * 8 * s.nValues) v ha (by omega) (by omega) (r.low _ (by omega) (by omega))
          with ⟨s1, e, v1, x, z1, z2, z3⟩ | ⟨hm, s1, e⟩
        · left
          rw [hw, ← Nat.mul_assoc, hk] at e
          have hF1 : firstCoord s1 = s.n - 1 := (first_congr x.n x.kind x.nValues).trans hF
          have hW1 : wide s1 = 8 * s.nValues := (wide_congr x.kind x.nValues).trans hw
          refine ⟨{ s1 with capCoords := (s1.views (s.n - 1)).cap / 8 / s.nValues, values := fun j => if j < s.nValues then (s1.views (s.n - 1)).data.map fun a => (a, j) else s1.values j }, ?_, v1, ?_, ⟨x.n, x.kind, x.nValues, x.size, x.alive⟩, ?_⟩
          · simp only [e, if_true]
          · have only : ∀ i, firstCoord s1 ≤ i → i < s1.n → i = s.n - 1 := by intro i h1 h2; rw [x.n] at h2; omega
            constructor
            · exact shape_congr r.shape x.n x.kind x.nValues
            · intro i h1 h2
              have := only i h1 h2
              subst this
              show (s1.views (s.n - 1)).size ≤ s1.sizeCoords * wide s1
              rw [z1, x.size, wide_congr x.kind x.nValues]
              exact Nat.le_refl _
            · intro i h1 h2
              have := only i h1 h2
              subst this
              show (s1.views (s.n - 1)).cap / 8 / s.nValues * wide s1 ≤ (s1.views (s.n - 1)).cap
              rw [hW1, Nat.div_div_eq_div_mul]
              exact Nat.div_mul_le_self _ _
            · intro _ j hj
              have hj' : j < s.nValues := by rw [← x.nValues]; exact hj
              have hob : ordBuf s1 j = s.n - 1 := by unfold ordBuf; rw [x.kind, hk, if_pos rfl, hF1]
              have hoo : ordOff s1 j = j := by unfold ordOff; rw [x.kind, hk, if_pos rfl]
              show (if j < s.nValues then (s1.views (s.n - 1)).data.map fun a => (a, j) else s1.values j) = (s1.views (ordBuf s1 j)).data.map fun a => (a, ordOff s1 j)
              rw [if_pos hj', hob, hoo]
            · left; intro i j h1 h2 h3 h4
              rw [only i h1 h2, only j h3 h4]
            · intro i h1 h2
              have := only i h1 h2
              subst this
              exact r.unhurt _ (by omega) (by omega)
            · intro h
              have h' : s1.kind = none := h
              rw [x.kind, hk] at h'; cases h'
          · show s1.sizeCoords + add ≤ (s1.views (s.n - 1)).cap / 8 / s.nValues
            rw [Nat.div_div_eq_div_mul, Nat.le_div_iff_mul_le (by omega), z2, z3, x.size, hw]
            rw [Nat.add_mul, Nat.mul_assoc add 8]
            exact grownCap_ge _ _
        · right; left
          rw [hw, ← Nat.mul_assoc, hk] at e
          have hne : ENOMEM ≠ 0 := by decide
          exact ⟨s1, by simp only [e, hne, if_false], _, hm⟩
      | separate =>
        obtain ⟨hnv, hn⟩ := r.shape.sep hk
        have hF : firstCoord s = s.n - s.nValues := by simp [firstCoord, hk]
        have hw : wide s = 8 := by simp [wide, hk]
        have hlast : s.n - 1 + 1 - s.nValues = firstCoord s := by omega
        simp only [hlast]
        rcases reserve_separate (junk := junk) (mem := mem) (add := add) s.nValues (firstCoord s) s v ha hk r.low (Nat.le_refl _) (by omega)
          with ⟨s1, e, v1, x, y1, y2⟩ | ⟨s1, e, hm⟩
        · left
          have hF1 : firstCoord s1 = firstCoord s := first_congr x.n x.kind x.nValues
          have hW1 : wide s1 = 8 := (wide_congr x.kind x.nValues).trans hw
          have all : ∀ i, firstCoord s1 ≤ i → i < s1.n → firstCoord s ≤ i ∧ i < firstCoord s + s.nValues ∧ i < s.n := by
            intro i h1 h2; rw [x.n] at h2; omega
          have hcap : ∀ i j, firstCoord s ≤ i → i < s.n → firstCoord s ≤ j → j < s.n → (s1.bufs i).cap = (s1.bufs j).cap := by
            intro i j h1 h2 h3 h4
            rw [(y1 i h1 (by omega)).2.2, (y1 j h3 (by omega)).2.2]
            rcases r.caps with h | h
            · rw [h i j h1 h2 h3 h4]
            · rw [grownCap_small (h i h1 h2) (by rw [hw]; omega), grownCap_small (h j h3 h4) (by rw [hw]; omega)]
          refine ⟨{ s1 with capCoords := (s1.views (s.n - 1)).cap / 8, values := fun j => if j < s.nValues then (s1.views (firstCoord s + j)).data.map fun a => (a, 0) else s1.values j }, ?_, v1, ?_, ⟨x.n, x.kind, x.nValues, x.size, x.alive⟩, ?_⟩
          · simp only [e, if_true]
          · constructor
            · exact shape_congr r.shape x.n x.kind x.nValues
            · intro i h1 h2
              obtain ⟨a, b, c⟩ := all i h1 h2
              show (s1.views i).size ≤ s1.sizeCoords * wide s1
              rw [x.size, wide_congr x.kind x.nValues]
              exact (y1 i a b).1
            · intro i h1 h2
              obtain ⟨a, b, c⟩ := all i h1 h2
              show (s1.views (s.n - 1)).cap / 8 * wide s1 ≤ (s1.views i).cap
              rw [hW1, (y1 i a b).2.1, (y1 (s.n - 1) (by omega) (by omega)).2.1, hcap (s.n - 1) i (by omega) (by omega) a c]
              exact Nat.div_mul_le_self _ _
            · intro _ j hj
              have hj' : j < s.nValues := by rw [← x.nValues]; exact hj
              have hob : ordBuf s1 j = firstCoord s + j := by
                unfold ordBuf; rw [x.kind, hk, if_neg (by simp), hF1]
              have hoo : ordOff s1 j = 0 := by
                unfold ordOff; rw [x.kind, hk, if_neg (by simp)]
              show (if j < s.nValues then (s1.views (firstCoord s + j)).data.map fun a => (a, 0) else s1.values j) = (s1.views (ordBuf s1 j)).data.map fun a => (a, ordOff s1 j)
              rw [if_pos hj', hob, hoo]
            · left; intro i j h1 h2 h3 h4
              obtain ⟨a, _, b⟩ := all i h1 h2
              obtain ⟨c, _, d⟩ := all j h3 h4
              exact hcap i j a b c d
            · intro i h1 h2
              obtain ⟨a, _, b⟩ := all i h1 h2
              exact r.unhurt i a b
            · intro h
              have h' : s1.kind = none := h
              rw [x.kind, hk] at h'; cases h'
          · show s1.sizeCoords + add ≤ (s1.views (s.n - 1)).cap / 8
            obtain ⟨_, g1, g2⟩ := y1 (s.n - 1) (by omega) (by omega)
            rw [Nat.le_div_iff_mul_le (by omega), g1, g2, x.size, hw]
            have := grownCap_ge (s.bufs (s.n - 1)).cap (s.sizeCoords * 8 + add * 8)
            rw [Nat.add_mul]; exact this
        · right; left
          have hne : ENOMEM ≠ 0 := by decide
          exact ⟨s1, by simp only [e, hne, if_false], hm⟩

theorem memcpy_nil (m : List Byte) {p : Nat} (h : p ≤ m.length) : memcpyAt m p [] = some m := by
  unfold memcpyAt; simp [h]

theorem memcpy_some {m : List Byte} {p : Nat} {b : List Byte} (h : p + b.length ≤ m.length) :
    ∃ m', memcpyAt m p b = some m' ∧ m'.length = m.length ∧ m'.take (p + b.length) = m.take p ++ b := by
  refine ⟨m.take p ++ b ++ m.drop (p + b.length), by simp [memcpyAt, h], by simp; omega, ?_⟩
  rw [List.take_append_of_le_length (by simp; omega), List.take_of_length_le (by simp; omega)]

theorem memcpy_append {m m1 : List Byte} {p : Nat} {b1 b2 : List Byte} (h : memcpyAt m p b1 = some m1) :
    memcpyAt m1 (p + b1.length) b2 = memcpyAt m p (b1 ++ b2) := by
  unfold memcpyAt at h
  split at h
  · rename_i hle
    cases h
    have hlen : (m.take p ++ b1 ++ m.drop (p + b1.length)).length = m.length := by simp; omega
    unfold memcpyAt
    rw [hlen, List.length_append, Nat.add_assoc]
    by_cases hle2 : p + (b1.length + b2.length) ≤ m.length
    · rw [if_pos hle2, if_pos hle2]
      congr 1
      have hpl : (m.take p ++ b1).length = p + b1.length := by simp; omega
      rw [List.take_append_of_le_length (by omega), List.take_of_length_le (by omega), List.drop_append, hpl,
        List.drop_of_length_le (by omega), List.nil_append, List.drop_drop]
      simp only [List.append_assoc]
      congr 4
      omega
    · rw [if_neg hle2, if_neg hle2]
  · cases h

/-- One coordinate with its ordinates in different blocks -/
theorem pokeCoord_sep {vals : Nat → Option (Nat × Nat)} {t : Nat} : ∀ (c : List Dbl) (j : Nat) (H : Heap),
    (∀ q, q < c.length → ∃ a m, vals (j + q) = some (a, 0) ∧ H a = some m ∧ 8 * t + 8 ≤ m.length) →
    (∀ q q', q < c.length → q' < c.length → vals (j + q) = vals (j + q') → q = q') →
    ∃ H', pokeCoord vals 1 t j c H = some H' ∧ (∀ a, (∀ q, q < c.length → vals (j + q) ≠ some (a, 0)) → H' a = H a) ∧
      ∀ q a m, q < c.length → vals (j + q) = some (a, 0) → H a = some m → H' a = memcpyAt m (8 * t) (Dbl.bytes (c.getD q 0))
  | [], j, H, _, _ => ⟨H, rfl, fun _ _ => rfl, fun q _ _ hq => by simp at hq⟩
  | x :: c, j, H, hr, hu => by
    obtain ⟨a, m, h1, h2, h3⟩ := hr 0 (by simp)
    obtain ⟨m', g1, g2, _⟩ := memcpy_some (m := m) (p := 8 * t) (b := Dbl.bytes x) (by simp; omega)
    have hd : pokeDouble (vals j) (t * 1) x H = some (poke H a (some m')) := by
      have h1' : vals j = some (a, 0) := h1
      simp only [pokeDouble, h1', h2, Nat.mul_one, Nat.zero_add, g1, Option.map_some]
    have apart : ∀ q b, q < c.length → vals (j + 1 + q) = some (b, 0) → b ≠ a := by
      rintro q b hq e rfl
      have := hu 0 (q + 1) (by simp) (by simp; omega) (by rw [h1, ← e]; congr 1; omega)
      omega
    obtain ⟨H', k1, k2, k3⟩ := pokeCoord_sep (vals := vals) (t := t) c (j + 1) (poke H a (some m'))
      (fun q hq => by
        obtain ⟨b, n, e1, e2, e3⟩ := hr (q + 1) (by simp; omega)
        have e1' : vals (j + 1 + q) = some (b, 0) := by rw [← e1]; congr 1; omega
        exact ⟨b, n, e1', by rw [poke_other _ _ (apart q b hq e1')]; exact e2, e3⟩)
      (fun q q' hq hq' e => by
        have := hu (q + 1) (q' + 1) (by simp; omega) (by simp; omega) (by
          rw [show j + (q + 1) = j + 1 + q by omega, show j + (q' + 1) = j + 1 + q' by omega]; exact e)
        omega)
    refine ⟨H', by simp only [pokeCoord, hd, k1], fun b hb => ?_, fun q b n hq e1 e2 => ?_⟩
    · have hba : b ≠ a := by rintro rfl; exact hb 0 (by simp) h1
      rw [k2 b (fun q hq => by rw [show j + 1 + q = j + (q + 1) by omega]; exact hb (q + 1) (by simp; omega)), poke_other _ _ hba]
    · cases q with
      | zero =>
        have hba : b = a := by
          have h1' : vals j = some (a, 0) := h1
          have e1' : vals j = some (b, 0) := e1
          rw [h1'] at e1'; simp at e1'; exact e1'.symm
        subst hba
        rw [h2] at e2; cases e2
        rw [k2 b (fun q hq e => apart q b hq e rfl), poke_same]
        simp [g1]
      | succ q =>
        have hq' : q < c.length := by simp at hq; omega
        have e1' : vals (j + 1 + q) = some (b, 0) := by rw [← e1]; congr 1; omega
        rw [k3 q b n hq' e1' (by rw [poke_other _ _ (apart q b hq' e1')]; exact e2)]
        simp

/-- Coordinates with their ordinates in different blocks -/
theorem pokeCoords_sep {vals : Nat → Option (Nat × Nat)} {nv : Nat} : ∀ (cs : List (List Dbl)) (t : Nat) (H : Heap), (∀ c ∈ cs, c.length = nv) →
    (∀ q, q < nv → ∃ a m, vals q = some (a, 0) ∧ H a = some m ∧ 8 * (t + cs.length) ≤ m.length) →
    (∀ q q', q < nv → q' < nv → vals q = vals q' → q = q') →
    ∃ H', pokeCoords vals 1 t cs H = some H' ∧ (∀ a, (∀ q, q < nv → vals q ≠ some (a, 0)) → H' a = H a) ∧
      ∀ q a m, q < nv → vals q = some (a, 0) → H a = some m → H' a = memcpyAt m (8 * t) (cs.flatMap fun c => Dbl.bytes (c.getD q 0))
  | [], t, H, _, hr, _ => by
    refine ⟨H, rfl, fun _ _ => rfl, fun q a m hq e1 e2 => ?_⟩
    obtain ⟨b, n, h1, h2, h3⟩ := hr q hq
    rw [h1] at e1; simp at e1; subst e1
    rw [h2] at e2; cases e2
    rw [h2]
    simp only [List.flatMap_nil]
    rw [memcpy_nil _ (by simp at h3; omega)]
  | c :: cs, t, H, hc, hr, hu => by
    have hcl := hc c (by simp)
    obtain ⟨H1, k1, k2, k3⟩ := pokeCoord_sep (vals := vals) (t := t) c 0 H
      (fun q hq => by
        obtain ⟨a, m, h1, h2, h3⟩ := hr q (by omega)
        rw [List.length_cons] at h3
        exact ⟨a, m, by rw [Nat.zero_add]; exact h1, h2, by omega⟩)
      (fun q q' hq hq' e => hu q q' (by omega) (by omega) (by simpa using e))
    have hH1 : ∀ q a m, q < nv → vals q = some (a, 0) → H a = some m → 8 * (t + (c :: cs).length) ≤ m.length →
        ∃ m1, H1 a = some m1 ∧ memcpyAt m (8 * t) (Dbl.bytes (c.getD q 0)) = some m1 ∧ m1.length = m.length := by
      intro q a m hq e1 e2 hm
      rw [List.length_cons] at hm
      obtain ⟨m1, g1, g2, _⟩ := memcpy_some (m := m) (p := 8 * t) (b := Dbl.bytes (c.getD q 0)) (by simp; omega)
      exact ⟨m1, by rw [k3 q a m (by omega) (by rw [Nat.zero_add]; exact e1) e2, g1], g1, g2⟩
    obtain ⟨H', j1, j2, j3⟩ := pokeCoords_sep (vals := vals) (nv := nv) cs (t + 1) H1 (fun c' h => hc c' (by simp [h]))
      (fun q hq => by
        obtain ⟨a, m, h1, h2, h3⟩ := hr q hq
        obtain ⟨m1, g1, _, g3⟩ := hH1 q a m hq h1 h2 h3
        rw [List.length_cons] at h3
        exact ⟨a, m1, h1, g1, by omega⟩) hu
    refine ⟨H', by simp only [pokeCoords, k1, j1], fun a ha => ?_, fun q a m hq e1 e2 => ?_⟩
    · rw [j2 a ha, k2 a (fun q hq => by rw [Nat.zero_add]; exact ha q (by omega))]
    · obtain ⟨b, n, h1, h2, h3⟩ := hr q hq
      rw [h1] at e1; simp at e1; subst e1
      rw [h2] at e2; cases e2
      obtain ⟨m1, g1, g2, _⟩ := hH1 q b m hq h1 h2 h3
      rw [j3 q b m1 hq h1 g1, List.flatMap_cons, ← memcpy_append g2]
      simp only [Dbl.length_bytes]
      rw [show 8 * (t + 1) = 8 * t + 8 by omega]

/-- One coordinate with its ordinates in one block -/
theorem pokeCoord_int {vals : Nat → Option (Nat × Nat)} {a stride t : Nat} : ∀ (c : List Dbl) (j : Nat) (H : Heap) (m : List Byte),
    (∀ q, q < c.length → vals (j + q) = some (a, j + q)) → H a = some m → 8 * (j + t * stride) + 8 * c.length ≤ m.length →
    ∃ m', pokeCoord vals stride t j c H = some (poke H a (some m')) ∧ memcpyAt m (8 * (j + t * stride)) (c.flatMap Dbl.bytes) = some m' ∧ m'.length = m.length
  | [], j, H, m, _, hm, hl => by
    refine ⟨m, ?_, memcpy_nil _ (by simp at hl; omega), rfl⟩
    simp only [pokeCoord]
    congr 1
    funext b
    by_cases hb : b = a
    · subst hb; rw [poke_same]; exact hm
    · rw [poke_other _ _ hb]
  | x :: c, j, H, m, hv, hm, hl => by
    rw [List.length_cons] at hl
    obtain ⟨m1, g1, g2, _⟩ := memcpy_some (m := m) (p := 8 * (j + t * stride)) (b := Dbl.bytes x) (by simp; omega)
    have h0 : vals j = some (a, j) := hv 0 (by simp)
    have hd : pokeDouble (vals j) (t * stride) x H = some (poke H a (some m1)) := by
      simp only [pokeDouble, h0, hm, g1, Option.map_some]
    obtain ⟨m', k1, k2, k3⟩ := pokeCoord_int (vals := vals) (a := a) (stride := stride) (t := t) c (j + 1) (poke H a (some m1)) m1
      (fun q hq => by
        have := hv (q + 1) (by simp; omega)
        rw [show j + 1 + q = j + (q + 1) by omega]; exact this) (poke_same _ _ _) (by omega)
    refine ⟨m', ?_, ?_, by omega⟩
    · simp only [pokeCoord, hd, k1]
      congr 1
      funext b
      by_cases hb : b = a
      · subst hb; rw [poke_same, poke_same]
      · rw [poke_other _ _ hb, poke_other _ _ hb, poke_other _ _ hb]
    · rw [List.flatMap_cons, ← memcpy_append g1]
      simp only [Dbl.length_bytes]
      rw [show 8 * (j + t * stride) + 8 = 8 * (j + 1 + t * stride) by omega]
      exact k2

/-- Coordinates with their ordinates in one block -/
theorem pokeCoords_int {vals : Nat → Option (Nat × Nat)} {a nv : Nat} : ∀ (cs : List (List Dbl)) (t : Nat) (H : Heap) (m : List Byte), (∀ c ∈ cs, c.length = nv) →
    (∀ q, q < nv → vals q = some (a, q)) → H a = some m → (t + cs.length) * (8 * nv) ≤ m.length →
    ∃ m', pokeCoords vals nv t cs H = some (poke H a (some m')) ∧ memcpyAt m (t * (8 * nv)) (cs.flatMap fun c => c.flatMap Dbl.bytes) = some m'
  | [], t, H, m, _, _, hm, hl => by
    refine ⟨m, ?_, memcpy_nil _ (by simpa using hl)⟩
    simp only [pokeCoords]
    congr 1
    funext b
    by_cases hb : b = a
    · subst hb; rw [poke_same]; exact hm
    · rw [poke_other _ _ hb]
  | c :: cs, t, H, m, hc, hv, hm, hl => by
    have hcl := hc c (by simp)
    have hl' : t * (8 * nv) + 8 * nv + cs.length * (8 * nv) ≤ m.length := by
      rw [List.length_cons, Nat.add_mul, Nat.add_mul] at hl; omega
    have hp : 8 * (0 + t * nv) = t * (8 * nv) := by rw [Nat.zero_add, Nat.mul_left_comm]
    obtain ⟨m1, k1, k2, k3⟩ := pokeCoord_int (vals := vals) (a := a) (stride := nv) (t := t) c 0 H m
      (fun q hq => by rw [Nat.zero_add]; exact hv q (by omega)) hm (by rw [hp, hcl]; omega)
    rw [hp] at k2
    obtain ⟨m', j1, j2⟩ := pokeCoords_int (vals := vals) (a := a) (nv := nv) cs (t + 1) (poke H a (some m1)) m1 (fun c' h => hc c' (by simp [h])) hv (poke_same _ _ _)
      (by rw [Nat.add_mul, Nat.add_mul, k3]; omega)
    refine ⟨m', ?_, ?_⟩
    · simp only [pokeCoords, k1, j1]
      congr 1
      funext b
      by_cases hb : b = a
      · subst hb; rw [poke_same, poke_same]
      · rw [poke_other _ _ hb, poke_other _ _ hb, poke_other _ _ hb]
    · have hcb : (c.flatMap Dbl.bytes).length = 8 * nv := by
        rw [← hcl]
        clear k1 k2 hcl hc j1 j2 hl
        induction c with
        | nil => rfl
        | cons x c ih => rw [List.flatMap_cons, List.length_append, ih, List.length_cons]; simp; omega
      rw [List.flatMap_cons, ← memcpy_append k2, hcb, ← j2, Nat.add_mul, Nat.one_mul]

/-- Blocks are written to. -/
theorem HInv.writes {A C H N} (v : HInv A C H N) {H' : Heap}
    (h : ∀ a, H' a = H a ∨ ∃ m m', H a = some m ∧ H' a = some m' ∧ m'.length = m.length) : HInv A C H' N where
  lt a ha := by
    apply v.lt a
    rcases h a with e | ⟨m, m', e, _⟩
    · rw [← e]; exact ha
    · rw [e]; simp
  good k a e := by
    obtain ⟨m1, h1, h2⟩ := v.good k a e
    rcases h a with e' | ⟨m, m', e1, e2, e3⟩
    · exact ⟨m1, by rw [e']; exact h1, h2⟩
    · rw [h1] at e1; cases e1
      exact ⟨m', e2, by omega⟩
  null := v.null
  uniq := v.uniq

/-- Coordinates that fit are appended. -/
theorem write_rel {s : Sys} {l : Ledger} {H : Heap} {len : Nat} {P : Nat → List Byte} (v : Rel (settle s) l) (r : Rest s l) (ha : s.alive = true)
    (hP : ∀ i, firstCoord s ≤ i → i < s.n → (P i).length = len * wide s) (hP0 : ∀ i, i < s.n → ¬ firstCoord s ≤ i → P i = [])
    (hroom : ∀ i, firstCoord s ≤ i → i < s.n → (s.sizeCoords + len) * wide s ≤ (s.views i).cap)
    (h1 : ∀ a, (∀ i, firstCoord s ≤ i → i < s.n → (s.views i).data ≠ some a) → H a = s.heap a)
    (h2 : ∀ i a m, firstCoord s ≤ i → i < s.n → (s.views i).data = some a → s.heap a = some m → H a = memcpyAt m (s.sizeCoords * wide s) (P i)) :
    Rel (settle { s with heap := H, sizeCoords := s.sizeCoords + len }) { l with bytes := fun i => l.bytes i ++ P i } := by
  have hadr : ∀ i, i < s.n → addr (settle s) (.view i) = (s.views i).data := by
    intro i hi; simp only [addr]; rw [if_pos (show i < (settle s).n from hi), settle_data]
  have hblk : ∀ i a, firstCoord s ≤ i → i < s.n → (s.views i).data = some a → ∃ m m', s.heap a = some m ∧ H a = some m' ∧ m'.length = m.length ∧
      m'.take (s.sizeCoords * wide s + len * wide s) = m.take (s.sizeCoords * wide s) ++ P i := by
    intro i a hF hi e
    obtain ⟨m, g1, g2⟩ := v.inv.good (.view i) a (by rw [hadr i hi]; exact e)
    have g2' : m.length = (s.views i).cap := by
      rw [g2]; simp only [capOf]; rw [if_pos (show i < (settle s).n from hi), settle_cap]
    have hr := hroom i hF hi
    rw [Nat.add_mul] at hr
    obtain ⟨m', k1, k2, k3⟩ := memcpy_some (m := m) (p := s.sizeCoords * wide s) (b := P i) (by rw [hP i hF hi]; omega)
    rw [hP i hF hi] at k3
    exact ⟨m, m', g1, by rw [h2 i a m hF hi e g1, k1], k2, k3⟩
  have dich : ∀ a, H a = s.heap a ∨ ∃ m m', s.heap a = some m ∧ H a = some m' ∧ m'.length = m.length := by
    intro a
    by_cases h : ∃ i, firstCoord s ≤ i ∧ i < s.n ∧ (s.views i).data = some a
    · obtain ⟨i, hF, hi, e⟩ := h
      obtain ⟨m, m', g1, g2, g3, _⟩ := hblk i a hF hi e
      exact Or.inr ⟨m, m', g1, g2, g3⟩
    · exact Or.inl (h1 a fun i hF hi e => h ⟨i, hF, hi, e⟩)
  have keep : ∀ h : Holder, (∀ i, firstCoord s ≤ i → h.key ≠ (none, i)) → block H (addr (settle s) h) = block s.heap (addr (settle s) h) := by
    intro h hk
    cases e : addr (settle s) h with
    | none => rfl
    | some a =>
      simp only [block, Option.bind_some]
      rw [h1 a]
      intro i hF hi e'
      exact hk i hF (v.inv.uniq h (.view i) a e (by rw [hadr i hi]; exact e'))
  obtain ⟨u, hu⟩ : ∃ u : Sys, u = settle { s with heap := H, sizeCoords := s.sizeCoords + len } := ⟨_, rfl⟩
  rw [← hu]
  have hun : u.n = s.n := by rw [hu]; rfl
  have hub : u.bufs = s.bufs := by rw [hu]; rfl
  have hua : u.arrays = s.arrays := by rw [hu]; rfl
  have huh : u.heap = H := by rw [hu]; rfl
  have hux : u.next = s.next := by rw [hu]; rfl
  have hud : ∀ i, (u.views i).data = (s.views i).data := by intro i; rw [hu, settle_data]
  have huc : ∀ i, (u.views i).cap = (s.views i).cap := by intro i; rw [hu, settle_cap]
  have huz : ∀ i, firstCoord s ≤ i → i < s.n → (u.views i).size = s.sizeCoords * wide s + len * wide s := by
    intro i hF hi
    rw [hu]
    simp only [settle]
    show (if firstCoord s ≤ i ∧ i < s.n then top (s.views i) ((s.sizeCoords + len) * wide s) else s.views i).size = _
    rw [if_pos ⟨hF, hi⟩, top_size, Nat.add_mul]
    have := r.low i hF hi
    omega
  have hsz : ∀ i, firstCoord s ≤ i → i < s.n → ((settle s).views i).size = s.sizeCoords * wide s := by
    intro i hF hi
    simp only [settle]
    rw [if_pos ⟨hF, hi⟩, top_size]
    have := r.low i hF hi
    omega
  have hul : ∀ i, ¬ firstCoord s ≤ i → u.views i = (settle s).views i := by
    intro i hF
    rw [hu]
    simp only [settle]
    show (if firstCoord s ≤ i ∧ i < s.n then _ else s.views i) = _
    rw [if_neg (fun h => hF h.1), if_neg (fun h => hF h.1)]
  have hA : addr u = addr (settle s) := by
    funext h
    cases h with
    | buf j => simp only [addr, hun, hub]; rfl
    | view j => simp only [addr, hun, hud, settle_data]; rfl
    | arr k j => simp only [addr, hun, hua]; rfl
  have hC : capOf u = capOf (settle s) := by
    funext h
    cases h with
    | buf j => simp only [capOf, hun, hub]; rfl
    | view j => simp only [capOf, hun, huc, settle_cap]; rfl
    | arr k j => simp only [capOf, hun, hua]; rfl
  constructor
  · show HInv (addr u) (capOf u) u.heap u.next
    rw [hA, hC, huh, hux]
    exact HInv.writes v.inv dich
  · rw [hu]; rfl
  · intro h
    have : s.alive = false := by rw [hu] at h; exact h
    rw [ha] at this; cases this
  · intro i hi
    rw [hun] at hi
    have hv := v.len i hi
    by_cases hF : firstCoord s ≤ i
    · rw [huz i hF hi]
      rw [hsz i hF hi] at hv
      simp only [List.length_append, hP i hF hi]; omega
    · rw [hul i hF, hv]
      simp only [hP0 i hi hF, List.append_nil]
  · intro i hi
    rw [hun] at hi
    by_cases hF : firstCoord s ≤ i
    · rw [huz i hF hi, huc, ← Nat.add_mul]; exact hroom i hF hi
    · rw [hul i hF]; exact v.fits i hi
  · intro i hi hh
    rw [hun] at hi
    have := v.same i hi hh
    rw [settle_data] at this
    rw [hud, hub]; exact this
  · intro i hi hh
    rw [hun] at hi
    have hb := v.bytes i hi hh
    rw [huh]
    by_cases hF : firstCoord s ≤ i
    · rw [huz i hF hi, hud]
      rw [settle_data, hsz i hF hi] at hb
      cases e : (s.views i).data with
      | none =>
        have hc : (s.views i).cap = 0 := by
          have := v.inv.null (.view i) (by rw [hadr i hi]; exact e)
          simp only [capOf] at this
          rw [if_pos (show i < (settle s).n from hi), settle_cap] at this
          exact this
        have hr := hroom i hF hi
        rw [Nat.add_mul] at hr
        have hl := v.len i hi
        rw [hsz i hF hi] at hl
        have hp := hP i hF hi
        show _ = l.bytes i ++ P i
        rw [List.length_eq_zero_iff.mp (show (P i).length = 0 by omega), List.length_eq_zero_iff.mp (show (l.bytes i).length = 0 by omega)]
        simp [block]
      | some a =>
        obtain ⟨m, m', g1, g2, _, g4⟩ := hblk i a hF hi e
        rw [e] at hb
        have hb' : m.take (s.sizeCoords * wide s) = l.bytes i := by
          have : block (settle s).heap (some a) = m := block_some g1
          rw [this] at hb; exact hb
        rw [block_some g2, g4, hb']
    · rw [hul i hF]
      have hk := keep (.view i) (fun j hj => by simp only [Holder.key]; intro e; simp at e; omega)
      rw [hadr i hi] at hk
      rw [settle_data] at hb ⊢
      rw [hk]
      simp only [hP0 i hi hF, List.append_nil]
      exact hb
  · rw [hua]; exact v.dn
  · intro k f hf
    rw [hua] at hf
    obtain ⟨d, g1, g2⟩ := v.arr k f hf
    refine ⟨d, g1, fun i hi => ?_⟩
    rw [hun] at hi
    refine ⟨(g2 i hi).1, fun hd => ⟨((g2 i hi).2 hd).1, ?_⟩⟩
    have hk := keep (.arr k i) (fun j _ => by simp [Holder.key])
    have e' : addr (settle s) (.arr k i) = (f i).data := by
      have hf' : (settle s).arrays[k]? = some (some f) := hf
      simp only [addr]; rw [if_pos (show i < (settle s).n from hi), hf']
    rw [e'] at hk
    rw [huh, hk]
    exact ((g2 i hi).2 hd).2

theorem flat_length {cs : List (List Dbl)} {f : List Dbl → List Byte} {w : Nat} (h : ∀ c ∈ cs, (f c).length = w) : (cs.flatMap f).length = cs.length * w := by
  induction cs with
  | nil => simp
  | cons c cs ih =>
    rw [List.flatMap_cons, List.length_append, h c (by simp), ih (fun c' hc => h c' (by simp [hc])), List.length_cons, Nat.add_mul]
    omega

theorem bytes_length (c : List Dbl) : (c.flatMap Dbl.bytes).length = 8 * c.length := by
  induction c with
  | nil => rfl
  | cons x c ih => rw [List.flatMap_cons, List.length_append, ih, List.length_cons]; simp; omega

/-- The coordinates are written where they belong. -/
theorem coords_written {s : Sys} {l : Ledger} {cs : List (List Dbl)} (v : Rel (settle s) l) (r : Rest s l) (ha : s.alive = true)
    (hc : ∀ c ∈ cs, c.length = s.nValues) (hcap : s.sizeCoords + cs.length ≤ s.capCoords) (hk : s.kind ≠ none) (hne : cs ≠ []) :
    ∃ H, pokeCoords s.values (if s.kind = some .interleaved then s.nValues else 1) s.sizeCoords cs s.heap = some H ∧
      Rel (settle { s with heap := H, sizeCoords := s.sizeCoords + cs.length }) { l with bytes := fun i => l.bytes i ++ coordPart s i cs } := by
  have hpos : 0 < cs.length := List.length_pos_iff.mpr hne
  have hptr := r.ptr (by omega)
  have hroom : ∀ i, firstCoord s ≤ i → i < s.n → (s.sizeCoords + cs.length) * wide s ≤ (s.views i).cap := fun i hF hi =>
    Nat.le_trans (Nat.mul_le_mul_right _ hcap) (r.room i hF hi)
  have hadr : ∀ i, i < s.n → addr (settle s) (.view i) = (s.views i).data := by
    intro i hi; simp only [addr]; rw [if_pos (show i < (settle s).n from hi), settle_data]
  have hdat : ∀ i, firstCoord s ≤ i → i < s.n → 0 < wide s → ∃ a m, (s.views i).data = some a ∧ s.heap a = some m ∧ m.length = (s.views i).cap := by
    intro i hF hi hw
    have hcp : capOf (settle s) (.view i) = (s.views i).cap := by
      simp only [capOf]; rw [if_pos (show i < (settle s).n from hi), settle_cap]
    cases e : (s.views i).data with
    | none =>
      have := v.inv.null (.view i) (by rw [hadr i hi]; exact e)
      rw [hcp] at this
      have hr := hroom i hF hi
      have : 1 * 1 ≤ (s.sizeCoords + cs.length) * wide s := Nat.mul_le_mul (by omega) hw
      omega
    | some a =>
      obtain ⟨m, h1, h2⟩ := v.inv.good (.view i) a (by rw [hadr i hi]; exact e)
      exact ⟨a, m, rfl, h1, by rw [h2, hcp]⟩
  cases hkd : s.kind with
  | none => exact absurd hkd hk
  | some kd =>
    cases kd with
    | interleaved =>
      obtain ⟨hnv, hn⟩ := r.shape.int hkd
      have hF : firstCoord s = s.n - 1 := by simp [firstCoord, hkd]
      have hw : wide s = 8 * s.nValues := by simp [wide, hkd]
      obtain ⟨a, m, e1, e2, e3⟩ := hdat (s.n - 1) (by omega) (by omega) (by omega)
      have hvals : ∀ q, q < s.nValues → s.values q = some (a, q) := by
        intro q hq
        rw [hptr q hq]
        have h1 : ordBuf s q = s.n - 1 := by unfold ordBuf; rw [if_pos hkd, hF]
        have h2 : ordOff s q = q := by unfold ordOff; rw [if_pos hkd]
        rw [h1, h2, e1]; rfl
      have hr := hroom (s.n - 1) (by omega) (by omega)
      rw [hw] at hr
      obtain ⟨m', k1, k2⟩ := pokeCoords_int cs s.sizeCoords s.heap m hc hvals e2 (by omega)
      have hpart : coordPart s (s.n - 1) cs = cs.flatMap fun c => c.flatMap Dbl.bytes := by
        unfold coordPart; rw [hkd]; exact if_pos ⟨by omega, by omega⟩
      refine ⟨_, by rw [if_pos rfl]; exact k1, ?_⟩
      rw [← hkd]
      refine write_rel v r ha ?_ ?_ hroom ?_ ?_
      · intro i h1 h2
        have : i = s.n - 1 := by omega
        subst this
        rw [hpart, hw]
        exact flat_length fun c hcm => by rw [bytes_length, hc c hcm]
      · intro i h1 h2
        unfold coordPart; rw [hkd]; exact if_neg (fun h => h2 h.1)
      · intro b hb
        rw [poke_other]
        rintro rfl
        exact hb (s.n - 1) (by omega) (by omega) e1
      · intro i b n h1 h2 h3 h4
        have : i = s.n - 1 := by omega
        subst this
        rw [e1] at h3; cases h3
        rw [e2] at h4; cases h4
        rw [poke_same, hpart, hw, k2]
    | separate =>
      obtain ⟨hnv, hn⟩ := r.shape.sep hkd
      have hF : firstCoord s = s.n - s.nValues := by simp [firstCoord, hkd]
      have hw : wide s = 8 := by simp [wide, hkd]
      have hvals : ∀ q, q < s.nValues → s.values q = (s.views (firstCoord s + q)).data.map fun a => (a, 0) := by
        intro q hq
        rw [hptr q hq]
        have h1 : ordBuf s q = firstCoord s + q := by unfold ordBuf; rw [hkd, if_neg (by simp)]
        have h2 : ordOff s q = 0 := by unfold ordOff; rw [hkd, if_neg (by simp)]
        rw [h1, h2]
      have hat : ∀ q, q < s.nValues → ∃ a m, (s.views (firstCoord s + q)).data = some a ∧ s.values q = some (a, 0) ∧ s.heap a = some m ∧ 8 * (s.sizeCoords + cs.length) ≤ m.length := by
        intro q hq
        obtain ⟨a, m, e1, e2, e3⟩ := hdat (firstCoord s + q) (by omega) (by omega) (by omega)
        refine ⟨a, m, e1, by rw [hvals q hq, e1]; rfl, e2, ?_⟩
        have hr := hroom (firstCoord s + q) (by omega) (by omega)
        rw [hw] at hr
        omega
      obtain ⟨H, k1, k2, k3⟩ := pokeCoords_sep cs s.sizeCoords s.heap hc
        (fun q hq => by obtain ⟨a, m, _, g2, g3, g4⟩ := hat q hq; exact ⟨a, m, g2, g3, g4⟩)
        (fun q q' hq hq' e => by
          obtain ⟨a, _, g1, g2, _⟩ := hat q hq
          obtain ⟨b, _, g1', g2', _⟩ := hat q' hq'
          rw [g2, g2'] at e
          simp at e
          subst e
          have := v.inv.uniq (.view (firstCoord s + q)) (.view (firstCoord s + q')) a (by rw [hadr _ (by omega)]; exact g1) (by rw [hadr _ (by omega)]; exact g1')
          simp [Holder.key] at this
          exact this)
      refine ⟨H, by rw [if_neg (by simp)]; exact k1, ?_⟩
      rw [← hkd]
      refine write_rel v r ha ?_ ?_ hroom ?_ ?_
      · intro i h1 h2
        unfold coordPart; rw [hkd]
        simp only
        rw [if_pos ⟨h1, h2⟩, hw]
        exact flat_length fun c _ => by simp
      · intro i h1 h2
        unfold coordPart; rw [hkd]; exact if_neg (fun h => h2 h.1)
      · intro b hb
        refine k2 b fun q hq e => ?_
        obtain ⟨a, _, g1, g2, _⟩ := hat q hq
        rw [g2] at e
        simp at e
        subst e
        exact hb (firstCoord s + q) (by omega) (by omega) g1
      · intro i b n h1 h2 h3 h4
        have hq : i - firstCoord s < s.nValues := by omega
        have hi : firstCoord s + (i - firstCoord s) = i := by omega
        have hvq : s.values (i - firstCoord s) = some (b, 0) := by rw [hvals _ hq, hi, h3]; rfl
        rw [k3 _ b n hq hvq h4, hw, Nat.mul_comm 8]
        unfold coordPart; rw [hkd]
        simp only
        rw [if_pos ⟨h1, h2⟩]

theorem coordPart_congr {s s' : Sys} (h1 : s'.n = s.n) (h2 : s'.kind = s.kind) (h3 : s'.nValues = s.nValues) : coordPart s' = coordPart s := by
  funext i cs; unfold coordPart; rw [first_congr h1 h2 h3, h1, h2]

/-- `GeoArrowBuilderCoordsAppend` -/
theorem coordsAppend_ok {junk : Nat → Nat → Byte} {mem : Nat → Bool} {cs : List (List Dbl)} {s : Sys} {l : Ledger} (r : Rest s l) (v : Rel (settle s) l)
    (ha : s.alive = true) (hc : ∀ c ∈ cs, c.length = s.nValues) :
    (∃ s', coordsAppend junk mem cs s = some (0, s') ∧ Rel (settle s') { l with bytes := fun i => l.bytes i ++ coordPart s i cs } ∧
      Rest s' { l with bytes := fun i => l.bytes i ++ coordPart s i cs } ∧ s'.n = s.n ∧ s'.kind = s.kind ∧ s'.nValues = s.nValues) ∨
    (∃ s', coordsAppend junk mem cs s = some (ENOMEM, s') ∧ ∃ j, mem j = false) ∨
    (s.kind = none ∧ coordsAppend junk mem cs s = some (-1, s)) := by
  unfold coordsAppend
  rcases coordsReserve_ok (junk := junk) (mem := mem) (add := cs.length) r v ha with ⟨s1, e, v1, r1, x, hcap⟩ | ⟨s1, e, hm⟩ | ⟨hk, e⟩
  · left
    rw [e]
    simp only [if_true]
    by_cases hne : cs = []
    · subst hne
      have hl : ({ l with bytes := fun i => l.bytes i ++ coordPart s i [] } : Ledger) = l := by
        have : (fun i => l.bytes i ++ coordPart s i []) = l.bytes := by
          funext i
          have : coordPart s i [] = [] := by
            unfold coordPart
            split
            · simp
            · simp
            · rfl
          rw [this, List.append_nil]
        rw [this]
      rw [hl]
      exact ⟨s1, rfl, v1, r1, x.n, x.kind, x.nValues⟩
    · have hk : s1.kind ≠ none := by
        intro hk
        have := r1.plain hk
        have hpos : 0 < cs.length := List.length_pos_iff.mpr hne
        omega
      obtain ⟨H, h1, h2⟩ := coords_written v1 r1 (by rw [x.alive]; exact ha) (by rw [x.nValues]; exact hc) hcap hk hne
      rw [h1]
      rw [coordPart_congr x.n x.kind x.nValues] at h2
      refine ⟨_, rfl, h2, ?_, x.n, x.kind, x.nValues⟩
      refine ⟨⟨r1.shape.sep, r1.shape.int⟩, ?_, r1.room, r1.ptr, r1.caps, r1.unhurt, r1.plain⟩
      intro i hF hi
      have := r1.low i hF hi
      show (s1.views i).size ≤ (s1.sizeCoords + cs.length) * wide s1
      rw [Nat.add_mul]; omega
  · right; left
    rw [e]
    exact ⟨s1, rfl, hm⟩
  · right; right
    rw [e]
    exact ⟨hk, rfl⟩

/-- Every allowed call of a tidy client runs, and keeps what the ledger says unless it is a call on coordinates that fails. -/
theorem step_all {junk : Nat → Nat → Byte} {c : Call} {s : Sys} {l : Ledger} (r : Rest s l) (v : Rel (settle s) l) (ht : Tidy s c) (hal : Allowed s c) :
    ∃ rc s', c.run junk s = some (rc, s') ∧
      (rc = 0 ∨ (rc = EINVAL ∧ ∃ mem, c = .finish mem false) ∨ (rc = ENOMEM ∧ StarvedAny c) ∨ (rc = -1 ∧ ¬ IsRaw c ∧ s.kind = none)) ∧
      ((¬ IsRaw c → rc = 0) → Rest s' (l.noteAll s c rc) ∧ Rel (settle s') (l.noteAll s c rc) ∧ s'.n = s.n ∧ s'.kind = s.kind ∧ s'.nValues = s.nValues) := by
  by_cases hc : IsRaw c
  · obtain ⟨rc, t, h1, h2, _, _, _, h3⟩ := step (junk := junk) v hc (show Allowed (settle s) c by cases c <;> exact hal)
    rw [settle_run r.shape hc ht] at h1
    cases e : c.run junk s with
    | none => rw [e] at h1; cases h1
    | some p =>
      obtain ⟨rc', s'⟩ := p
      rw [e] at h1
      simp only [Option.map_some, Option.some.injEq, Prod.mk.injEq] at h1
      obtain ⟨rfl, rfl⟩ := h1
      have hn : l.noteAll s c rc' = l.note c rc' := by cases c <;> first | rfl | exact hc.elim
      refine ⟨rc', s', rfl, ?_, fun _ => ?_⟩
      · rcases h3 with h | h | ⟨h, h'⟩
        · exact Or.inl h
        · exact Or.inr (Or.inl h)
        · refine Or.inr (Or.inr (Or.inl ⟨h, ?_⟩))
          cases c <;> first | exact h' | exact hc.elim
      · rw [hn]
        obtain ⟨g1, g2⟩ := rest_raw r v hc ht e
        exact ⟨g1, h2, g2⟩
  · cases c with
    | coords mem cs =>
      simp only [Call.run]
      rcases coordsAppend_ok (junk := junk) (mem := mem) r v hal ht with ⟨s', e, g1, g2, g3⟩ | ⟨s', e, hm⟩ | ⟨hk, e⟩
      · refine ⟨0, s', e, Or.inl rfl, fun _ => ?_⟩
        simp only [Ledger.noteAll, if_true]
        exact ⟨g2, g1, g3⟩
      · exact ⟨ENOMEM, s', e, Or.inr (Or.inr (Or.inl ⟨rfl, hm⟩)), fun h => absurd (h hc) (by decide)⟩
      · exact ⟨-1, s, e, Or.inr (Or.inr (Or.inr ⟨rfl, hc, hk⟩)), fun h => absurd (h hc) (by decide)⟩
    | coordsReserve mem n =>
      simp only [Call.run]
      rcases coordsReserve_ok (junk := junk) (mem := mem) (add := n) r v hal with ⟨s', e, g1, g2, x, _⟩ | ⟨s', e, hm⟩ | ⟨hk, e⟩
      · exact ⟨0, s', e, Or.inl rfl, fun _ => ⟨g2, g1, x.n, x.kind, x.nValues⟩⟩
      · exact ⟨ENOMEM, s', e, Or.inr (Or.inr (Or.inl ⟨rfl, hm⟩)), fun h => absurd (h hc) (by decide)⟩
      · exact ⟨-1, s, e, Or.inr (Or.inr (Or.inr ⟨rfl, hc, hk⟩)), fun h => absurd (h hc) (by decide)⟩
    | _ => exact absurd trivial hc

theorem tidy_congr {s s' : Sys} (h1 : s'.n = s.n) (h2 : s'.kind = s.kind) (h3 : s'.nValues = s.nValues) (c : Call) : Tidy s' c ↔ Tidy s c := by
  cases c <;> simp only [Tidy, first_congr h1 h2 h3, h3]

theorem noteAll_congr {s s' : Sys} (h1 : s'.n = s.n) (h2 : s'.kind = s.kind) (h3 : s'.nValues = s.nValues) (l : Ledger) (c : Call) (rc : Code) :
    l.noteAll s' c rc = l.noteAll s c rc := by
  cases c <;> simp only [Ledger.noteAll, coordPart_congr h1 h2 h3]

theorem runs_all {junk : Nat → Nat → Byte} {s0 : Sys} : ∀ (h : List Call) (s : Sys) (l : Ledger) (rcs : List Code) (s' : Sys), Rest s l → Rel (settle s) l →
    s.n = s0.n → s.kind = s0.kind → s.nValues = s0.nValues → (∀ c ∈ h, Tidy s0 c) → AllowedAll junk h s → runs junk h s = some (rcs, s') → CoordsFine h rcs →
    Rest s' (l.noteAlls s0 (h.zip rcs)) ∧ Rel (settle s') (l.noteAlls s0 (h.zip rcs)) ∧ s'.n = s0.n ∧ s'.kind = s0.kind ∧ s'.nValues = s0.nValues
  | [], s, l, rcs, s', r, v, h1, h2, h3, _, _, hr, _ => by
    simp only [runs, Option.some.injEq, Prod.mk.injEq] at hr
    obtain ⟨rfl, rfl⟩ := hr
    exact ⟨r, v, h1, h2, h3⟩
  | c :: h, s, l, rcs, s', r, v, h1, h2, h3, ht, ha, hr, hf => by
    obtain ⟨rc, s1, e, _, g⟩ := step_all (junk := junk) r v ((tidy_congr h1 h2 h3 c).mpr (ht c (by simp))) ha.1
    simp only [runs, e] at hr
    cases e2 : runs junk h s1 with
    | none => simp [e2] at hr
    | some y =>
      obtain ⟨rcs', s2⟩ := y
      simp only [e2, Option.some.injEq, Prod.mk.injEq] at hr
      obtain ⟨rfl, rfl⟩ := hr
      obtain ⟨g1, g2, g3, g4, g5⟩ := g hf.1
      rw [noteAll_congr h1 h2 h3] at g1 g2
      exact runs_all h s1 _ rcs' s2 g1 g2 (g3.trans h1) (g4.trans h2) (g5.trans h3) (fun c' hc' => ht c' (by simp [hc'])) (ha.2 rc s1 e) e2 hf.2

theorem some_values : ∀ t ∈ builderTypes, (match builderInitFromType t with
    | .ok b => decide ((b.schema.coordType = 1 ∨ b.schema.coordType = 2) → 0 < b.nValues)
    | .error _ => true) = true := by decide +kernel

theorem shape_start {ty : TypeId} {b : Builder} (h : builderInitFromType ty = .ok b) : Shape (Sys.start b) := by
  have hv := some_values ty (builder_type h)
  rw [h] at hv
  have hv := of_decide_eq_true hv
  obtain ⟨-, -, -, -, -, -, -, -, hn, -⟩ := init_inv h
  constructor
  · intro hk
    have h1 : b.schema.coordType = 1 := by
      simp only [Sys.start] at hk
      split at hk
      · assumption
      · split at hk <;> simp at hk
    rw [if_pos h1] at hn
    exact ⟨hv (Or.inl h1), by show b.nValues ≤ b.nBuffers; omega⟩
  · intro hk
    have h1 : b.schema.coordType = 2 := by
      simp only [Sys.start] at hk
      split at hk
      · simp at hk
      · split at hk
        · assumption
        · simp at hk
    exact ⟨hv (Or.inr h1), by show 0 < b.nBuffers; omega⟩

theorem rest_start {ty : TypeId} {b : Builder} (h : builderInitFromType ty = .ok b) : Rest (Sys.start b) Ledger.empty :=
  rest_blank (shape_start h) rfl rfl rfl (fun _ => rfl) (fun _ => rfl) rfl fun _ => rfl

theorem rel_settled_start (b : Builder) : Rel (settle (Sys.start b)) Ledger.empty := by
  have : settle (Sys.start b) = Sys.start b := by
    simp only [settle, Sys.start, Sys.mk.injEq, true_and, and_true]
    funext i
    simp [top]
  rw [this]; exact rel_start b

end Verif.Oom
