import Verif.Spec.BuilderOomCoords
import Verif.Proof.BuilderOomRun
/-!
# Builders when memory runs out: coordinates
-/
namespace Verif.Oom
open Verif.Spec

/-- Bytes per coordinate in a buffer of coordinates -/
def wide (s : Sys) : Nat :=
  match s.kind with
  | some .separate => 8
  | some .interleaved => 8 * s.nValues
  | none => 0

/-- The buffer of coordinates that the `j`-th ordinate is in, and where the first one is -/
def ordBuf (s : Sys) (j : Nat) : Nat := if s.kind = some .interleaved then firstCoord s else firstCoord s + j
def ordOff (s : Sys) (j : Nat) : Nat := if s.kind = some .interleaved then j else 0

structure Shape (s : Sys) : Prop where
  sep : s.kind = some .separate → 0 < s.nValues ∧ s.nValues ≤ s.n
  int : s.kind = some .interleaved → 0 < s.nValues ∧ 0 < s.n

def top (v : Vw) (z : Nat) : Vw := if z > v.size then { v with size := z } else v

/-- The state, as if sizes were raised after every call on coordinates -/
def settle (s : Sys) : Sys :=
  { s with
    views := fun i => if firstCoord s ≤ i ∧ i < s.n then top (s.views i) (s.sizeCoords * wide s) else s.views i
    sizeCoords := 0, capCoords := 0, values := fun _ => none }

def forget (s : Sys) : Sys := { s with sizeCoords := 0, capCoords := 0, values := fun _ => none }

theorem raise_views {s : Sys} (sh : Shape s) : raiseSizes s =
    { s with views := fun i => if firstCoord s ≤ i ∧ i < s.n then top (s.views i) (s.sizeCoords * wide s) else s.views i } := by
  unfold raiseSizes firstCoord wide top
  cases hk : s.kind with
  | none =>
    obtain ⟨next, heap, n, kind, nv, bufs, views, sc, cc, vals, al, arr⟩ := s
    dsimp only at hk
    subst hk
    simp only [Sys.mk.injEq, true_and, and_true]
    funext i
    rw [if_neg (by omega)]
  | some k =>
    cases k with
    | separate => rfl
    | interleaved =>
      have h0 := (sh.int hk).2
      have : (fun i => if s.n - 1 ≤ i ∧ i < s.n then (if s.sizeCoords * (8 * s.nValues) > (s.views i).size then { s.views i with size := s.sizeCoords * (8 * s.nValues) } else s.views i) else s.views i)
          = poke s.views (s.n - 1) (if s.sizeCoords * 8 * s.nValues > (s.views (s.n - 1)).size then { s.views (s.n - 1) with size := s.sizeCoords * 8 * s.nValues } else s.views (s.n - 1)) := by
        funext i
        by_cases hi : i = s.n - 1
        · subst hi
          rw [if_pos ⟨Nat.le_refl _, by omega⟩, poke_same, ← Nat.mul_assoc]
        · rw [if_neg (by omega), poke_other _ _ hi]
      simp only [this]

theorem settle_eq {s : Sys} (sh : Shape s) : settle s = forget (raiseSizes s) := by rw [raise_views sh]; rfl

theorem top_size (v : Vw) (z : Nat) : (top v z).size = max v.size z := by
  unfold top; split
  · show z = _; omega
  · omega
theorem top_data (v : Vw) (z : Nat) : (top v z).data = v.data := by unfold top; split <;> rfl
theorem top_cap (v : Vw) (z : Nat) : (top v z).cap = v.cap := by unfold top; split <;> rfl
theorem top_with (v : Vw) (z : Nat) (d : Option Nat) (c : Nat) : top { v with data := d, cap := c } z = { top v z with data := d, cap := c } := by
  unfold top; split <;> simp_all
theorem top_self {v : Vw} {z : Nat} (h : z ≤ v.size) : top v z = v := by unfold top; rw [if_neg (by omega)]

theorem settle_data (s : Sys) (i : Nat) : ((settle s).views i).data = (s.views i).data := by
  simp only [settle]; split
  · exact top_data _ _
  · rfl
theorem settle_cap (s : Sys) (i : Nat) : ((settle s).views i).cap = (s.views i).cap := by
  simp only [settle]; split
  · exact top_cap _ _
  · rfl
theorem settle_below {s : Sys} {i : Nat} (h : i < firstCoord s) : (settle s).views i = s.views i := by
  simp only [settle]; rw [if_neg (by omega)]

/-- Reserving and settling commute where sizes are settled. -/
theorem settle_reserve {junk : Nat → Nat → Byte} {mem : Bool} {i add : Nat} {s : Sys} (hz : ((settle s).views i).size = (s.views i).size) :
    reserve junk mem i add (settle s) = (reserve junk mem i add s).map fun p => (p.1, settle p.2) := by
  have hv : ∀ d c, (settle { s with views := poke s.views i { s.views i with data := d, cap := c } }).views =
      poke (settle s).views i { (settle s).views i with data := d, cap := c } := by
    intro d c
    funext j
    by_cases hj : j = i
    · subst hj
      rw [poke_same]
      simp only [settle]
      show (if firstCoord s ≤ j ∧ j < s.n then top (poke s.views j _ j) (s.sizeCoords * wide s) else poke s.views j _ j) = _
      rw [poke_same]
      split
      · exact top_with _ _ _ _
      · rfl
    · rw [poke_other _ _ hj]
      simp only [settle]
      show (if firstCoord s ≤ j ∧ j < s.n then top (poke s.views i _ j) (s.sizeCoords * wide s) else poke s.views i _ j) = _
      rw [poke_other _ _ hj]
  unfold reserve
  by_cases hc : s.alive = true ∧ i < s.n
  · rw [if_pos hc, if_pos (show (settle s).alive = true ∧ i < (settle s).n from hc)]
    simp only [hz, show (settle s).bufs = s.bufs from rfl, show (settle s).heap = s.heap from rfl, show (settle s).next = s.next from rfl]
    generalize nReserve junk mem { s.bufs i with size := (s.views i).size } add s.heap s.next = r
    obtain ⟨ok, b, H, N⟩ := r
    cases ok with
    | false => rfl
    | true =>
      simp only [if_true, Option.map_some, Option.some.injEq, Prod.mk.injEq, true_and]
      have := hv b.data b.cap
      dsimp only at this
      rw [hz] at this
      simp only [settle, Sys.mk.injEq, true_and, and_true] at this ⊢
      exact this.symm
  · rw [if_neg hc, if_neg (show ¬ ((settle s).alive = true ∧ i < (settle s).n) from hc)]
    rfl

theorem settle_appendUnsafe {i : Nat} {bs : List Byte} {s : Sys} (hi : i < firstCoord s) :
    appendUnsafe i bs (settle s) = (appendUnsafe i bs s).map settle := by
  unfold appendUnsafe
  rw [settle_below hi]
  by_cases hb : bs = []
  · simp [hb]
  · simp only [hb, if_false]
    cases (s.views i).data with
    | none => rfl
    | some a =>
      simp only [show (settle s).heap = s.heap from rfl]
      cases s.heap a with
      | none => rfl
      | some m =>
        simp only
        cases memcpyAt m (s.views i).size bs with
        | none => rfl
        | some m' =>
          simp only [Option.map_some, Option.some.injEq]
          simp only [settle, Sys.mk.injEq, true_and, and_true]
          funext j
          by_cases hj : j = i
          · subst hj
            show poke _ j _ j = (if firstCoord s ≤ j ∧ j < s.n then top (poke s.views j _ j) _ else poke s.views j _ j)
            rw [poke_same, if_neg (by omega), poke_same]
          · show poke _ i _ j = (if firstCoord s ≤ j ∧ j < s.n then top (poke s.views i _ j) _ else poke s.views i _ j)
            rw [poke_other _ _ hj, poke_other _ _ hj]; rfl

/-- `finalize` does not look at coordinates. -/
theorem finalize_forget (junk : Nat → Nat → Byte) (mem : Nat → Bool) : ∀ (k i : Nat) (s : Sys),
    finalize junk mem k i (forget s) = ((finalize junk mem k i s).1, forget (finalize junk mem k i s).2)
  | 0, i, s => rfl
  | k + 1, i, s => by
    simp only [finalize]
    show (if (s.bufs i).data = none then _ else _) = _
    by_cases hd : (s.bufs i).data = none
    · simp only [hd, if_true]
      show (if (nReserve junk (mem i) (s.bufs i) 1 s.heap s.next).1 = true then _ else _) = _
      by_cases hr : (nReserve junk (mem i) (s.bufs i) 1 s.heap s.next).1 = true
      · simp only [hr, if_true]
        exact finalize_forget junk mem k (i + 1) { s with
          bufs := poke s.bufs i (nReserve junk (mem i) (s.bufs i) 1 s.heap s.next).2.1
          heap := (nReserve junk (mem i) (s.bufs i) 1 s.heap s.next).2.2.1
          next := (nReserve junk (mem i) (s.bufs i) 1 s.heap s.next).2.2.2 }
      · simp only [hr, if_false]; rfl
    · simp only [hd, if_false]
      exact finalize_forget junk mem k (i + 1) s

/-- What `finalize` leaves alone -/
theorem finalize_frame (junk : Nat → Nat → Byte) (mem : Nat → Bool) : ∀ (k i : Nat) (s : Sys),
    ∃ bufs heap next, (finalize junk mem k i s).2 = { s with bufs := bufs, heap := heap, next := next } ∧
      (∀ j, j < i → bufs j = s.bufs j) ∧
      ∀ j, bufs j = s.bufs j ∨ ((s.bufs j).data = none ∧ ((bufs j).cap = 0 ∨ (bufs j).cap = growByFactor (s.bufs j).cap ((s.bufs j).size + 1)))
  | 0, i, s => ⟨s.bufs, s.heap, s.next, rfl, fun _ _ => rfl, fun _ => Or.inl rfl⟩
  | k + 1, i, s => by
    by_cases hd : (s.bufs i).data = none
    · have hc : ∀ r, nReserve junk (mem i) (s.bufs i) 1 s.heap s.next = r → r.2.1 = s.bufs i ∨ r.2.1.cap = 0 ∨
          r.2.1.cap = growByFactor (s.bufs i).cap ((s.bufs i).size + 1) := by
        intro r hr
        unfold nReserve at hr
        split at hr
        · subst hr; exact Or.inl rfl
        · split at hr
          · subst hr; exact Or.inr (Or.inr rfl)
          · subst hr; exact Or.inr (Or.inl rfl)
      simp only [finalize, hd, if_true]
      generalize hr : nReserve junk (mem i) (s.bufs i) 1 s.heap s.next = r
      have hc := hc r hr
      obtain ⟨ok, b, H, N⟩ := r
      dsimp only at hc
      cases ok with
      | false =>
        simp only [Bool.false_eq_true, if_false]
        refine ⟨poke s.bufs i b, H, N, rfl, fun j hj => poke_other _ _ (by omega), fun j => ?_⟩
        by_cases hj : j = i
        · subst hj; rw [poke_same]
          rcases hc with h | h | h
          · exact Or.inl h
          · exact Or.inr ⟨hd, Or.inl h⟩
          · exact Or.inr ⟨hd, Or.inr h⟩
        · exact Or.inl (poke_other _ _ hj)
      | true =>
        simp only [if_true]
        obtain ⟨bufs, heap, next, h1, h2, h3⟩ := finalize_frame junk mem k (i + 1) { s with bufs := poke s.bufs i b, heap := H, next := N }
        refine ⟨bufs, heap, next, h1, fun j hj => ?_, fun j => ?_⟩
        · rw [h2 j (by omega)]; exact poke_other _ _ (by omega)
        · by_cases hj : j = i
          · subst hj
            rw [h2 j (by omega)]
            show poke s.bufs j b j = _ ∨ _
            simp only [poke_same]
            rcases hc with h | h | h
            · exact Or.inl h
            · exact Or.inr ⟨hd, Or.inl h⟩
            · exact Or.inr ⟨hd, Or.inr h⟩
          · have := h3 j
            simpa [poke, hj] using this
    · simp only [finalize, hd, if_false]
      obtain ⟨bufs, heap, next, h1, h2, h3⟩ := finalize_frame junk mem k (i + 1) s
      exact ⟨bufs, heap, next, h1, fun j hj => h2 j (by omega), h3⟩

theorem raise_shape {s : Sys} (sh : Shape s) : Shape (raiseSizes s) := by
  rw [raise_views sh]; exact ⟨sh.sep, sh.int⟩

/-- States in which sizes are raised are settled but for the numbers of coordinates. -/
theorem settle_of_raised {s : Sys} (h : ∀ i, firstCoord s ≤ i → i < s.n → s.sizeCoords * wide s ≤ (s.views i).size) : settle s = forget s := by
  unfold settle forget
  have : (fun i => if firstCoord s ≤ i ∧ i < s.n then top (s.views i) (s.sizeCoords * wide s) else s.views i) = s.views := by
    funext i
    split
    · rename_i hi; exact top_self (h i hi.1 hi.2)
    · rfl
  rw [this]

theorem settle_finish {junk : Nat → Nat → Byte} {mem : Nat → Bool} {valid : Bool} {s : Sys} (sh : Shape s) :
    finish junk mem valid (settle s) = (finish junk mem valid s).map fun p => (p.1, settle p.2) := by
  unfold finish
  by_cases ha : s.alive = true
  · rw [if_pos ha, if_pos (show (settle s).alive = true from ha)]
    have e1 : raiseSizes (settle s) = settle s := raiseSizes_eq rfl
    have e2 : syncSizes (settle s) = forget (syncSizes (raiseSizes s)) := by rw [settle_eq sh]; rfl
    rw [e1, e2, show (settle s).n = s.n from rfl, finalize_forget]
    obtain ⟨bufs, heap, next, h1, _, _⟩ := finalize_frame junk mem (s.n - 1) 1 (syncSizes (raiseSizes s))
    have hs : settle (finalize junk mem (s.n - 1) 1 (syncSizes (raiseSizes s))).2 = forget (finalize junk mem (s.n - 1) 1 (syncSizes (raiseSizes s))).2 := by
      rw [h1]
      apply settle_of_raised
      intro i hi hn
      rw [raise_views sh] at hi hn ⊢
      show s.sizeCoords * wide s ≤ (if firstCoord s ≤ i ∧ i < s.n then top (s.views i) (s.sizeCoords * wide s) else s.views i).size
      rw [if_pos ⟨hi, hn⟩, top_size]
      omega
    generalize finalize junk mem (s.n - 1) 1 (syncSizes (raiseSizes s)) = q at hs
    obtain ⟨ok, t⟩ := q
    cases ok with
    | false => simp [hs]
    | true =>
      cases valid with
      | false => simp [hs]
      | true =>
        simp only [if_true, Option.map_some, Option.some.injEq, Prod.mk.injEq, true_and]
        simp only [blank, forget, settle, Sys.mk.injEq, true_and, and_true]
        funext i
        simp [top]
  · rw [if_neg ha, if_neg (show ¬ (settle s).alive = true from ha)]
    rfl

theorem settle_run {junk : Nat → Nat → Byte} {c : Call} {s : Sys} (sh : Shape s) (hc : IsRaw c) (ht : Tidy s c) :
    c.run junk (settle s) = (c.run junk s).map fun p => (p.1, settle p.2) := by
  cases c with
  | coords mem cs => exact hc.elim
  | coordsReserve mem n => exact hc.elim
  | reserve mem i add => exact settle_reserve (by rw [settle_below ht])
  | append mem i bs =>
    have hi : i < firstCoord s := ht
    simp only [Call.run, append]
    show (if s.alive = true ∧ i < s.n then _ else _) = _
    by_cases hp : s.alive = true ∧ i < s.n
    · rw [if_pos hp, if_pos hp, settle_below hi]
      by_cases hf : (s.views i).size + bs.length ≤ (s.views i).cap
      · rw [if_pos hf, if_pos hf, settle_appendUnsafe hi]
        cases appendUnsafe i bs s <;> rfl
      · rw [if_neg hf, if_neg hf, settle_reserve (by rw [settle_below hi])]
        cases e : reserve junk mem i bs.length s with
        | none => rfl
        | some p =>
          obtain ⟨rc, s'⟩ := p
          simp only [Option.map_some]
          by_cases hrc : rc = 0
          · simp only [hrc, if_true]
            have hn : firstCoord s' = firstCoord s := by
              unfold reserve at e
              rw [if_pos hp] at e
              dsimp only at e
              split at e <;> (simp only [Option.some.injEq, Prod.mk.injEq] at e; rw [← e.2]; rfl)
            rw [settle_appendUnsafe (by rw [hn]; exact hi)]
            cases appendUnsafe i bs s' <;> rfl
          · simp only [hrc, if_false, Option.map_some]
    · rw [if_neg hp, if_neg hp]; rfl
  | finish mem valid => exact settle_finish sh
  | release k =>
    simp only [Call.run, release]
    show (match s.arrays[k]? with | some (some a) => _ | _ => _) = _
    cases s.arrays[k]? with
    | none => rfl
    | some o =>
      cases o with
      | none => rfl
      | some a => rfl
  | reset =>
    simp only [Call.run, reset]
    show (if s.alive = true then _ else _) = _
    by_cases hp : s.alive = true
    · rw [if_pos hp, if_pos hp]
      simp only [blank, settle, Option.map_some, Option.some.injEq, Prod.mk.injEq, Sys.mk.injEq, true_and, and_true]
      funext i
      simp [top]
    · rw [if_neg hp, if_neg hp]; rfl

end Verif.Oom
