import Verif.Spec.BuilderOom
import Verif.Proof.Builder
/-!
# Who holds which block of memory, when memory may run out
-/
namespace Verif.Oom
open Verif.Spec

/-- Whatever holds a pointer to a block -/
inductive Holder where
  | buf (i : Nat)
  | view (i : Nat)
  | arr (k i : Nat)
  deriving DecidableEq

/-- A buffer of the builder and the view of it may share a block. -/
def Holder.key : Holder → Option Nat × Nat
  | .buf i => (none, i)
  | .view i => (none, i)
  | .arr k i => (some k, i)

abbrev Heap := Nat → Option (List Byte)

theorem poke_same {α : Type} (f : Nat → α) (p : Nat) (x : α) : poke f p x p = x := by simp [poke]
theorem poke_other {α : Type} (f : Nat → α) {p q : Nat} (x : α) (h : q ≠ p) : poke f p x q = f q := by simp [poke, h]

theorem free_same (H : Heap) (a : Nat) : free H (some a) a = none := by simp [free, poke]
theorem free_other (H : Heap) {d : Option Nat} {a : Nat} (h : d ≠ some a) : free H d a = H a := by
  cases d with
  | none => rfl
  | some b => simp only [free]; rw [poke_other]; rintro rfl; exact h rfl

theorem free_le (H : Heap) (d : Option Nat) (a : Nat) (h : free H d a ≠ none) : H a ≠ none ∧ d ≠ some a := by
  by_cases hd : d = some a
  · subst hd; rw [free_same] at h; exact absurd rfl h
  · rw [free_other H hd] at h; exact ⟨h, hd⟩

theorem freeAll_eq (f : Nat → NBuf) : ∀ (n : Nat) (H : Heap) (a : Nat),
    freeAll f n H a = if ∃ i, i < n ∧ (f i).data = some a then none else H a
  | 0, H, a => by simp [freeAll]
  | n + 1, H, a => by
    simp only [freeAll]
    by_cases hd : (f n).data = some a
    · rw [hd, free_same, if_pos ⟨n, by omega, hd⟩]
    · rw [free_other _ hd, freeAll_eq f n H a]
      by_cases h : ∃ i, i < n ∧ (f i).data = some a
      · obtain ⟨i, hi, he⟩ := h
        rw [if_pos ⟨i, hi, he⟩, if_pos ⟨i, by omega, he⟩]
      · rw [if_neg h, if_neg]
        rintro ⟨i, hi, he⟩
        by_cases hin : i = n
        · subst hin; exact hd he
        · exact h ⟨i, by omega, he⟩

/-- Pointers are to blocks that are allocated and have the size they are said to have; only a buffer and its view share one. -/
structure HInv (A : Holder → Option Nat) (C : Holder → Nat) (H : Heap) (N : Nat) : Prop where
  lt : ∀ a, H a ≠ none → a < N
  good : ∀ h a, A h = some a → ∃ m, H a = some m ∧ m.length = C h
  null : ∀ h, A h = none → C h = 0
  uniq : ∀ h h' a, A h = some a → A h' = some a → h.key = h'.key

/-- Blocks that nothing but a view points to -/
def LostIn (A : Holder → Option Nat) (H : Heap) (a : Nat) : Prop :=
  H a ≠ none ∧ (∀ i, A (.buf i) ≠ some a) ∧ ∀ k i, A (.arr k i) ≠ some a

theorem HInv.old {A C H N} (v : HInv A C H N) {h : Holder} {a : Nat} (e : A h = some a) : a < N := by
  obtain ⟨m, hm, _⟩ := v.good h a e
  exact v.lt a (by rw [hm]; simp)

/-- `realloc` of a buffer, and its view follows -/
theorem HInv.grow {A C H N} (v : HInv A C H N) (i : Nat) (m : List Byte) :
    HInv (fun h => if h.key = (none, i) then some N else A h) (fun h => if h.key = (none, i) then m.length else C h)
      (poke (free H (A (.buf i))) N (some m)) (N + 1) where
  lt a h := by
    by_cases ha : a = N
    · omega
    · rw [poke_other _ _ ha] at h
      have := v.lt a (free_le _ _ _ h).1
      omega
  good h a e := by
    by_cases hk : h.key = (none, i)
    · simp only [hk, if_true, Option.some.injEq] at e ⊢
      subst e
      exact ⟨m, poke_same _ _ _, rfl⟩
    · simp only [hk, if_false] at e ⊢
      have hl := v.old e
      rw [poke_other _ _ (by omega), free_other]
      · exact v.good h a e
      · intro hb
        exact hk (v.uniq h (.buf i) a e hb)
  null h e := by
    by_cases hk : h.key = (none, i)
    · simp [hk] at e
    · simp only [hk, if_false] at e ⊢
      exact v.null h e
  uniq h h' a e e' := by
    by_cases hk : h.key = (none, i) <;> by_cases hk' : h'.key = (none, i)
    · rw [hk, hk']
    · simp only [hk, hk', if_true, if_false, Option.some.injEq] at e e'
      subst e; have := v.old e'; omega
    · simp only [hk, hk', if_true, if_false, Option.some.injEq] at e e'
      subst e'; have := v.old e; omega
    · simp only [hk, hk', if_false] at e e'
      exact v.uniq h h' a e e'

theorem HInv.grow_lost {A C H N} (v : HInv A C H N) (i : Nat) (m : List Byte) (a : Nat) :
    LostIn (fun h => if h.key = (none, i) then some N else A h) (poke (free H (A (.buf i))) N (some m)) a ↔ LostIn A H a := by
  constructor
  · rintro ⟨h1, h2, h3⟩
    have haN : N ≠ a := by intro he; have := h2 i; simp [Holder.key] at this; exact this he
    rw [poke_other _ _ (Ne.symm haN)] at h1
    obtain ⟨h4, h5⟩ := free_le _ _ _ h1
    refine ⟨h4, fun j => ?_, fun k j => ?_⟩
    · by_cases hj : j = i
      · subst hj; exact h5
      · have := h2 j; simpa [Holder.key, hj] using this
    · have := h3 k j; simpa [Holder.key] using this
  · rintro ⟨h1, h2, h3⟩
    have haN : a < N := v.lt a h1
    refine ⟨?_, fun j => ?_, fun k j => ?_⟩
    · rw [poke_other _ _ (by omega), free_other _ (h2 i)]; exact h1
    · by_cases hj : j = i
      · subst hj; simp [Holder.key]; omega
      · simpa [Holder.key, hj] using h2 j
    · simpa [Holder.key] using h3 k j

/-- The view follows the buffer. -/
theorem HInv.follow {A C H N} (v : HInv A C H N) (i : Nat) :
    HInv (fun h => if h = .view i then A (.buf i) else A h) (fun h => if h = .view i then C (.buf i) else C h) H N where
  lt := v.lt
  good h a e := by
    by_cases hk : h = .view i
    · subst hk; simp only [if_true] at e ⊢; exact v.good _ a e
    · simp only [hk, if_false] at e ⊢; exact v.good h a e
  null h e := by
    by_cases hk : h = .view i
    · subst hk; simp only [if_true] at e ⊢; exact v.null _ e
    · simp only [hk, if_false] at e ⊢; exact v.null h e
  uniq h h' a e e' := by
    have key : ∀ g : Holder, (if g = .view i then A (.buf i) else A g) = some a → ∃ g', A g' = some a ∧ g'.key = g.key := by
      intro g hg
      by_cases hk : g = .view i
      · subst hk; simp only [if_true] at hg; exact ⟨_, hg, rfl⟩
      · simp only [hk, if_false] at hg; exact ⟨_, hg, rfl⟩
    obtain ⟨g, hg, hgk⟩ := key h e
    obtain ⟨g', hg', hgk'⟩ := key h' e'
    rw [← hgk, ← hgk']
    exact v.uniq g g' a hg hg'

/-- Pointers are forgotten. -/
theorem HInv.drop {A C H N} (v : HInv A C H N) (p : Holder → Prop) [DecidablePred p] :
    HInv (fun h => if p h then none else A h) (fun h => if p h then 0 else C h) H N where
  lt := v.lt
  good h a e := by
    by_cases hk : p h
    · simp [hk] at e
    · simp only [hk, if_false] at e ⊢; exact v.good h a e
  null h e := by
    by_cases hk : p h
    · simp [hk]
    · simp only [hk, if_false] at e ⊢; exact v.null h e
  uniq h h' a e e' := by
    by_cases hk : p h
    · simp [hk] at e
    · by_cases hk' : p h'
      · simp [hk'] at e'
      · simp only [hk, hk', if_false] at e e'; exact v.uniq h h' a e e'

/-- A block is written to. -/
theorem HInv.write {A C H N} (v : HInv A C H N) {b : Nat} {m m' : List Byte} (hb : H b = some m) (hm : m'.length = m.length) :
    HInv A C (poke H b (some m')) N where
  lt a h := by
    by_cases ha : a = b
    · subst ha; exact v.lt a (by rw [hb]; simp)
    · rw [poke_other _ _ ha] at h; exact v.lt a h
  good h a e := by
    obtain ⟨m1, h1, h2⟩ := v.good h a e
    by_cases ha : a = b
    · subst ha
      rw [hb] at h1; cases h1
      exact ⟨m', poke_same _ _ _, by omega⟩
    · exact ⟨m1, by rw [poke_other _ _ ha]; exact h1, h2⟩
  null := v.null
  uniq := v.uniq

theorem write_lost {A : Holder → Option Nat} {H : Heap} {b : Nat} {m m' : List Byte} (hb : H b = some m) (a : Nat) :
    LostIn A (poke H b (some m')) a ↔ LostIn A H a := by
  unfold LostIn
  by_cases ha : a = b
  · subst ha; rw [poke_same, hb]; simp
  · rw [poke_other _ _ ha]

/-- A new block for a buffer that has none -/
theorem HInv.fresh {A C H N} (v : HInv A C H N) {i : Nat} (m : List Byte) :
    HInv (fun h => if h = .buf i then some N else A h) (fun h => if h = .buf i then m.length else C h) (poke H N (some m)) (N + 1) where
  lt a h := by
    by_cases ha : a = N
    · omega
    · rw [poke_other _ _ ha] at h
      have := v.lt a h
      omega
  good h a e := by
    by_cases hk : h = .buf i
    · subst hk; simp only [if_true, Option.some.injEq] at e ⊢
      subst e
      exact ⟨m, poke_same _ _ _, rfl⟩
    · simp only [hk, if_false] at e ⊢
      have hl := v.old e
      rw [poke_other _ _ (by omega)]
      exact v.good h a e
  null h e := by
    by_cases hk : h = .buf i
    · simp [hk] at e
    · simp only [hk, if_false] at e ⊢
      exact v.null h e
  uniq h h' a e e' := by
    by_cases hk : h = .buf i <;> by_cases hk' : h' = .buf i
    · rw [hk, hk']
    · simp only [hk, hk', if_true, if_false, Option.some.injEq] at e e'
      subst e; have := v.old e'; omega
    · simp only [hk, hk', if_true, if_false, Option.some.injEq] at e e'
      subst e'; have := v.old e; omega
    · simp only [hk, hk', if_false] at e e'
      exact v.uniq h h' a e e'

theorem HInv.fresh_lost {A C H N} (v : HInv A C H N) {i : Nat} (hi : A (.buf i) = none) (m : List Byte) (a : Nat) :
    LostIn (fun h => if h = .buf i then some N else A h) (poke H N (some m)) a ↔ LostIn A H a := by
  constructor
  · rintro ⟨h1, h2, h3⟩
    have haN : N ≠ a := by intro he; have := h2 i; simp at this; exact this he
    rw [poke_other _ _ (Ne.symm haN)] at h1
    refine ⟨h1, fun j => ?_, fun k j => ?_⟩
    · by_cases hj : j = i
      · subst hj; rw [hi]; simp
      · have := h2 j; simpa [hj] using this
    · have := h3 k j; simpa using this
  · rintro ⟨h1, h2, h3⟩
    have haN : a < N := v.lt a h1
    refine ⟨?_, fun j => ?_, fun k j => ?_⟩
    · rw [poke_other _ _ (by omega)]; exact h1
    · by_cases hj : j = i
      · subst hj; simp; omega
      · simpa [hj] using h2 j
    · simpa using h3 k j

/-- The buffers are handed to a new array. -/
theorem HInv.hand {A C H N} (v : HInv A C H N) (k : Nat) :
    HInv (fun h => match h with | .arr k' i => if k' = k then A (.buf i) else A (.arr k' i) | _ => none)
      (fun h => match h with | .arr k' i => if k' = k then C (.buf i) else C (.arr k' i) | _ => 0) H N where
  lt := v.lt
  good h a e := by
    cases h with
    | buf i => simp at e
    | view i => simp at e
    | arr k' i =>
      by_cases hk : k' = k
      · simp only [hk, if_true] at e ⊢; exact v.good _ a e
      · simp only [hk, if_false] at e ⊢; exact v.good _ a e
  null h e := by
    cases h with
    | buf i => rfl
    | view i => rfl
    | arr k' i =>
      by_cases hk : k' = k
      · simp only [hk, if_true] at e ⊢; exact v.null _ e
      · simp only [hk, if_false] at e ⊢; exact v.null _ e
  uniq h h' a e e' := by
    cases h with
    | buf i => simp at e
    | view i => simp at e
    | arr k1 i =>
      cases h' with
      | buf i => simp at e'
      | view i => simp at e'
      | arr k2 j =>
        by_cases hk : k1 = k <;> by_cases hk' : k2 = k <;> simp only [hk, hk', if_true, if_false] at e e' <;>
          have := v.uniq _ _ a e e' <;> simp_all [Holder.key]

theorem hand_lost {A : Holder → Option Nat} {H : Heap} (k : Nat) (hk : ∀ i, A (.arr k i) = none) (a : Nat) :
    LostIn (fun h => match h with | .arr k' i => if k' = k then A (.buf i) else A (.arr k' i) | _ => none) H a ↔ LostIn A H a := by
  constructor
  · rintro ⟨h1, _, h3⟩
    refine ⟨h1, fun i => ?_, fun k' i => ?_⟩
    · have := h3 k i; simpa using this
    · by_cases hk' : k' = k
      · subst hk'; rw [hk]; simp
      · have := h3 k' i; simpa [hk'] using this
  · rintro ⟨h1, h2, h3⟩
    refine ⟨h1, by simp, fun k' i => ?_⟩
    by_cases hk' : k' = k
    · simpa [hk'] using h2 i
    · simpa [hk'] using h3 k' i

/-- Blocks are freed, and the pointers to them forgotten, views included. -/
theorem HInv.freed {A C H N} (v : HInv A C H N) (p : Holder → Prop) [DecidablePred p] (H' : Heap)
    (h1 : ∀ a, (∀ h, p h → A h ≠ some a) → H' a = H a) (h2 : ∀ a, H' a ≠ none → H a ≠ none)
    (hp : ∀ h h', h.key = h'.key → p h → p h') :
    HInv (fun h => if p h then none else A h) (fun h => if p h then 0 else C h) H' N where
  lt a h := v.lt a (h2 a h)
  good h a e := by
    by_cases hk : p h
    · simp [hk] at e
    · simp only [hk, if_false] at e ⊢
      rw [h1 a]
      · exact v.good h a e
      · intro h' hp' e'
        exact hk (hp h' h (v.uniq h' h a e' e) hp')
  null h e := by
    by_cases hk : p h
    · simp [hk]
    · simp only [hk, if_false] at e ⊢; exact v.null h e
  uniq h h' a e e' := by
    by_cases hk : p h
    · simp [hk] at e
    · by_cases hk' : p h'
      · simp [hk'] at e'
      · simp only [hk, hk', if_false] at e e'; exact v.uniq h h' a e e'

end Verif.Oom
