import Verif.Spec.NativeArray
import Verif.Proof.Program
import Verif.Proof.Hoare
/-! Setting arrays on array views and visiting them. -/
namespace Verif
open Spec

/-- The part of a view that is fixed when it is initialised. -/
structure Fixed (v w : AView) : Prop where
  schema : v.schema = w.schema
  nOffsets : v.nOffsets = w.nOffsets
  nValues : v.nValues = w.nValues
  stride : v.stride = w.stride

theorem Fixed.refl (v : AView) : Fixed v v := ⟨rfl, rfl, rfl, rfl⟩
theorem Fixed.trans {u v w : AView} (h : Fixed u v) (h' : Fixed v w) : Fixed u w :=
  ⟨h.1.trans h'.1, h.2.trans h'.2, h.3.trans h'.3, h.4.trans h'.4⟩

/-- Fields of levels below `n` agree. -/
structure Agree (n : Nat) (v w : AView) : Prop where
  fixed : Fixed v w
  offset : ∀ l, l < n → v.offset l = w.offset l
  length : ∀ l, l < n → v.length l = w.length l
  offsets : ∀ l, l < n → v.offsets l = w.offsets l
  first : ∀ l, l < n → v.first l = w.first l
  last : ∀ l, l < n → v.last l = w.last l

theorem Agree.trans {n u v w} (h : Agree n u v) (h' : Agree n v w) : Agree n u w :=
  ⟨h.1.trans h'.1, fun l hl => (h.2 l hl).trans (h'.2 l hl), fun l hl => (h.3 l hl).trans (h'.3 l hl),
   fun l hl => (h.4 l hl).trans (h'.4 l hl), fun l hl => (h.5 l hl).trans (h'.5 l hl), fun l hl => (h.6 l hl).trans (h'.6 l hl)⟩
theorem Agree.mono {n m u v} (h : Agree n u v) (hm : m ≤ n) : Agree m u v :=
  ⟨h.1, fun l hl => h.2 l (by omega), fun l hl => h.3 l (by omega), fun l hl => h.4 l (by omega),
   fun l hl => h.5 l (by omega), fun l hl => h.6 l (by omega)⟩

@[simp] theorem setAt_same {α} (f : Nat → α) (i x) : setAt f i x i = x := by simp [setAt]
theorem setAt_ne {α} (f : Nat → α) {i j} (x) (h : j ≠ i) : setAt f i x j = f j := by simp [setAt, h]

theorem orUb_some {σ α} (a : α) : (orUb (some a) : M σ α) = pure a := rfl
theorem orUb_none {σ α} : (orUb (none : Option α) : M σ α) = M.undef := rfl

theorem twoBuffers_some {l b} : twoBuffers l = some b ↔ ∃ vb, l = [vb, b] := by
  unfold twoBuffers
  split
  · simp
  · rename_i h
    simp only [reduceCtorEq, false_iff]
    rintro ⟨vb, rfl⟩
    exact h _ _ rfl
theorem twoBuffers_none {l} : twoBuffers l = none ↔ l.length ≠ 2 := by
  unfold twoBuffers
  split
  · simp
  · rename_i h
    simp only [true_iff]
    intro hl
    match l, hl with
    | [x, y], _ => exact h x y rfl
theorem oneChild_some {l c} : oneChild l = some c ↔ l = [c] := by
  unfold oneChild
  split
  · simp
  · rename_i h
    simp only [reduceCtorEq, false_iff]
    rintro rfl
    exact h _ rfl
theorem oneChild_none {l} : oneChild l = none ↔ l.length ≠ 1 := by
  unfold oneChild
  split
  · simp
  · rename_i h
    simp only [true_iff]
    intro hl
    match l, hl with
    | [x], _ => exact h x rfl

/-- What setting the children of a struct does. -/
theorem avSetValues_post : ∀ (cs : List AArray) (i : Nat) (v : AView),
    (avSetValues cs i v).Post
      (fun _ w => (∀ c ∈ cs, c.buffers.length = 2) ∧ (∀ j c, cs[j]? = some c → w.values (i + j) = (c.buffers[1]?.getD none, c.offset)) ∧
        (∀ j, j < i → w.values j = v.values j) ∧ w = { v with values := w.values })
      (fun rc w => rc = EINVAL ∧ (∃ c ∈ cs, c.buffers.length ≠ 2) ∧ w = { v with values := w.values })
  | [], i, v => ⟨by simp, by simp, fun _ _ => rfl, rfl⟩
  | c :: cs, i, v => by
    unfold avSetValues
    rcases hb : twoBuffers c.buffers with _ | b
    · exact ⟨rfl, ⟨c, by simp, twoBuffers_none.mp hb⟩, rfl⟩
    · obtain ⟨vb, hb⟩ := twoBuffers_some.mp hb
      dsimp only
      rw [M.bind_run, M.modify_run]
      dsimp only
      refine (avSetValues_post cs (i + 1) _).imp ?_ ?_
      · rintro _ w ⟨h1, h2, h3, h4⟩
        refine ⟨?_, ?_, ?_, ?_⟩
        · intro x hx
          rcases List.mem_cons.mp hx with rfl | hx
          · simp [hb]
          · exact h1 x hx
        · intro j x hx
          cases j with
          | zero =>
            simp at hx
            subst hx
            rw [Nat.add_zero, h3 i (by omega)]
            simp [hb]
          | succ j =>
            have := h2 j x (by simpa using hx)
            rw [← this]; congr 1; omega
        · intro j hj
          rw [h3 j (by omega)]
          exact setAt_ne _ _ (by omega)
        · rw [h4]
      · rintro rc w ⟨h1, ⟨x, hx, hx2⟩, h3⟩
        exact ⟨h1, ⟨x, List.mem_cons_of_mem _ hx, hx2⟩, by rw [h3]⟩

theorem avSetStruct_post (a : AArray) (v : AView) (n : Nat) (hn : v.nValues = n) :
    (avSetStruct a v).Post
      (fun _ w => CoordShape .separate n a ∧ CoordsExposed .separate w a ∧ w = { v with values := w.values })
      (fun rc w => rc = EINVAL ∧ ¬ CoordShape .separate n a ∧ w = { v with values := w.values }) := by
  unfold avSetStruct
  rw [M.bind_run, M.get_run]
  dsimp only
  by_cases h : (a.children.length : Int) ≠ v.nValues
  · rw [if_pos h]
    exact ⟨rfl, fun hs => h (by rw [hn, hs.1]), rfl⟩
  · rw [if_neg h]
    have hl : a.children.length = n := by omega
    refine (avSetValues_post a.children 0 v).imp ?_ ?_
    · rintro _ w ⟨h1, h2, _, h4⟩
      exact ⟨⟨hl, h1⟩, fun j c hc => by have := h2 j c hc; rwa [Nat.zero_add] at this, h4⟩
    · rintro rc w ⟨h1, ⟨c, hc, hc2⟩, h3⟩
      exact ⟨h1, fun hs => hc2 (hs.2 c hc), h3⟩

theorem avSetInterleaved_post (a : AArray) (v : AView) (n : Nat) :
    (avSetInterleaved a v).Post
      (fun _ w => CoordShape .interleaved n a ∧ CoordsExposed .interleaved w a ∧ w = { v with values := w.values })
      (fun rc w => rc = EINVAL ∧ ¬ CoordShape .interleaved n a ∧ w = { v with values := w.values }) := by
  unfold avSetInterleaved
  rcases hc : oneChild a.children with _ | c
  · refine ⟨rfl, ?_, rfl⟩
    rintro ⟨c, h, _⟩
    exact oneChild_none.mp hc (by rw [h]; rfl)
  · have hc := oneChild_some.mp hc
    dsimp only
    rcases hb : twoBuffers c.buffers with _ | b
    · refine ⟨rfl, ?_, rfl⟩
      rintro ⟨c', h, h2⟩
      rw [hc] at h
      cases h
      exact twoBuffers_none.mp hb h2
    · obtain ⟨vb, hb⟩ := twoBuffers_some.mp hb
      refine ⟨⟨c, hc, by rw [hb]; rfl⟩, ?_, rfl⟩
      intro c' hc' j hj
      rw [hc] at hc'
      cases hc'
      simp only [hb]
      exact if_pos hj

theorem avSetCoords_post (k : CoordKind) (a : AArray) (level : Nat) (v : AView) (n : Nat) (hn : v.nValues = n)
    (hk : v.schema.coordType = k.code) :
    (avSetCoords a level v).Post
      (fun _ w => CoordShape k n a ∧ CoordsExposed k w a ∧ w = { v with values := w.values, nCoords := w.nCoords } ∧
        w.nCoords = if 0 < level then v.last (level - 1) - v.first (level - 1) else a.length)
      (fun rc w => rc = EINVAL ∧ ¬ CoordShape k n a ∧ w = { v with values := w.values, nCoords := w.nCoords }) := by
  unfold avSetCoords
  rw [M.bind_run, M.modify_run]
  dsimp only
  rw [M.bind_run, M.get_run]
  dsimp only
  rw [hk]
  cases k with
  | separate =>
    rw [if_pos (show CoordKind.code .separate = 1 from rfl)]
    refine (avSetStruct_post a _ n ?_).imp ?_ ?_
    · exact hn
    · rintro _ w ⟨h1, h2, h3⟩; exact ⟨h1, h2, by rw [h3], by rw [h3]⟩
    · rintro _ w ⟨h1, h2, h3⟩; exact ⟨h1, h2, by rw [h3]⟩
  | interleaved =>
    rw [if_neg (show ¬ CoordKind.code .interleaved = 1 by decide), if_pos (show CoordKind.code .interleaved = 2 from rfl)]
    refine (avSetInterleaved_post a _ n).imp ?_ ?_
    · rintro _ w ⟨h1, h2, h3⟩; exact ⟨h1, h2, by rw [h3], by rw [h3]⟩
    · rintro _ w ⟨h1, h2, h3⟩; exact ⟨h1, h2, by rw [h3]⟩

theorem avSetOffsets_post (a : AArray) (b : Option (List Byte)) (level : Nat) (v : AView)
    (hr : 0 < a.length → ∃ buf, b = some buf ∧ (i32At buf a.offset).isSome ∧ (i32At buf (a.offset + a.length)).isSome) :
    (avSetOffsets a b level v).Post
      (fun _ w => (if 0 < a.length then ∃ buf, b = some buf ∧ w.offsets level = some buf ∧ i32At buf a.offset = some (w.first level) ∧
          i32At buf (a.offset + a.length) = some (w.last level)
        else w.offsets level = some kZero ∧ w.first level = 0 ∧ w.last level = 0) ∧ Agree level v w ∧ w.offset = v.offset ∧ w.length = v.length)
      (fun _ _ => False) := by
  unfold avSetOffsets
  by_cases h : 0 < a.length
  · rw [if_pos h]
    obtain ⟨buf, rfl, h1, h2⟩ := hr h
    obtain ⟨lo, h1⟩ := Option.isSome_iff_exists.mp h1
    obtain ⟨hi, h2⟩ := Option.isSome_iff_exists.mp h2
    simp only [M.bind_run, orUb, M.pure_run, h1, h2, M.modify_run]
    refine ⟨by rw [if_pos h]; exact ⟨buf, rfl, setAt_same _ _ _, h1.trans (congrArg some (setAt_same _ _ _).symm), h2.trans (congrArg some (setAt_same _ _ _).symm)⟩, ⟨⟨rfl, rfl, rfl, rfl⟩, fun _ _ => rfl, fun _ _ => rfl, ?_, ?_, ?_⟩, rfl, rfl⟩
    all_goals intro l hl; exact (setAt_ne _ _ (by omega)).symm
  · rw [if_neg h, M.modify_run]
    refine ⟨by rw [if_neg h]; exact ⟨setAt_same _ _ _, setAt_same _ _ _, setAt_same _ _ _⟩, ⟨⟨rfl, rfl, rfl, rfl⟩, fun _ _ => rfl, fun _ _ => rfl, ?_, ?_, ?_⟩, rfl, rfl⟩
    all_goals intro l hl; exact (setAt_ne _ _ (by omega)).symm

theorem avSetInternal_post (ck : CoordKind) (n : Nat) : ∀ (k level : Nat) (a : AArray) (v : AView), v.nValues = n →
    v.schema.coordType = ck.code → OffsetsReadable k a →
    (avSetInternal k level a v).Post
      (fun _ w => ListShape ck n k a ∧ Exposed ck w k level a ∧ Agree level v w)
      (fun rc w => rc = EINVAL ∧ ¬ ListShape ck n k a ∧ Agree level v w)
  | 0, level, a, v, hn, hk, hr => by
    unfold avSetInternal
    rw [M.bind_run, M.modify_run]
    dsimp only
    have hag : ∀ (x y) (w : AView), w = { v with offset := setAt v.offset level a.offset, length := setAt v.length level a.length, values := x, nCoords := y } → Agree level v w := by
      rintro x y w rfl
      refine ⟨⟨rfl, rfl, rfl, rfl⟩, ?_, ?_, fun _ _ => rfl, fun _ _ => rfl, fun _ _ => rfl⟩
      all_goals intro l hl; exact (setAt_ne _ _ (by omega)).symm
    refine (avSetCoords_post ck a level _ n ?_ ?_).imp ?_ ?_
    · exact hn
    · exact hk
    · rintro _ w ⟨h1, h2, h3, h4⟩
      refine ⟨h1, ⟨?_, ?_, ?_⟩, hag _ _ w h3⟩
      · intro l b hl hb
        obtain rfl : l = 0 := by omega
        cases hb
        rw [h3]
        exact ⟨setAt_same _ _ _, setAt_same _ _ _⟩
      · intro l b hl; omega
      · rintro b rfl
        refine ⟨h2, h4.trans ?_⟩
        rw [h3]
        rfl
    · rintro rc w ⟨h1, h2, h3⟩
      exact ⟨h1, h2, hag _ _ w h3⟩
  | k + 1, level, a, v, hn, hk, hr => by
    unfold avSetInternal
    rw [M.bind_run, M.modify_run]
    dsimp only
    have hag : Agree level v { v with offset := setAt v.offset level a.offset, length := setAt v.length level a.length } := by
      refine ⟨⟨rfl, rfl, rfl, rfl⟩, ?_, ?_, fun _ _ => rfl, fun _ _ => rfl, fun _ _ => rfl⟩
      all_goals intro l hl; exact (setAt_ne _ _ (by omega)).symm
    rcases hb : twoBuffers a.buffers with _ | b
    · dsimp only
      exact ⟨rfl, fun hs => twoBuffers_none.mp hb hs.1, hag⟩
    obtain ⟨vb, hb⟩ := twoBuffers_some.mp hb
    dsimp only
    rcases hc : oneChild a.children with _ | c
    · dsimp only
      refine ⟨rfl, ?_, hag⟩
      rintro ⟨_, c, hc', _⟩
      exact oneChild_none.mp hc (by rw [hc']; rfl)
    have hc := oneChild_some.mp hc
    dsimp only
    have hrr : OffsetsReadable k c := fun l b hl hb' => hr (l + 1) b (by omega) ⟨c, by rw [hc]; rfl, hb'⟩
    have h0 := avSetOffsets_post a b level { v with offset := setAt v.offset level a.offset, length := setAt v.length level a.length } (by
      intro hpos
      obtain ⟨buf, h1, h2⟩ := hr 0 a (by omega) rfl hpos
      rw [hb] at h1
      exact ⟨buf, by simpa using h1, h2⟩)
    rw [M.bind_run]
    cases hs : avSetOffsets a b level { v with offset := setAt v.offset level a.offset, length := setAt v.length level a.length } with
    | ub => rw [hs] at h0; exact h0.elim
    | err rc s => rw [hs] at h0; exact h0.elim
    | ok u w1 =>
      rw [hs] at h0
      obtain ⟨h1, h2, h3, h4⟩ := h0
      dsimp only
      refine (avSetInternal_post ck n k (level + 1) c w1 ?_ ?_ hrr).imp ?_ ?_
      · rw [← h2.1.nValues]; exact hn
      · rw [← h2.1.schema]; exact hk
      · rintro _ w ⟨g1, ⟨g2, g3, g4⟩, g5⟩
        refine ⟨⟨by rw [hb]; rfl, c, hc, g1⟩, ⟨?_, ?_, ?_⟩, (hag.trans h2).trans (g5.mono (by omega))⟩
        · intro l b' hl hb'
          cases l with
          | zero =>
            cases hb'
            rw [Nat.add_zero, ← g5.offset level (by omega), ← g5.length level (by omega), h3, h4]
            exact ⟨setAt_same _ _ _, setAt_same _ _ _⟩
          | succ l =>
            obtain ⟨c', hc', hb'⟩ := hb'
            rw [hc] at hc'
            cases hc'
            have := g2 l b' (by omega) hb'
            rwa [show level + 1 + l = level + (l + 1) by omega] at this
        · intro l b' hl hb'
          cases l with
          | zero =>
            cases hb'
            rw [Nat.add_zero, ← g5.offsets level (by omega), ← g5.first level (by omega), ← g5.last level (by omega), hb]
            split at h1
            · rename_i hpos
              rw [if_pos hpos]
              obtain ⟨buf, rfl, h1⟩ := h1
              exact ⟨buf, rfl, h1⟩
            · rename_i hpos
              rw [if_neg hpos]
              exact h1
          | succ l =>
            obtain ⟨c', hc', hb'⟩ := hb'
            rw [hc] at hc'
            cases hc'
            have := g3 l b' (by omega) hb'
            rwa [show level + 1 + l = level + (l + 1) by omega] at this
        · rintro b' ⟨c', hc', hb'⟩
          rw [hc] at hc'
          cases hc'
          obtain ⟨q1, q2⟩ := g4 b' hb'
          refine ⟨q1, q2.trans ?_⟩
          rw [show level + (k + 1) = level + 1 + k by omega]
      · rintro rc w ⟨g1, g2, g3⟩
        refine ⟨g1, ?_, (hag.trans h2).trans (g3.mono (by omega))⟩
        rintro ⟨_, c', hc', hs'⟩
        rw [hc] at hc'
        cases hc'
        exact g2 hs'

/-- Whatever happens, the fixed part of the view stays. -/
def KeepsFixed {α} (m : M AView α) : Prop := ∀ v w, (m v).state? = some w → Fixed v w

theorem KeepsFixed.bind {α β} {m : M AView α} {f : α → M AView β} (hm : KeepsFixed m) (hf : ∀ a, KeepsFixed (f a)) :
    KeepsFixed (m >>= f) := by
  intro v w h
  rw [M.bind_run] at h
  cases hr : m v with
  | ok a u =>
    rw [hr] at h
    exact (hm v u (by rw [hr]; rfl)).trans (hf a u w h)
  | err rc u =>
    rw [hr] at h
    exact hm v w (by rw [hr]; exact h)
  | ub => rw [hr] at h; cases h
theorem KeepsFixed.pure {α} (a : α) : KeepsFixed (Pure.pure a) := by rintro v w ⟨⟩; exact Fixed.refl _
theorem KeepsFixed.get : KeepsFixed M.get := by rintro v w ⟨⟩; exact Fixed.refl _
theorem KeepsFixed.fail {α} (rc) : KeepsFixed (M.fail rc : M AView α) := by rintro v w ⟨⟩; exact Fixed.refl _
theorem KeepsFixed.undef {α} : KeepsFixed (M.undef : M AView α) := by rintro v w ⟨⟩
theorem KeepsFixed.orUb {α} (a : Option α) : KeepsFixed (orUb a : M AView α) := by
  cases a with
  | none => exact .undef
  | some a => exact .pure a
theorem KeepsFixed.modify {f : AView → AView} (h : ∀ v, Fixed v (f v)) : KeepsFixed (M.modify f) := by
  rintro v w ⟨⟩; exact h v

theorem keeps_setValues : ∀ (cs : List AArray) (i : Nat), KeepsFixed (avSetValues cs i)
  | [], _ => .pure ()
  | c :: cs, i => by
    unfold avSetValues
    cases twoBuffers c.buffers with
    | none => exact .fail _
    | some b => exact .bind (.modify fun _ => ⟨rfl, rfl, rfl, rfl⟩) fun _ => keeps_setValues cs (i + 1)
theorem keeps_setStruct (a : AArray) : KeepsFixed (avSetStruct a) := by
  refine .bind .get fun v => ?_
  split
  · exact .fail _
  · exact keeps_setValues _ _
theorem keeps_setInterleaved (a : AArray) : KeepsFixed (avSetInterleaved a) := by
  unfold avSetInterleaved
  cases oneChild a.children with
  | none => exact .fail _
  | some c =>
    dsimp only
    cases twoBuffers c.buffers with
    | none => exact .fail _
    | some b => exact .modify fun _ => ⟨rfl, rfl, rfl, rfl⟩
theorem keeps_setCoords (a : AArray) (level : Nat) : KeepsFixed (avSetCoords a level) := by
  refine .bind (.modify fun _ => ⟨rfl, rfl, rfl, rfl⟩) fun _ => .bind .get fun v => ?_
  split
  · exact keeps_setStruct a
  · split
    · exact keeps_setInterleaved a
    · exact .fail _
theorem keeps_setOffsets (a : AArray) (b) (level : Nat) : KeepsFixed (avSetOffsets a b level) := by
  unfold avSetOffsets
  split
  · exact .bind (.orUb _) fun _ => .bind (.orUb _) fun _ => .bind (.orUb _) fun _ => .modify fun _ => ⟨rfl, rfl, rfl, rfl⟩
  · exact .modify fun _ => ⟨rfl, rfl, rfl, rfl⟩
theorem keeps_setInternal : ∀ (k level : Nat) (a : AArray), KeepsFixed (avSetInternal k level a)
  | 0, level, a => .bind (.modify fun _ => ⟨rfl, rfl, rfl, rfl⟩) fun _ => keeps_setCoords a level
  | k + 1, level, a => by
    unfold avSetInternal
    refine .bind (.modify fun _ => ⟨rfl, rfl, rfl, rfl⟩) fun _ => ?_
    cases twoBuffers a.buffers with
    | none => exact .fail _
    | some b =>
      dsimp only
      cases oneChild a.children with
      | none => exact .fail _
      | some c => exact .bind (keeps_setOffsets a b level) fun _ => keeps_setInternal k (level + 1) c
theorem keeps_setArray (a : AArray) : KeepsFixed (arrayViewSetArray a) := by
  unfold arrayViewSetArray
  have hlast : ∀ (_ : Unit), KeepsFixed (do
      let b ← orUb a.buffers[0]?
      M.modify fun v : AView => { v with validity := b }) := fun _ =>
    .bind (.orUb _) fun _ => .modify fun _ => ⟨rfl, rfl, rfl, rfl⟩
  refine .bind .get fun v => ?_
  refine KeepsFixed.bind ?_ hlast
  split
  · exact .bind (.modify fun _ => ⟨rfl, rfl, rfl, rfl⟩) fun _ => .bind (.orUb _) fun _ => .bind (.orUb _) fun _ =>
      .modify fun _ => ⟨rfl, rfl, rfl, rfl⟩
  · split
    · exact .bind (.modify fun _ => ⟨rfl, rfl, rfl, rfl⟩) fun _ => keeps_setStruct a
    · exact keeps_setInternal _ _ _

/-- Success means that all offsets could be read. -/
theorem avSetInternal_readable : ∀ (k level : Nat) (a : AArray) (v w : AView), avSetInternal k level a v = .ok () w →
    OffsetsReadable k a
  | 0, _, _, _, _, _ => fun l b hl => by omega
  | k + 1, level, a, v, w, h => by
    unfold avSetInternal at h
    rw [M.bind_run, M.modify_run] at h
    dsimp only at h
    rcases hb : twoBuffers a.buffers with _ | b
    · rw [hb] at h; cases h
    rw [hb] at h
    obtain ⟨vb, hb⟩ := twoBuffers_some.mp hb
    dsimp only at h
    rcases hc : oneChild a.children with _ | c
    · rw [hc] at h; cases h
    rw [hc] at h
    have hc := oneChild_some.mp hc
    dsimp only at h
    obtain ⟨_, u, h1, h2⟩ := M.bind_eq_ok.mp h
    have ih := avSetInternal_readable k (level + 1) c u w h2
    intro l b' hl hb' hpos
    cases l with
    | zero =>
      cases hb'
      unfold avSetOffsets at h1
      rw [if_pos hpos] at h1
      cases b with
      | none => cases h1
      | some buf =>
        obtain ⟨_, _, _, h1⟩ := M.bind_eq_ok.mp h1
        refine ⟨buf, by rw [hb]; rfl, ?_⟩
        rename_i g1
        cases g1
        obtain ⟨_, _, g2, h1⟩ := M.bind_eq_ok.mp h1
        obtain ⟨_, _, g3, h1⟩ := M.bind_eq_ok.mp h1
        constructor
        · cases hx : i32At buf a.offset with
          | none => rw [hx] at g2; cases g2
          | some _ => rfl
        · cases hx : i32At buf (a.offset + a.length) with
          | none => rw [hx] at g3; cases g3
          | some _ => rfl
    | succ l =>
      obtain ⟨c', hc', hb'⟩ := hb'
      rw [hc] at hc'
      cases hc'
      exact ih l b' (by omega) hb' hpos

/-! ## Visiting -/

theorem mapM_eq_some {f : Nat → Option Dbl} : ∀ {l : List Nat} {xs : List Dbl}, l.length = xs.length →
    (∀ (j n : Nat), l[j]? = some n → f n = xs[j]?) → l.mapM f = some xs
  | [], [], _, _ => rfl
  | n :: l, x :: xs, hl, h => by
    have h0 : f n = some x := h 0 n rfl
    have ih := mapM_eq_some (l := l) (xs := xs) (f := f) (by simpa using hl) fun j m hm => by
      have := h (j + 1) m (by simpa using hm)
      simpa using this
    simp [List.mapM_cons, h0, ih]

/-- View `v` shows the array `a` and `k` levels below it from `level` on. -/
structure Sees (d : Dims) (ck : CoordKind) (v : AView) (k level : Nat) (a : AArray) : Prop where
  exposed : Exposed ck v k level a
  nValues : v.nValues = d.n
  stride : v.stride = avStride ck.code d.n
  dims : v.schema.dimensions = d.code

theorem Sees.offset {d ck v k level a} (h : Sees d ck v k level a) : v.offset level = a.offset :=
  (h.exposed.1 0 a (by omega) rfl).1

theorem Sees.child {d ck v k level a c} (h : Sees d ck v (k + 1) level a) (hc : a.children[0]? = some c) :
    Sees d ck v k (level + 1) c := by
  refine ⟨⟨?_, ?_, ?_⟩, h.nValues, h.stride, h.dims⟩
  · intro l b hl hb
    have := h.exposed.1 (l + 1) b (by omega) ⟨c, hc, hb⟩
    rwa [show level + (l + 1) = level + 1 + l by omega] at this
  · intro l b hl hb
    have := h.exposed.2.1 (l + 1) b (by omega) ⟨c, hc, hb⟩
    rwa [show level + (l + 1) = level + 1 + l by omega] at this
  · intro b hb
    have := h.exposed.2.2 b ⟨c, hc, hb⟩
    rwa [show level + (k + 1) = level + 1 + k by omega] at this

theorem avValue_of {d ck v level a i c j x} (h : Sees d ck v 0 level a) (hc : CoordAt d ck a i c) (hx : c[j]? = some x) :
    avValue v (a.offset + (i : Nat)) j = some x := by
  obtain ⟨hl, hc⟩ := hc
  have he := (h.exposed.2.2 a rfl).1
  have hj : j < d.n := by
    rw [← hl]
    exact (List.getElem?_eq_some_iff.mp hx).1
  unfold avValue
  rw [h.stride]
  cases ck with
  | separate =>
    obtain ⟨ch, hch, b, hb, hf⟩ := hc j x hx
    rw [he j ch hch, hb]
    show f64At b (ch.offset + (a.offset + i) * 1) = _
    rw [Int.mul_one]
    exact hf
  | interleaved =>
    obtain ⟨ch, hch, b, hb, hf⟩ := hc j x hx
    rw [he ch hch j (by rw [h.nValues]; omega), hb]
    show f64At b (ch.offset + (j : Int) + (a.offset + i) * (d.n : Int)) = _
    rw [← hf]
    congr 1
    omega

theorem avRow_of {d ck v level a i c} (h : Sees d ck v 0 level a) (hc : CoordAt d ck a i c) :
    avRow v (a.offset + (i : Nat)) = some c := by
  unfold avRow
  rw [h.nValues]
  refine mapM_eq_some (by rw [hc.1]; simp) ?_
  intro j n hn
  have hn' := List.getElem?_eq_some_iff.mp hn
  obtain ⟨hj, hn'⟩ := hn'
  simp at hj hn'
  subst hn'
  have : j < c.length := by rw [hc.1]; omega
  rw [List.getElem?_eq_getElem this]
  exact avValue_of h hc (List.getElem?_eq_getElem this)

theorem avRows_of {d ck v level a} (h : Sees d ck v 0 level a) : ∀ (cs : List Coord) (i : Nat),
    (∀ t c, cs[t]? = some c → CoordAt d ck a (i + t) c) → avRows v cs.length (a.offset + i) = some cs
  | [], _, _ => rfl
  | c :: cs, i, hc => by
    have ih := avRows_of h cs (i + 1) fun t x hx => by
      have := hc (t + 1) x (by simpa using hx)
      rwa [show i + (t + 1) = i + 1 + t by omega] at this
    have h0 := avRow_of h (hc 0 c rfl)
    rw [Nat.add_zero] at h0
    have he : a.offset + (i : Int) + 1 = a.offset + ((i + 1 : Nat) : Int) := by omega
    simp only [List.length_cons, avRows, h0, he, ih]
    rfl

theorem avRange_of {d ck v k level a i lo hi child} (h : Sees d ck v (k + 1) level a) (hl : ListAt a i lo hi child) :
    avRange v level (a.offset + i) = some (child.offset + lo, ((hi - lo : Nat) : Int)) := by
  obtain ⟨hlt, hc, hle, _, b, hb, h1, h2⟩ := hl
  have ho := h.exposed.2.1 0 a (by omega) rfl
  rw [if_pos (by omega)] at ho
  obtain ⟨b', hb', ho, -, -⟩ := ho
  rw [hb] at hb'
  cases hb'
  have hco := (h.child hc).offset
  unfold avRange
  rw [Nat.add_zero] at ho
  rw [ho]
  simp only [Option.bind_eq_bind, Option.bind_some, h1, h2, hco]
  rw [Int.add_comm, show (hi : Int) - lo = ((hi - lo : Nat) : Int) by omega]

/-- The traces of a list of things, one after the other. -/
def Concat {α : Type} (T : α → List Event → Prop) : List α → List Event → Prop
  | [], t => t = []
  | x :: xs, t => ∃ t1 t2, T x t1 ∧ Concat T xs t2 ∧ t = t1 ++ t2

theorem behaves_avLoop {α} {T : α → List Event → Prop} {f : ∀ σ : Type, Handler σ → Int → M σ Unit} : ∀ (xs : List α) (i : Int),
    (∀ (t : Nat) (x : α), xs[t]? = some x → ∃ tr, T x tr ∧ Behaves (fun _ h => f _ h (i + t)) tr (.done ())) →
    ∃ tr, Concat T xs tr ∧ Behaves (fun _ h => avLoop (f _ h) xs.length i) tr (.done ())
  | [], _, _ => ⟨[], rfl, Behaves.pure ()⟩
  | x :: xs, i, hx => by
    obtain ⟨t1, h1, b1⟩ := hx 0 x rfl
    obtain ⟨t2, h2, b2⟩ := behaves_avLoop (T := T) (f := f) xs (i + 1) fun t y hy => by
      have := hx (t + 1) y (by simpa using hy)
      rwa [show i + ((t + 1 : Nat) : Int) = i + 1 + t by omega] at this
    refine ⟨t1 ++ t2, ⟨t1, t2, h1, h2, rfl⟩, ?_⟩
    simp only [Int.natCast_zero, Int.add_zero] at b1
    intro σ hd s
    exact Behaves.bind b1 (f := fun _ _ _ => _) b2 σ hd s

theorem behaves_orUb {α β} {x : Option α} {a : α} {f : ∀ σ : Type, Handler σ → α → M σ β} {t o} (hx : x = some a)
    (hf : Behaves (fun _ h => f _ h a) t o) : Behaves (fun _ h => orUb x >>= f _ h) t o := by
  subst hx
  intro σ hd s
  exact hf σ hd s

theorem behaves_avParts {α} {T : α → List Event → Prop} {P : AArray → Nat → α → Prop} {f : ∀ σ : Type, Handler σ → Int → M σ Unit}
    {d ck v k level a i xs} (h : Sees d ck v (k + 1) level a) (hp : PartsAt P a i xs)
    (hf : ∀ c j x, Sees d ck v k (level + 1) c → P c j x →
      ∃ tr, T x tr ∧ Behaves (fun _ h => f _ h (c.offset + (j : Nat))) tr (.done ())) :
    ∃ tr, Concat T xs tr ∧ Behaves (fun _ h => avParts v level (f _ h) (a.offset + i)) tr (.done ()) := by
  obtain ⟨lo, hi, c, hl, hlen, hx⟩ := hp
  obtain ⟨tr, h1, h2⟩ := behaves_avLoop (T := T) (f := f) xs (c.offset + lo) fun t x ht => by
    obtain ⟨tr, g1, g2⟩ := hf c (lo + t) x (h.child hl.2.1) (hx t x ht)
    refine ⟨tr, g1, ?_⟩
    rwa [show c.offset + ((lo + t : Nat) : Int) = c.offset + lo + t by omega] at g2
  refine ⟨tr, h1, ?_⟩
  unfold avParts
  refine behaves_orUb (avRange_of h hl) ?_
  show Behaves (fun _ h => avLoop (f _ h) (((hi - lo : Nat) : Int)).toNat (c.offset + lo)) tr _
  rw [Int.toNat_natCast, ← hlen]
  exact h2

theorem behaves_avSequence {d ck v level a i cs} (h : Sees d ck v 1 level a) (hp : PartsAt (CoordAt d ck) a i cs) :
    Behaves (fun _ h => avSequence v h level (a.offset + (i : Nat))) [.coords d.n cs] (.done ()) := by
  obtain ⟨lo, hi, c, hl, hlen, hx⟩ := hp
  have hr := avRows_of (h.child hl.2.1) cs lo hx
  unfold avSequence avCoords
  refine behaves_orUb (avRange_of h hl) ?_
  dsimp only
  refine behaves_orUb (a := cs) ?_ ?_
  · rw [Int.toNat_natCast, ← hlen]; exact hr
  · rw [h.nValues]
    exact Behaves.call _

theorem chunked_one (nv : Nat) (cs : List Coord) : Chunked nv cs [.coords nv cs] := ⟨[cs], by simp, rfl⟩

theorem behaves_avRing {d ck v level a i cs} (h : Sees d ck v 1 level a) (hp : PartsAt (CoordAt d ck) a i cs) :
    Behaves (fun _ h => avRing v h level (a.offset + (i : Nat))) [.ringStart, .coords d.n cs, .ringEnd] (.done ()) := by
  intro σ hd s
  exact Behaves.bind (Behaves.call .ringStart) (f := fun _ _ _ => _)
    (Behaves.bind (behaves_avSequence h hp) (f := fun _ _ _ => _) (Behaves.call .ringEnd)) σ hd s

theorem behaves_shell {d ck v k level a} (h : Sees d ck v k level a) (g : Nat) {p : ∀ σ : Type, Handler σ → M σ Unit} {t}
    (hp : Behaves p t (.done ())) :
    Behaves (fun _ h => do avGeomStart v h g; p _ h; h .geomEnd) (.geomStart g d.code :: t ++ [.geomEnd]) (.done ()) := by
  unfold avGeomStart
  rw [h.dims, Int.toNat_natCast]
  intro σ hd s
  exact Behaves.bind (Behaves.call (.geomStart g d.code)) (f := fun _ _ _ => _)
    (Behaves.bind hp (f := fun _ _ _ => _) (Behaves.call .geomEnd)) σ hd s

theorem behaves_avPoint {d ck v level a i c} (h : Sees d ck v 0 level a) (hp : CoordAt d ck a i c) :
    ∃ t, (Geom.point d [c]).Trace t ∧ Behaves (fun _ h => avPoint v h (a.offset + (i : Nat))) t (.done ()) := by
  refine ⟨_, ⟨_, chunked_one _ _, rfl⟩, behaves_shell h 1 ?_⟩
  have hr := avRows_of h [c] i (by
    intro t x hx
    cases t with
    | zero => cases hx; exact hp
    | succ t => simp at hx)
  unfold avCoords
  refine behaves_orUb hr ?_
  rw [h.nValues]
  exact Behaves.call _

theorem behaves_avLinestring {d ck v level a i cs} (h : Sees d ck v 1 level a) (hp : PartsAt (CoordAt d ck) a i cs) :
    ∃ t, (Geom.linestring d cs).Trace t ∧ Behaves (fun _ h => avLinestring v h level (a.offset + (i : Nat))) t (.done ()) :=
  ⟨_, ⟨_, chunked_one _ _, rfl⟩, behaves_shell h 2 (behaves_avSequence h hp)⟩

theorem ringsTrace_of_concat {d : Dims} : ∀ {rs t}, Concat (fun r t => t = [.ringStart, .coords d.n r, .ringEnd]) rs t →
    RingsTrace d.n rs t
  | [], _, h => h
  | r :: rs, t, ⟨t1, t2, h1, h2, h3⟩ => by
    refine ⟨_, t2, chunked_one _ _, ringsTrace_of_concat h2, ?_⟩
    rw [h3, h1]
    rfl

theorem behaves_avPolygon {d ck v level a i rs} (h : Sees d ck v 2 level a) (hp : PartsAt (PartsAt (CoordAt d ck)) a i rs) :
    ∃ t, (Geom.polygon d rs).Trace t ∧ Behaves (fun _ h => avPolygon v h level (a.offset + (i : Nat))) t (.done ()) := by
  obtain ⟨t, h1, h2⟩ := behaves_avParts (T := fun r t => t = [.ringStart, .coords d.n r, .ringEnd])
    (f := fun _ h => avRing v h (level + 1)) h hp fun c j x hs hx => ⟨_, rfl, behaves_avRing hs hx⟩
  exact ⟨_, ⟨t, ringsTrace_of_concat h1, rfl⟩, behaves_shell h 3 h2⟩

theorem traceL_of_concat {α} {F : α → Geom} : ∀ {xs t}, Concat (fun x t => (F x).Trace t) xs t → Geom.TraceL (xs.map F) t
  | [], _, h => h
  | _ :: _, _, ⟨t1, t2, h1, h2, h3⟩ => ⟨t1, t2, h1, traceL_of_concat h2, h3⟩

theorem behaves_avMultipoint {d ck v a i cs} (h : Sees d ck v 1 0 a) (hp : PartsAt (CoordAt d ck) a i cs) :
    ∃ t, (Geom.multi .multipoint d (cs.map fun c => .point d [c])).Trace t ∧
      Behaves (fun _ h => avMultipoint v h (a.offset + (i : Nat))) t (.done ()) := by
  obtain ⟨t, h1, h2⟩ := behaves_avParts (T := fun c t => (Geom.point d [c]).Trace t)
    (f := fun _ h => avPoint v h) h hp fun c j x hs hx => behaves_avPoint hs hx
  exact ⟨_, ⟨t, traceL_of_concat h1, rfl⟩, behaves_shell h 4 h2⟩

theorem behaves_avMultilinestring {d ck v a i ls} (h : Sees d ck v 2 0 a) (hp : PartsAt (PartsAt (CoordAt d ck)) a i ls) :
    ∃ t, (Geom.multi .multilinestring d (ls.map (.linestring d))).Trace t ∧
      Behaves (fun _ h => avMultilinestring v h (a.offset + (i : Nat))) t (.done ()) := by
  obtain ⟨t, h1, h2⟩ := behaves_avParts (T := fun c t => (Geom.linestring d c).Trace t)
    (f := fun _ h => avLinestring v h 1) h hp fun c j x hs hx => behaves_avLinestring hs hx
  exact ⟨_, ⟨t, traceL_of_concat h1, rfl⟩, behaves_shell h 5 h2⟩

theorem behaves_avMultipolygon {d ck v a i ps} (h : Sees d ck v 3 0 a)
    (hp : PartsAt (PartsAt (PartsAt (CoordAt d ck))) a i ps) :
    ∃ t, (Geom.multi .multipolygon d (ps.map (.polygon d))).Trace t ∧
      Behaves (fun _ h => avMultipolygon v h (a.offset + (i : Nat))) t (.done ()) := by
  obtain ⟨t, h1, h2⟩ := behaves_avParts (T := fun c t => (Geom.polygon d c).Trace t)
    (f := fun _ h => avPolygon v h 1) h hp fun c j x hs hx => behaves_avPolygon hs hx
  exact ⟨_, ⟨t, traceL_of_concat h1, rfl⟩, behaves_shell h 6 h2⟩

/-- The function visiting one geometry of each type. -/
def avBody {σ} (v : AView) (h : Handler σ) (g : Int) : Int → M σ Unit :=
  if g = 1 then avPoint v h else if g = 2 then avLinestring v h 0 else if g = 3 then avPolygon v h 0
  else if g = 4 then avMultipoint v h else if g = 5 then avMultilinestring v h else avMultipolygon v h

theorem behaves_avBody {d ck v a i g x} (h : Sees d ck v (listDepth g) 0 a) (hp : GeomAt d ck a i g x) :
    ∃ t, x.Trace t ∧ Behaves (fun _ h => avBody v h g (a.offset + (i : Nat))) t (.done ()) := by
  cases hp with
  | point hp => exact behaves_avPoint h hp
  | linestring hp => exact behaves_avLinestring h hp
  | polygon hp => exact behaves_avPolygon h hp
  | multipoint hp => exact behaves_avMultipoint h hp
  | multilinestring hp => exact behaves_avMultilinestring h hp
  | multipolygon hp => exact behaves_avMultipolygon h hp

theorem visitNative_eq {σ} (v : AView) (h : Handler σ) {g : Int} (hg : 1 ≤ g ∧ g ≤ 6) (hv : v.schema.geometryType = g)
    (offset length : Int) : visitNative v h offset length = avFeatures v h (avBody v h g) offset length := by
  unfold visitNative avBody
  rw [hv]
  have h6 : g = 1 ∨ g = 2 ∨ g = 3 ∨ g = 4 ∨ g = 5 ∨ g = 6 := by omega
  rcases h6 with rfl | rfl | rfl | rfl | rfl | rfl <;> rfl

theorem avValid_of_valid {v : AView} {a i} (hv : a.buffers[0]? = some v.validity) (h : ValidAt a i) :
    avValid v (a.offset + (i : Nat)) = some true := by
  unfold avValid
  rcases h with h | ⟨bits, h, h0, hb⟩
  · rw [hv] at h; rw [Option.some.inj h]
  · rw [hv] at h
    rw [Option.some.inj h]
    dsimp only
    rw [if_pos (by omega)]
    exact hb
theorem avValid_of_null {v : AView} {a i} (hv : a.buffers[0]? = some v.validity) (h : NullAt a i) :
    avValid v (a.offset + (i : Nat)) = some false := by
  unfold avValid
  obtain ⟨bits, h, h0, hb⟩ := h
  rw [hv] at h
  rw [Option.some.inj h]
  dsimp only
  rw [if_pos (by omega)]
  exact hb

theorem behaves_avFeature {v : AView} {a : AArray} {i : Nat} {g : Geom} {body : ∀ σ : Type, Handler σ → Int → M σ Unit}
    (hv : avValid v (a.offset + (i : Nat)) = some true)
    (hb : ∃ t, g.Trace t ∧ Behaves (fun _ h => body _ h (a.offset + (i : Nat))) t (.done ())) :
    ∃ t, OptFeatureTrace (some g) t ∧ Behaves (fun _ h => avFeature v h (body _ h) (a.offset + (i : Nat))) t (.done ()) := by
  obtain ⟨t, h1, h2⟩ := hb
  refine ⟨_, ⟨t, h1, rfl⟩, ?_⟩
  have he : ∀ (σ : Type) (h : Handler σ), avFeature v h (body _ h) (a.offset + (i : Nat)) =
      (do h .featStart; body _ h (a.offset + (i : Nat)); h .featEnd) := by
    intro σ h; unfold avFeature; rw [hv]; rfl
  simp only [he]
  intro σ hd s
  exact Behaves.bind (Behaves.call .featStart) (f := fun _ h _ => _)
    (Behaves.bind h2 (f := fun _ _ _ => _) (Behaves.call .featEnd)) σ hd s

theorem behaves_avFeature_null {v : AView} {a : AArray} {i : Nat} {body : ∀ σ : Type, Handler σ → Int → M σ Unit}
    (hv : avValid v (a.offset + (i : Nat)) = some false) :
    ∃ t, OptFeatureTrace none t ∧ Behaves (fun _ h => avFeature v h (body _ h) (a.offset + (i : Nat))) t (.done ()) := by
  refine ⟨_, rfl, ?_⟩
  have he : ∀ (σ : Type) (h : Handler σ), avFeature v h (body _ h) (a.offset + (i : Nat)) =
      (do h .featStart; h .nullFeat; h .featEnd) := by
    intro σ h; unfold avFeature; rw [hv]; rfl
  simp only [he]
  intro σ hd s
  exact Behaves.bind (Behaves.call .featStart) (f := fun _ h _ => _)
    (Behaves.bind (Behaves.call .nullFeat) (f := fun _ _ _ => _) (Behaves.call .featEnd)) σ hd s

theorem featuresTrace_of_concat : ∀ {fs t}, Concat OptFeatureTrace fs t → FeaturesTrace fs t
  | [], _, h => h
  | _ :: _, _, ⟨t1, t2, h1, h2, h3⟩ => ⟨t1, t2, h1, featuresTrace_of_concat h2, h3⟩

theorem avLoop_append {σ} (f : Int → M σ Unit) : ∀ (n m : Nat) (i : Int),
    avLoop f (n + m) i = (avLoop f n i >>= fun _ => avLoop f m (i + n))
  | 0, m, i => by
    rw [Nat.zero_add, Int.natCast_zero, Int.add_zero]
    rfl
  | n + 1, m, i => by
    have he : i + 1 + (n : Int) = i + ((n + 1 : Nat) : Int) := by omega
    rw [show n + 1 + m = n + m + 1 by omega]
    simp only [avLoop, avLoop_append f n m (i + 1), he]
    funext s
    simp only [M.bind_run]
    cases f i s <;> rfl

/-! ## Comparing doubles -/

/-- The value of a magnitude, times 2^1074. -/
def magScaled (m : Nat) : Nat := if m / 2 ^ 52 = 0 then m % 2 ^ 52 else (m % 2 ^ 52 + 2 ^ 52) * 2 ^ (m / 2 ^ 52 - 1)

theorem magScaled_lt {m m' : Nat} (h : m < m') : magScaled m < magScaled m' := by
  unfold magScaled
  by_cases he : m / 2 ^ 52 = m' / 2 ^ 52
  · have hf : m % 2 ^ 52 < m' % 2 ^ 52 := by omega
    rw [← he]
    split
    · exact hf
    · exact Nat.mul_lt_mul_of_pos_right (by omega) (Nat.pow_pos (by decide))
  · have he : m / 2 ^ 52 < m' / 2 ^ 52 := by omega
    rw [if_neg (show ¬ m' / 2 ^ 52 = 0 by omega)]
    have h1 : 2 ^ 52 * 2 ^ (m' / 2 ^ 52 - 1) ≤ (m' % 2 ^ 52 + 2 ^ 52) * 2 ^ (m' / 2 ^ 52 - 1) :=
      Nat.mul_le_mul_right _ (by omega)
    have h2 : 2 ^ (m / 2 ^ 52) ≤ 2 ^ (m' / 2 ^ 52 - 1) := Nat.pow_le_pow_right (by decide) (by omega)
    have h3 : 2 ^ 52 * 2 ^ (m / 2 ^ 52) ≤ 2 ^ 52 * 2 ^ (m' / 2 ^ 52 - 1) := Nat.mul_le_mul_left _ h2
    refine Nat.lt_of_lt_of_le ?_ (Nat.le_trans h3 h1)
    split
    · rename_i h0
      rw [h0]
      omega
    · rename_i h0
      obtain ⟨e, he'⟩ : ∃ e, m / 2 ^ 52 = e + 1 := ⟨m / 2 ^ 52 - 1, by omega⟩
      rw [he', Nat.add_sub_cancel, show 2 ^ (e + 1) = 2 ^ e * 2 from Nat.pow_succ _ _, Nat.mul_comm (2 ^ e) 2, ← Nat.mul_assoc]
      exact Nat.mul_lt_mul_of_pos_right (by omega) (Nat.pow_pos (by decide))

theorem magScaled_lt_iff {m m' : Nat} : magScaled m < magScaled m' ↔ m < m' := by
  constructor
  · intro h
    rcases Nat.lt_trichotomy m m' with h' | h' | h'
    · exact h'
    · subst h'; omega
    · have := magScaled_lt h'; omega
  · exact magScaled_lt

theorem scaled_eq (x : Dbl) : Spec.Dbl.scaled x =
    if x.toNat < 2 ^ 63 then (magScaled (x.toNat % 2 ^ 63) : Int) else -(magScaled (x.toNat % 2 ^ 63) : Int) := by
  have hx := x.isLt
  have he : x.toNat / 2 ^ 52 % 2 ^ 11 = x.toNat % 2 ^ 63 / 2 ^ 52 := by omega
  have hf : x.toNat % 2 ^ 52 = x.toNat % 2 ^ 63 % 2 ^ 52 := by omega
  have hm : (if x.toNat / 2 ^ 52 % 2 ^ 11 = 0 then ((x.toNat % 2 ^ 52 : Nat) : Int)
      else ((x.toNat % 2 ^ 52 + 2 ^ 52 : Nat) : Int) * 2 ^ (x.toNat / 2 ^ 52 % 2 ^ 11 - 1)) = magScaled (x.toNat % 2 ^ 63) := by
    rw [he, hf]
    unfold magScaled
    split
    · rfl
    · simp
  unfold Spec.Dbl.scaled
  simp only []
  rw [hm]
  by_cases h : x.toNat < 2 ^ 63
  · rw [if_pos h, if_neg (by omega)]
  · rw [if_neg h, if_pos (by omega)]

theorem gt_iff (x y : Dbl) : x.gt y = true ↔ Spec.Dbl.Exceeds x y := by
  have hx := x.isLt
  have hy := y.isLt
  unfold Verif.Dbl.gt Spec.Dbl.Exceeds Spec.Dbl.IsNaN
  rw [scaled_eq, scaled_eq]
  simp only [Bool.and_eq_true, decide_eq_true_eq]
  have h1 := @magScaled_lt_iff (x.toNat % 2 ^ 63) (y.toNat % 2 ^ 63)
  have h2 := @magScaled_lt_iff (y.toNat % 2 ^ 63) (x.toNat % 2 ^ 63)
  have h3 := @magScaled_lt_iff 0 (y.toNat % 2 ^ 63)
  have h4 := @magScaled_lt_iff 0 (x.toNat % 2 ^ 63)
  have h0 : magScaled 0 = 0 := rfl
  rw [h0] at h3 h4
  have hx2 : x.toNat % 2 ^ 63 ≤ 0x7ff0000000000000 ↔ ¬ (x.toNat / 2 ^ 52 % 2 ^ 11 = 2047 ∧ x.toNat % 2 ^ 52 ≠ 0) := by omega
  have hy2 : y.toNat % 2 ^ 63 ≤ 0x7ff0000000000000 ↔ ¬ (y.toNat / 2 ^ 52 % 2 ^ 11 = 2047 ∧ y.toNat % 2 ^ 52 ≠ 0) := by omega
  rw [← hx2, ← hy2, and_assoc]
  refine and_congr Iff.rfl (and_congr Iff.rfl ?_)
  generalize magScaled (x.toNat % 2 ^ 63) = X at *
  generalize magScaled (y.toNat % 2 ^ 63) = Y at *
  generalize x.toNat % 2 ^ 63 = a at *
  generalize y.toNat % 2 ^ 63 = b at *
  split <;> split <;> omega

/-! ## Boxes -/

theorem boxValue_of {d : Dims} {v : AView} {a : AArray} {i : Nat} {lo hi : Coord} (he : CoordsExposed .separate v a) (hs : v.stride = 1)
    (hb : BoxAt d a i lo hi) {j x} (hx : (lo ++ hi)[j]? = some x) : avValue v (a.offset + (i : Nat)) j = some x := by
  obtain ⟨_, _, hb⟩ := hb
  obtain ⟨ch, hch, b, hbu, hf⟩ := hb j x hx
  unfold avValue
  rw [he j ch hch, hbu, hs]
  show f64At b (ch.offset + (a.offset + i) * 1) = _
  rw [Int.mul_one]
  exact hf

theorem behaves_avBox {v : AView} {a : AArray} {i : Nat} {xmin ymin xmax ymax : Dbl} (he : CoordsExposed .separate v a)
    (hs : v.stride = 1) (hn : v.nValues = 4) (hd : v.schema.dimensions = 1)
    (hb : BoxAt .xy a i [xmin, ymin] [xmax, ymax]) :
    ∃ t, (Geom.polygon .xy (if xmin.gt xmax || (ymin.gt ymax || false) then [] else [rectangle xmin ymin xmax ymax])).Trace t ∧
      Behaves (fun _ h => avBox v h (a.offset + (i : Nat))) t (.done ()) := by
  have v0 := boxValue_of he hs hb (j := 0) (x := xmin) rfl
  have v1 := boxValue_of he hs hb (j := 1) (x := ymin) rfl
  have v2 := boxValue_of he hs hb (j := 2) (x := xmax) rfl
  have v3 := boxValue_of he hs hb (j := 3) (x := ymax) rfl
  have hN : v.nValues.toNat / 2 = 2 := by rw [hn]; rfl
  have hE : avBoxEmpty v (a.offset + (i : Nat)) 2 2 0 = some (xmin.gt xmax || (ymin.gt ymax || false)) := by
    simp [avBoxEmpty, v0, v1, v2, v3]
  have hR : avBoxRing v (a.offset + (i : Nat)) 2 = some (rectangle xmin ymin xmax ymax) := by
    simp [avBoxRing, v0, v1, v2, v3, rectangle]
  cases hc : (xmin.gt xmax || (ymin.gt ymax || false)) with
  | true =>
    rw [hc] at hE
    refine ⟨_, ⟨[], rfl, rfl⟩, ?_⟩
    have heq : ∀ (σ : Type) (h : Handler σ), avBox v h (a.offset + (i : Nat)) = (do h (.geomStart 3 1); h .geomEnd) := by
      intro σ h
      unfold avBox avGeomStart
      simp only [hN, hE, hd]
      rfl
    simp only [heq]
    intro σ hd s
    exact Behaves.bind (Behaves.call (.geomStart 3 1)) (f := fun _ _ _ => _) (Behaves.call .geomEnd) σ hd s
  | false =>
    rw [hc] at hE
    refine ⟨_, ⟨_, ⟨_, [], chunked_one _ _, rfl, rfl⟩, rfl⟩, ?_⟩
    have heq : ∀ (σ : Type) (h : Handler σ), avBox v h (a.offset + (i : Nat)) =
        (do h (.geomStart 3 1); h .ringStart; h (.coords 2 (rectangle xmin ymin xmax ymax)); h .ringEnd; h .geomEnd) := by
      intro σ h
      unfold avBox avGeomStart
      simp only [hN, hE, hR, hd]
      rfl
    simp only [heq]
    intro σ hd s
    exact Behaves.bind (Behaves.call (.geomStart 3 1)) (f := fun _ _ _ => _)
      (Behaves.bind (Behaves.call .ringStart) (f := fun _ _ _ => _)
        (Behaves.bind (Behaves.call _) (f := fun _ _ _ => _)
          (Behaves.bind (Behaves.call .ringEnd) (f := fun _ _ _ => _) (Behaves.call .geomEnd)))) σ hd s

end Verif
