import Verif.Spec.BinArray
/-!
# Canonical binary arrays
-/
namespace Verif
open Spec

/-- Start offsets of the elements, the first at `base`. -/
def starts : Nat → List (Option (List Byte)) → List Int
  | _, [] => []
  | base, e :: es => (base : Int) :: starts (base + (e.getD []).length) es

/-- The array the writers produce for a list of elements. -/
def canonArray (els : List (Option (List Byte))) : BinArray :=
  { length := els.length, nullCount := (els.filter Option.isNone).length,
    validity := if els.all Option.isSome then none else some (els.map Option.isSome),
    offsets := starts 0 els ++ [((elemBytes els).length : Int)], data := elemBytes els }

theorem length_starts (els : List (Option (List Byte))) : ∀ base, (starts base els).length = els.length := by
  induction els with
  | nil => intro base; rfl
  | cons e es ih => intro base; simp [starts, ih]

theorem starts_append (a b : List (Option (List Byte))) : ∀ base,
    starts base (a ++ b) = starts base a ++ starts (base + (elemBytes a).length) b := by
  induction a with
  | nil => intro base; simp [starts, elemBytes]
  | cons e es ih =>
    intro base
    simp only [List.cons_append, starts, ih, elemBytes, List.flatMap_cons, List.length_append]
    rw [Nat.add_assoc]

theorem elemBytes_append (a b : List (Option (List Byte))) : elemBytes (a ++ b) = elemBytes a ++ elemBytes b := by
  simp [elemBytes]

theorem canon_represents (els : List (Option (List Byte))) : Represents (canonArray els) els := by
  have hoff : ∀ i, i ≤ els.length →
      (canonArray els).offsets[i]? = some ((elemBytes (els.take i)).length : Int) := by
    intro i hi
    simp only [canonArray]
    by_cases h : i = els.length
    · subst h
      rw [List.getElem?_append_right (by rw [length_starts]; omega), length_starts, Nat.sub_self, List.take_length]; rfl
    · rw [List.getElem?_append_left (by rw [length_starts]; omega)]
      have hs : els = els.take i ++ els.drop i := (List.take_append_drop i els).symm
      have hlt : (els.take i).length = i := by rw [List.length_take]; omega
      obtain ⟨e, r, he⟩ := List.exists_cons_of_ne_nil (l := els.drop i) (by intro h0; rw [List.drop_eq_nil_iff] at h0; omega)
      have : starts 0 els = starts 0 (els.take i ++ els.drop i) := by rw [← hs]
      rw [this, starts_append, List.getElem?_append_right (by rw [length_starts, hlt]; omega), length_starts, hlt, Nat.sub_self, he]
      simp [starts]
  refine ⟨rfl, rfl, ?_, ?_, ?_, ?_, ?_⟩
  · simp [canonArray, length_starts]
  · rw [hoff 0 (Nat.zero_le _)]; simp [elemBytes]
  · rw [hoff _ (Nat.le_refl _), List.take_length]; rfl
  · intro i e hi
    have hlt := (List.getElem?_eq_some_iff.mp hi).1
    have h1 : els.take (i + 1) = els.take i ++ [e] := by
      rw [List.take_add_one, hi]; rfl
    have h2 : els = els.take i ++ [e] ++ els.drop (i + 1) := by
      rw [← h1, List.take_append_drop]
    have h3 : elemBytes (els.take (i + 1)) = elemBytes (els.take i) ++ e.getD [] := by
      rw [h1, elemBytes_append]; simp [elemBytes]
    have h4 : (canonArray els).data = elemBytes (els.take i) ++ (e.getD [] ++ elemBytes (els.drop (i + 1))) := by
      show elemBytes els = _
      conv => lhs; rw [h2]
      rw [elemBytes_append, elemBytes_append]
      simp [elemBytes]
    refine ⟨_, _, hoff i (by omega), hoff (i + 1) (by omega), ?_, ?_, ?_⟩
    · rw [h3]; simp
    · rw [h3, h4]; simp only [List.length_append]; omega
    · rw [h3, h4, List.drop_left, List.length_append, Nat.add_sub_cancel_left, List.take_left]
  · simp only [canonArray]
    by_cases h : els.all Option.isSome
    · rw [if_pos h]; simpa using h
    · rw [if_neg h]

theorem filter_isNone_zero {els : List (Option (List Byte))} (h : els.all Option.isSome) :
    (els.filter Option.isNone).length = 0 := by
  rw [List.length_eq_zero_iff, List.filter_eq_nil_iff]
  intro e he
  have := List.all_eq_true.mp h e he
  cases e with
  | none => simp at this
  | some _ => simp

theorem canon_finish (els : List (Option (List Byte))) : finishBuilding (canonArray els) = some (.ok ()) := by
  have hr := canon_represents els
  unfold finishBuilding
  have hl : (canonArray els).length = els.length := rfl
  rw [hr.first, hl, hr.last, hr.offsetsLength]
  have h1 : ¬ (¬ ((canonArray els).nullCount = 0 ∧
      (match (canonArray els).validity with | none => 0 | some l => (l.length + 7) / 8) = 0) ∧
      (match (canonArray els).validity with | none => 0 | some l => (l.length + 7) / 8) < (els.length + 7) / 8) := by
    by_cases h : els.all Option.isSome
    · have e1 : (canonArray els).validity = none := by simp only [canonArray]; rw [if_pos h]
      have e2 : (canonArray els).nullCount = 0 := filter_isNone_zero h
      rw [e1, e2]; simp
    · have e1 : (canonArray els).validity = some (els.map Option.isSome) := by simp only [canonArray]; rw [if_neg h]
      rw [e1]; simp
  refine (if_neg h1).trans ?_
  rw [if_neg (by omega), if_neg (by omega)]
  simp

end Verif
