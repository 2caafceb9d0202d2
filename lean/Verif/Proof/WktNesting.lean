import Verif.Proof.WktWriter
import Verif.Proof.WkbNesting
import Verif.Proof.Hoare
/-!
# The WKT writer is memory safe on any sequence of callbacks after a feature start
-/
namespace Verif
open Spec

/-- Holds from the first feature start on. -/
structure WktW.Sane (s : WktW) : Prop where
  length : 1 ≤ s.length
  start : 0 ≤ s.featStart

/-- Free of undefined behaviour, and sane whatever the outcome. -/
abbrev Sound {α : Type} (r : Res WktW α) : Prop := r.Post (fun _ s => s.Sane) (fun _ s => s.Sane)

theorem Grow.sound {s txt P} {r : Res WktW Unit} (hs : s.Sane) (h : Grow s txt P r) : Sound r := by
  cases r with
  | ok a s' => exact ⟨h.2.1.length ▸ hs.length, h.2.1.featStart ▸ hs.start⟩
  | err rc s' => exact ⟨h.2.2.2.length ▸ hs.length, h.2.2.2.featStart ▸ hs.start⟩
  | ub => exact h

theorem write_sound (bs : List Byte) {s : WktW} (hs : s.Sane) : Sound (wktWrite bs s) := by
  obtain ⟨cap, h⟩ := write_run bs s
  rw [h]
  exact ⟨hs.1, hs.2⟩

theorem check_sound {s : WktW} (hs : s.Sane) :
    (wktCheckLevel s).Post (fun (l : Nat) s' => l ≤ 31 ∧ s'.level = (l : Int) ∧ s = s') (fun _ s' => s'.Sane) := by
  unfold wktCheckLevel
  split
  · rename_i h
    exact ⟨by omega, by omega, rfl⟩
  · exact hs

theorem dims_sound (d : Nat) {s : WktW} (hs : s.Sane) : Sound (wktDims d s) := by
  unfold wktDims
  split
  · exact hs
  split
  · exact write_sound _ hs
  split
  · exact write_sound _ hs
  split
  · exact write_sound _ hs
  · exact hs

theorem tag_sound (gt d : Nat) {s : WktW} (hs : s.Sane) : Sound (wktTag gt d s) := by
  unfold wktTag
  split
  · exact hs
  · exact post_bind (write_sound _ hs) fun _ s1 h1 => post_bind (dims_sound d h1) fun _ s2 h2 => write_sound _ h2

theorem before_sound {l : Nat} (hl : l ≤ 31) {z : M WktW Unit} (hz : ∀ s, s.Sane → Sound (z s)) {s : WktW} (hs : s.Sane) :
    Sound (wktBefore l z s) := by
  unfold wktBefore
  refine post_bind (Q := fun _ s' => s'.Sane) ?_ ?_
  · unfold wktOuter
    split
    · rw [M.bind_ok (levelEntry_run (by omega) _)]; exact hs
    · exact hs
  · intro n s1 h1
    cases n with
    | none => exact hz s1 h1
    | some n =>
      simp only []
      split
      · exact write_sound _ h1
      · exact write_sound _ h1

theorem wktOpen_sound {l gt : Nat} (hl : l ≤ 31) {s : WktW} (hs : s.Sane) : Sound (wktOpen l gt s) := by
  rw [open_run hl]
  exact ⟨hs.1, hs.2⟩

theorem handler_sound {print : Nat → Dbl → List Byte} (hp : ∀ n x, (print n x).length ≤ 40) (e : Event)
    (he : ∀ nv cs, e = .coords nv cs → 1 ≤ nv ∧ ∀ c ∈ cs, c.length = nv) {s : WktW} (hs : s.Sane) : Sound (wktHandler print e s) := by
  cases e with
  | featStart =>
    simp only [wktHandler, wktFeatStart]
    split
    · exact ⟨by simp, Int.natCast_nonneg _⟩
    · exact ⟨by simp, Int.natCast_nonneg _⟩
  | nullFeat => exact ⟨hs.1, hs.2⟩
  | geomStart gt dims =>
    simp only [wktHandler, wktGeomStart]
    rw [M.bind_ok (M.modify_run _ _)]
    refine post_bind (check_sound ⟨hs.1, hs.2⟩) ?_
    rintro l s1 ⟨hl, -, rfl⟩
    refine post_bind (before_sound (z := pure ()) hl (fun s h => h) ⟨hs.1, hs.2⟩) ?_
    intro _ s2 h2
    rw [M.bind_ok (M.get_run _)]
    refine post_bind (Q := fun _ s' => s'.Sane) ?_ (fun _ s3 h3 => wktOpen_sound hl h3)
    split
    · exact tag_sound _ _ h2
    · exact h2
  | ringStart =>
    simp only [wktHandler, wktRingStart]
    rw [M.bind_ok (M.modify_run _ _)]
    refine post_bind (check_sound ⟨hs.1, hs.2⟩) ?_
    rintro l s1 ⟨hl, -, rfl⟩
    refine post_bind (before_sound hl (fun s h => write_sound _ h) ⟨hs.1, hs.2⟩) ?_
    intro _ s2 h2
    exact wktOpen_sound hl h2
  | coords nv cs =>
    obtain ⟨h1, h2⟩ := he nv cs rfl
    cases cs with
    | nil => exact hs
    | cons c cs =>
      by_cases hl : 0 ≤ s.level ∧ s.level ≤ 31
      · exact (coords_run hp (l := s.level.toNat) (c :: cs) s h2 h1 (by omega) (by omega)).sound hs
      · simp only [wktHandler, wktCoords]
        have : wktCheckLevel s = .err EINVAL s := by unfold wktCheckLevel; rw [if_neg hl]
        rw [M.bind_err this]
        exact hs
  | ringEnd =>
    by_cases hl : 0 ≤ s.level ∧ s.level ≤ 31
    · obtain ⟨cap, h⟩ := wktRingEnd_run print (s := s) (l := s.level.toNat) (by omega) (by omega)
      rw [h]; exact ⟨hs.1, hs.2⟩
    · simp only [wktHandler, wktRingEnd]
      have : wktCheckLevel s = .err EINVAL s := by unfold wktCheckLevel; rw [if_neg hl]
      rw [M.bind_err this]
      exact hs
  | geomEnd =>
    by_cases hl : 0 ≤ s.level ∧ s.level ≤ 31
    · obtain ⟨cap, h⟩ := wktGeomEnd_run print (s := s) (l := s.level.toNat) (by omega) (by omega)
      rw [h]; exact ⟨hs.1, hs.2⟩
    · simp only [wktHandler, wktGeomEnd]
      have : wktCheckLevel s = .err EINVAL s := by unfold wktCheckLevel; rw [if_neg hl]
      rw [M.bind_err this]
      exact hs
  | featEnd =>
    simp only [wktHandler, wktFeatEnd]
    split
    · obtain ⟨l, hl⟩ := appendNull_some (b := s.validity) hs.length
      rw [hl]
      exact ⟨hs.1, hs.2⟩
    · cases s.validity with
      | some l => exact ⟨hs.1, hs.2⟩
      | none =>
        simp only []
        split
        · rw [if_neg (by have := hs.2; omega)]
          exact ⟨hs.1, hs.2⟩
        · exact hs

end Verif
