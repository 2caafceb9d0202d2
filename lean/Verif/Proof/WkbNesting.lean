import Verif.Spec.Nesting
import Verif.Proof.WkbWriter
/-!
# The WKB writer is memory safe on sequences that close only what they opened
-/
namespace Verif
open Spec

/-- Table entries of the open levels. -/
def Ent : List Bool → (Nat → Nat) → (Nat → Int) → Nat → Prop
  | [], _, _, _ => True
  | p :: st, gt, sp, n =>
    (if p then gt (st.length + 1) = 1
     else gt (st.length + 1) ≠ 1 ∧ 0 ≤ sp (st.length + 1) ∧ (sp (st.length + 1)).toNat + 4 ≤ n) ∧ Ent st gt sp n

theorem Ent.mono : ∀ {st : List Bool} {gt gt' : Nat → Nat} {sp sp' : Nat → Int} {n n' : Nat}, Ent st gt sp n →
    (∀ i, i ≤ st.length → gt' i = gt i) → (∀ i, i ≤ st.length → sp' i = sp i) → n ≤ n' → Ent st gt' sp' n'
  | [], _, _, _, _, _, _, _, _, _, _ => trivial
  | p :: st, gt, gt', sp, sp', n, n', h, h1, h2, h3 => by
    refine ⟨?_, Ent.mono h.2 (fun i hi => h1 i (Nat.le_succ_of_le hi)) (fun i hi => h2 i (Nat.le_succ_of_le hi)) h3⟩
    have := h.1
    rw [h1 _ (Nat.le_refl _ : st.length + 1 ≤ (p :: st).length), h2 _ (Nat.le_refl _ : st.length + 1 ≤ (p :: st).length)]
    cases p with
    | true => exact this
    | false => simp only [Bool.false_eq_true, if_false] at this ⊢; exact ⟨this.1, this.2.1, by omega⟩

structure NInv (st : List Bool) (s : WkbW) : Prop where
  level : s.level = (st.length : Int)
  length : 1 ≤ s.length
  ent : Ent st s.geometryType s.sizePos s.values.length

theorem patch_safe {s : WkbW} {l : Nat} (h0 : 0 ≤ s.sizePos l) (h1 : (s.sizePos l).toNat + 4 ≤ s.values.length) :
    ∃ v, wkbPatch l s = .ok () { s with values := v } ∧ v.length = s.values.length := by
  unfold wkbPatch
  have hb : (leBytes 4 (s.size l)).length = 4 := rfl
  rw [if_neg (by omega)]
  simp only [bufWrite]
  rw [if_pos (by rw [hb]; exact h1)]
  refine ⟨_, rfl, ?_⟩
  simp only [List.length_append, List.length_take, List.length_drop, hb]
  omega

/-- One callback. -/
def NStep (st : List Bool) (e : Event) : Option (List Bool) :=
  match e with
  | .featStart => some []
  | .geomStart gt _ => some (decide (gt = 1) :: st)
  | .ringStart => some (false :: st)
  | .ringEnd => match st with
    | false :: st' => some st'
    | _ => none
  | .geomEnd => match st with
    | _ :: st' => some st'
    | [] => none
  | _ => some st

theorem closesMatch_cons {st : List Bool} {e : Event} {t : List Event} (h : closesMatch st (e :: t)) :
    ∃ st', NStep st e = some st' ∧ closesMatch st' t := by
  cases e with
  | ringEnd =>
    match st, h with
    | false :: st', h => exact ⟨_, rfl, h⟩
  | geomEnd =>
    match st, h with
    | p :: st', h => exact ⟨_, rfl, h⟩
  | _ => exact ⟨_, rfl, h⟩

theorem checkLevel_cases {st : List Bool} {s : WkbW} (h : s.level = (st.length : Int)) :
    (st.length ≤ 30 ∧ wkbCheckLevel s = .ok st.length s) ∨ wkbCheckLevel s = .err EINVAL s := by
  by_cases hl : st.length ≤ 30
  · exact Or.inl ⟨hl, checkLevel_run h hl⟩
  · right
    unfold wkbCheckLevel
    rw [if_neg (by omega)]

theorem appendNull_some {b : Option (List Bool)} {n : Nat} (h : 1 ≤ n) : ∃ l, bitsAppendNull b n = some l := by
  cases b with
  | none => exact ⟨_, by simp only [bitsAppendNull]; rw [if_neg (by omega)]⟩
  | some l => exact ⟨_, rfl⟩

theorem nstep {st st' : List Bool} {e : Event} {s : WkbW} (hi : NInv st s) (hs : NStep st e = some st') :
    (∃ s', wkbHandler e s = .ok () s' ∧ NInv st' s') ∨ ∃ rc s', wkbHandler e s = .err rc s' := by
  have hlv := hi.level
  cases e with
  | featStart =>
    simp only [NStep, Option.some.injEq] at hs; subst hs
    simp only [wkbHandler, wkbFeatStart]
    split
    · exact Or.inr ⟨_, _, rfl⟩
    · exact Or.inl ⟨_, rfl, rfl, by simp, trivial⟩
  | nullFeat =>
    simp only [NStep, Option.some.injEq] at hs; subst hs
    exact Or.inl ⟨_, rfl, hi.level, hi.length, hi.ent⟩
  | geomStart gt dims =>
    simp only [NStep, Option.some.injEq] at hs; subst hs
    simp only [wkbHandler, wkbGeomStart, wkbAppend]
    rcases checkLevel_cases hlv with ⟨hl, hc⟩ | hc
    · left
      rw [M.bind_ok hc, M.bind_ok (levelEntry_run (by omega) _), M.bind_ok (M.modify_run _ _), M.bind_ok (M.modify_run _ _), M.bind_ok (M.modify_run _ _)]
      by_cases hg : gt = 1
      · subst hg
        refine ⟨_, rfl, ?_, hi.length, ?_⟩
        · simp only [List.length_cons]; omega
        · refine ⟨by simp [upd_same], hi.ent.mono ?_ (fun _ _ => rfl) (by simp)⟩
          intro i h; exact upd_ne _ _ (by omega)
      · rw [if_pos hg]
        refine ⟨_, rfl, ?_, hi.length, ?_⟩
        · simp only [List.length_cons]; omega
        · simp only []
          refine ⟨?_, hi.ent.mono ?_ ?_ (by simp only [List.length_append]; omega)⟩
          · rw [decide_eq_false hg]
            simp only [Bool.false_eq_true, if_false, upd_same, List.length_append]
            refine ⟨hg, by omega, ?_⟩
            have : (leBytes 4 0).length = 4 := rfl
            omega
          · intro i h; exact upd_ne _ _ (by omega)
          · intro i h; exact upd_ne _ _ (by omega)
    · exact Or.inr ⟨_, _, M.bind_err hc⟩
  | ringStart =>
    simp only [NStep, Option.some.injEq] at hs; subst hs
    simp only [wkbHandler, wkbRingStart]
    rcases checkLevel_cases hlv with ⟨hl, hc⟩ | hc
    · left
      rw [M.bind_ok hc, M.bind_ok (levelEntry_run (by omega) _), M.bind_ok (M.modify_run _ _)]
      refine ⟨_, rfl, ?_, hi.length, ?_⟩
      · simp only [List.length_cons]; omega
      · simp only []
        refine ⟨?_, hi.ent.mono ?_ ?_ (by simp only [List.length_append]; omega)⟩
        · simp only [Bool.false_eq_true, if_false, upd_same, List.length_append]
          refine ⟨by decide, by omega, ?_⟩
          have : (leBytes 4 0).length = 4 := rfl
          omega
        · intro i h; exact upd_ne _ _ (by omega)
        · intro i h; exact upd_ne _ _ (by omega)
    · exact Or.inr ⟨_, _, M.bind_err hc⟩
  | coords nv cs =>
    simp only [NStep, Option.some.injEq] at hs; subst hs
    simp only [wkbHandler, wkbCoordsCb]
    rcases checkLevel_cases hlv with ⟨hl, hc⟩ | hc
    · left
      rw [M.bind_ok hc, M.bind_ok (levelEntry_run (by omega) _), M.bind_ok (M.modify_run _ _)]
      exact ⟨_, rfl, hi.level, hi.length, hi.ent.mono (fun _ _ => rfl) (fun _ _ => rfl) (by simp)⟩
    · exact Or.inr ⟨_, _, M.bind_err hc⟩
  | ringEnd =>
    match st, hs with
    | false :: st1, hs =>
      simp only [NStep, Option.some.injEq] at hs; subst hs
      simp only [wkbHandler, wkbRingEnd]
      rcases checkLevel_cases hlv with ⟨hl, hc⟩ | hc
      · rw [M.bind_ok hc, M.bind_ok (levelEntry_run (by omega) _), M.bind_ok (M.get_run _)]
        have he := hi.ent.1
        simp only [Bool.false_eq_true, if_false] at he
        split
        · exact Or.inr ⟨_, _, rfl⟩
        · obtain ⟨v, h1, h2⟩ := patch_safe he.2.1 he.2.2
          left
          refine ⟨_, M.bind_ok h1, ?_, hi.length, hi.ent.2.mono (fun _ _ => rfl) (fun _ _ => rfl) (by rw [← h2]; exact Nat.le_refl _)⟩
          simp only [List.length_cons] at hlv ⊢; omega
      · exact Or.inr ⟨_, _, M.bind_err hc⟩
  | geomEnd =>
    match st, hs with
    | p :: st1, hs =>
      simp only [NStep, Option.some.injEq] at hs; subst hs
      simp only [wkbHandler, wkbGeomEnd]
      rcases checkLevel_cases hlv with ⟨hl, hc⟩ | hc
      · rw [M.bind_ok hc, M.bind_ok (levelEntry_run (by omega) _), M.bind_ok (M.get_run _)]
        have he := hi.ent.1
        split
        · exact Or.inr ⟨_, _, rfl⟩
        · split
          · rename_i hg
            cases p with
            | true => exact absurd he (by simpa using hg)
            | false =>
              simp only [Bool.false_eq_true, if_false] at he
              obtain ⟨v, h1, h2⟩ := patch_safe he.2.1 he.2.2
              left
              refine ⟨_, M.bind_ok h1, ?_, hi.length, hi.ent.2.mono (fun _ _ => rfl) (fun _ _ => rfl) (by rw [← h2]; exact Nat.le_refl _)⟩
              simp only [List.length_cons] at hlv ⊢; omega
          · split
            · generalize nvals (s.dimensions (p :: st1).length) = nv
              cases nv with
              | none => exact Or.inr ⟨_, _, rfl⟩
              | some n =>
                left
                refine ⟨_, rfl, ?_, hi.length, hi.ent.2.mono (fun _ _ => rfl) (fun _ _ => rfl) (by simp)⟩
                simp only [List.length_cons] at hlv ⊢; omega
            · left
              refine ⟨_, rfl, ?_, hi.length, hi.ent.2.mono (fun _ _ => rfl) (fun _ _ => rfl) (Nat.le_refl _)⟩
              simp only [List.length_cons] at hlv ⊢; omega
      · exact Or.inr ⟨_, _, M.bind_err hc⟩
  | featEnd =>
    simp only [NStep, Option.some.injEq] at hs; subst hs
    simp only [wkbHandler, wkbFeatEnd]
    left
    split
    · obtain ⟨l, hl⟩ := appendNull_some (b := s.validity) hi.length
      rw [hl]
      exact ⟨_, rfl, hi.level, hi.length, hi.ent⟩
    · exact ⟨_, rfl, hi.level, hi.length, hi.ent⟩

theorem nfeed : ∀ (t : List Event) (st : List Bool) (s : WkbW), NInv st s → closesMatch st t → (feed wkbHandler t s).Safe
  | [], _, _, _, _ => trivial
  | e :: t, st, s, hi, hc => by
    obtain ⟨st', h1, h2⟩ := closesMatch_cons hc
    rcases nstep hi h1 with ⟨s', h3, h4⟩ | ⟨rc, s', h3⟩
    · rw [feed_cons_ok h3]; exact nfeed t st' s' h4 h2
    · simp only [feed, h3]; trivial

/-- A feature start puts any state in order. -/
theorem nfeature (t : List Event) (s : WkbW) (hc : closesMatch [] t) : (feed wkbHandler (.featStart :: t) s).Safe := by
  simp only [feed]
  have : (∃ s', wkbHandler .featStart s = .ok () s' ∧ NInv [] s') ∨ ∃ rc s', wkbHandler .featStart s = .err rc s' := by
    simp only [wkbHandler, wkbFeatStart]
    split
    · exact Or.inr ⟨_, _, rfl⟩
    · exact Or.inl ⟨_, rfl, rfl, by simp, trivial⟩
  rcases this with ⟨s', h3, h4⟩ | ⟨rc, s', h3⟩
  · rw [h3]; exact nfeed t [] s' h4 hc
  · rw [h3]; trivial

end Verif
