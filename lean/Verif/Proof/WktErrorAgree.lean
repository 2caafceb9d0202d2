import Verif.Model.WktError
/-!
# The reader with messages accepts what the reader with callbacks accepts
-/
namespace Verif

theorem Ep.bind_run {α β : Type} (e : Ep α) (f : α → Ep β) (r : WktR) : (e >>= f) r = match e r with
    | .ok a r' => f a r'
    | .err w k => .err w k
    | .ub => .ub := rfl

theorem Ep.of_run {α : Type} (w : WkWant) (m : M WktR α) (r : WktR) : Ep.of w m r = match m r with
    | .ok a r' => .ok a r'
    | .err _ r' => .err w r'.pos
    | .ub => .ub := rfl

/-- The visitor never fails. -/
def EpAccepts {σ : Type} (h : Handler σ) : Prop := ∀ e s, ∃ s', h e s = .ok () s'

/-- Same state and result if both succeed, and both fail or neither. -/
def EpAgreeRes {σ α : Type} (x : EpRes α) (y : Res σ (α × WktR)) : Prop :=
  match x with
  | .ok a r' => ∃ s', y = .ok (a, r') s'
  | .err _ _ => ∃ rc s', y = .err rc s'
  | .ub => y = .ub

def EpAgree {σ α : Type} (e : Ep α) (m : Rd σ α) : Prop := ∀ r s, EpAgreeRes (e r) (m r s)

section
variable {σ α β : Type}

theorem EpAgree.bind {e : Ep α} {m : Rd σ α} {f : α → Ep β} {g : α → Rd σ β} (h : EpAgree e m) (h2 : ∀ a, EpAgree (f a) (g a)) :
    EpAgree (e >>= f) (m >>= g) := by
  intro r s
  show EpAgreeRes (match e r with | .ok a r' => f a r' | .err w k => .err w k | .ub => .ub) ((m r >>= fun x => g x.1 x.2) s)
  have hr := h r s
  cases he : e r with
  | ok a r' =>
    rw [he] at hr
    obtain ⟨s', hs⟩ := hr
    rw [M.bind_ok hs]
    exact h2 a r' s'
  | err w k =>
    rw [he] at hr
    obtain ⟨rc, s', hs⟩ := hr
    exact ⟨rc, s', M.bind_err hs⟩
  | ub =>
    rw [he] at hr
    exact M.bind_ub hr

theorem EpAgree.pure (a : α) : EpAgree (Pure.pure a) (Pure.pure a : Rd σ α) := fun _ s => ⟨s, rfl⟩

theorem EpAgree.of (w : WkWant) (m : M WktR α) : EpAgree (Ep.of w m) (Rd.of m : Rd σ α) := by
  intro r s
  unfold Ep.of Rd.of
  cases m r with
  | ok a r' => exact ⟨s, rfl⟩
  | err rc r' => exact ⟨rc, s, rfl⟩
  | ub => exact rfl

theorem EpAgree.ub : EpAgree (fun _ => .ub : Ep α) (fun _ => M.undef : Rd σ α) := fun _ _ => rfl

theorem EpAgree.call {h : Handler σ} (hh : EpAccepts h) (ev : Event) {e : Ep Unit} {k : Rd σ Unit} (he : EpAgree e k) :
    EpAgree e (Rd.call h ev >>= fun _ => k) := by
  intro r s
  obtain ⟨s', hs⟩ := hh ev s
  have : Rd.call h ev r s = .ok ((), r) s' := by
    unfold Rd.call
    rw [M.bind_ok hs]; rfl
  show EpAgreeRes _ ((Rd.call h ev r >>= fun x => k x.2) s)
  rw [M.bind_ok this]
  exact he r s'

/-- A callback at the end changes nothing either. -/
theorem EpAgree.last {h : Handler σ} (hh : EpAccepts h) (ev : Event) {e : Ep Unit} {k : Rd σ Unit} (he : EpAgree e k) :
    EpAgree e (k >>= fun _ => Rd.call h ev) := by
  intro r s
  have hr := he r s
  show EpAgreeRes _ ((k r >>= fun x => Rd.call h ev x.2) s)
  cases hx : e r with
  | ok a r' =>
    rw [hx] at hr
    obtain ⟨s1, hs1⟩ := hr
    obtain ⟨s', hs⟩ := hh ev s1
    refine ⟨s', ?_⟩
    rw [M.bind_ok hs1]
    unfold Rd.call
    rw [M.bind_ok hs]; rfl
  | err w k' =>
    rw [hx] at hr
    obtain ⟨rc, s', hs⟩ := hr
    exact ⟨rc, s', M.bind_err hs⟩
  | ub =>
    rw [hx] at hr
    exact M.bind_ub hr

theorem EpAgree.around {h : Handler σ} (hh : EpAccepts h) (a b : Event) {e : Ep Unit} {k : Rd σ Unit} (he : EpAgree e k) :
    EpAgree e (do Rd.call h a; k; Rd.call h b) := EpAgree.call hh a (EpAgree.last hh b he)

theorem epagree_flush {h : Handler σ} (hh : EpAccepts h) : EpAgree epFlush (wkrFlush h) := by
  intro r s
  unfold epFlush wkrFlush
  by_cases h0 : 0 < r.n
  · rw [if_pos h0, if_pos h0]
    by_cases h1 : r.nv ≤ 4 ∧ r.n ≤ 64
    · rw [if_pos h1, if_pos h1]
      obtain ⟨s', hs⟩ := hh (.coords r.nv r.cached) s
      refine ⟨s', ?_⟩
      rw [M.bind_ok hs]; rfl
    · rw [if_neg h1, if_neg h1]; exact rfl
  · rw [if_neg h0, if_neg h0]; exact ⟨s, rfl⟩

theorem epagree_ordinates (parse : List Byte → Option Dbl) (blob : List Byte) : ∀ k i,
    EpAgree (epOrdinates parse blob i k) (Rd.of (wkrOrdinates parse blob i k) : Rd σ Unit) := by
  intro k
  induction k with
  | zero => intro i; exact fun r s => ⟨s, rfl⟩
  | succ k ih =>
    intro i r s
    have hl : epOrdinates parse blob i (k + 1) r = (match wkrSpace blob r with
        | .ok _ r' => (match wkrOrdinate parse blob i r' with
          | .ok _ r'' => epOrdinates parse blob (i + 1) k r''
          | .err _ r'' => .err .number r''.pos
          | .ub => .ub)
        | .err _ r' => .err .whitespace r'.pos
        | .ub => .ub) := by
      rw [epOrdinates, Ep.bind_run, Ep.of_run]
      cases wkrSpace blob r with
      | ub => rfl
      | err rc r' => rfl
      | ok a r' =>
        simp only []
        rw [Ep.bind_run, Ep.of_run]
        cases wkrOrdinate parse blob i r' <;> rfl
    rw [hl]
    unfold Rd.of
    rw [wkrOrdinates, M.bind_run]
    cases wkrSpace blob r with
    | ub => exact rfl
    | err rc r' => exact ⟨rc, s, rfl⟩
    | ok a r' =>
      simp only []
      rw [M.bind_run]
      cases wkrOrdinate parse blob i r' with
      | ub => exact rfl
      | err rc r'' => exact ⟨rc, s, rfl⟩
      | ok a r'' => exact ih (i + 1) r'' s

variable {parse : List Byte → Option Dbl} {blob : List Byte} {h : Handler σ}

theorem epagree_coordinate (hh : EpAccepts h) : EpAgree (epCoordinate parse blob) (wkrCoordinate parse blob h) := by
  refine EpAgree.bind (EpAgree.of _ _) fun n => ?_
  refine EpAgree.bind ?_ fun _ => ?_
  · split
    · exact epagree_flush hh
    · exact EpAgree.pure _
  refine EpAgree.bind (EpAgree.of _ _) fun _ => ?_
  refine EpAgree.bind (EpAgree.of _ _) fun nv => ?_
  exact EpAgree.bind (epagree_ordinates _ _ _ _) fun _ => EpAgree.of _ _

theorem epagree_loop {e : Ep Unit} {m : Rd σ Unit} (h : EpAgree e m) : ∀ fuel, EpAgree (epLoop blob e fuel) (wkrLoop blob m fuel) := by
  intro fuel
  induction fuel with
  | zero => exact EpAgree.ub
  | succ f ih =>
    refine EpAgree.bind (EpAgree.of _ _) fun c => ?_
    split
    · exact EpAgree.pure _
    refine EpAgree.bind (EpAgree.of _ _) fun _ => ?_
    refine EpAgree.bind (EpAgree.of _ _) fun _ => ?_
    refine EpAgree.bind (EpAgree.of _ _) fun _ => ?_
    refine EpAgree.bind h fun _ => ?_
    exact EpAgree.bind (EpAgree.of _ _) fun _ => ih

theorem epagree_items {e : Ep Unit} {m : Rd σ Unit} (h : EpAgree e m) : EpAgree (epItems blob e) (wkrItems blob m) :=
  EpAgree.bind h fun _ => EpAgree.bind (EpAgree.of _ _) fun _ => fun r s => epagree_loop h _ r s

theorem epagree_emptyOr {e : Ep Unit} {m : Rd σ Unit} (h : EpAgree e m) : EpAgree (epEmptyOr blob e) (wkrEmptyOr blob m) := by
  refine EpAgree.bind (EpAgree.of _ _) fun _ => ?_
  refine EpAgree.bind (EpAgree.of _ _) fun c => ?_
  split
  · exact EpAgree.bind (EpAgree.of _ _) fun _ => h
  · exact EpAgree.of _ _

theorem epagree_reset : EpAgree epReset (wkrReset : Rd σ Unit) := by unfold epReset wkrReset; exact EpAgree.of _ _

theorem epagree_coordinates (hh : EpAccepts h) : EpAgree (epCoordinates parse blob) (wkrCoordinates parse blob h) := by
  refine epagree_emptyOr ?_
  refine EpAgree.bind (EpAgree.of _ _) fun _ => ?_
  refine EpAgree.bind epagree_reset fun _ => ?_
  refine EpAgree.bind (epagree_items (epagree_coordinate hh)) fun _ => ?_
  exact EpAgree.bind (epagree_flush hh) fun _ => EpAgree.of _ _

theorem epagree_point (hh : EpAccepts h) : EpAgree (epPoint parse blob) (wkrPoint parse blob h) := by
  refine epagree_emptyOr ?_
  refine EpAgree.bind (EpAgree.of _ _) fun _ => ?_
  refine EpAgree.bind epagree_reset fun _ => ?_
  refine EpAgree.bind (epagree_coordinate hh) fun _ => ?_
  refine EpAgree.bind (epagree_flush hh) fun _ => ?_
  exact EpAgree.bind (EpAgree.of _ _) fun _ => EpAgree.of _ _

theorem epagree_list {e : Ep Unit} {m : Rd σ Unit} (h : EpAgree e m) : EpAgree (epList blob e) (wkrEmptyOr blob do
    Rd.of (wkrSkip blob)
    wkrItems blob m
    Rd.of (wkrAdvance 1)) := by
  refine epagree_emptyOr ?_
  refine EpAgree.bind (EpAgree.of _ _) fun _ => ?_
  exact EpAgree.bind (epagree_items h) fun _ => EpAgree.of _ _

theorem epagree_multipoint (hh : EpAccepts h) (dims : Nat) : EpAgree (epMultipoint parse blob) (wkrMultipoint parse blob h dims) := by
  refine epagree_emptyOr ?_
  refine EpAgree.bind (EpAgree.of _ _) fun _ => ?_
  refine EpAgree.bind (EpAgree.of _ _) fun c => ?_
  split
  · refine EpAgree.bind (EpAgree.of _ _) fun _ => ?_
    refine EpAgree.bind (EpAgree.of _ _) fun _ => ?_
    refine EpAgree.bind (epagree_items (EpAgree.around hh _ _ ?_)) fun _ => EpAgree.of _ _
    refine EpAgree.bind epagree_reset fun _ => ?_
    exact EpAgree.bind (epagree_coordinate hh) fun _ => epagree_flush hh
  · exact EpAgree.bind (epagree_items (EpAgree.around hh _ _ (epagree_point hh))) fun _ => EpAgree.of _ _

theorem epagree_content (hh : EpAccepts h) {e : Ep Unit} {m : Rd σ Unit} (ht : EpAgree e m) (gt dims : Nat) :
    EpAgree (epContent parse blob e gt) (wkrContent parse blob h m gt dims) := by
  unfold epContent wkrContent
  split; · exact epagree_point hh
  split; · exact epagree_coordinates hh
  split; · exact epagree_list (EpAgree.around hh _ _ (epagree_coordinates hh))
  split; · exact epagree_multipoint hh dims
  split; · exact epagree_list (EpAgree.around hh _ _ (epagree_coordinates hh))
  split; · exact epagree_list (EpAgree.around hh _ _ (epagree_list (EpAgree.around hh _ _ (epagree_coordinates hh))))
  split; · exact epagree_list ht
  exact EpAgree.of _ _

theorem epagree_tagged (hh : EpAccepts h) : ∀ fuel, EpAgree (epTagged parse blob fuel) (wkrTagged parse blob h fuel) := by
  intro fuel
  induction fuel with
  | zero => exact EpAgree.ub
  | succ f ih => exact EpAgree.bind (EpAgree.of _ _) fun t => EpAgree.around hh _ _ (epagree_content hh ih _ _)

theorem epagree_feature (hh : EpAccepts h) (fuel : Nat) : EpAgree (epFeature parse blob fuel) (wkrFeature parse blob h fuel) := by
  refine EpAgree.call hh _ ?_
  refine EpAgree.bind (epagree_tagged hh fuel) fun _ => ?_
  refine EpAgree.call hh _ ?_
  refine EpAgree.bind (EpAgree.of _ _) fun _ => ?_
  refine EpAgree.bind (EpAgree.of _ _) fun c => ?_
  split
  · exact EpAgree.of _ _
  · exact EpAgree.pure _
end

end Verif
