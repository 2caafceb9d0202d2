import Verif.Spec.Program
/-! Compositional lemmas for `Behaves`. -/
namespace Verif.Spec
open Verif

theorem feed_append {σ} (h : Handler σ) (t1 t2 : List Event) (s : σ) :
    feed h (t1 ++ t2) s = match feed h t1 s with
      | .ok _ s' => feed h t2 s'
      | .err rc s' => .err rc s'
      | .ub => .ub := by
  induction t1 generalizing s with
  | nil => rfl
  | cons e es ih =>
    simp only [List.cons_append, feed]
    cases h e s <;> simp [ih]

theorem Behaves.pure {α} (a : α) : Behaves (fun _ _ => (Pure.pure a : M _ α)) [] (.done a) := by
  intro σ h s; rfl
theorem Behaves.fail {α} (rc) : Behaves (fun _ _ => (M.fail rc : M _ α)) [] (.fail rc) := by
  intro σ h s; rfl
theorem Behaves.undef {α} : Behaves (fun _ _ => (M.undef : M _ α)) [] .crash := by
  intro σ h s; rfl
theorem Behaves.call (e : Event) : Behaves (fun _ h => h e) [e] (.done ()) := by
  intro σ h s
  simp only [replay, feed]
  cases h e s <;> rfl

theorem Behaves.bind {α β} {p : ∀ σ : Type, Handler σ → M σ α} {f : ∀ σ : Type, Handler σ → α → M σ β}
    {t1 t2 a o} (hp : Behaves p t1 (.done a)) (hf : Behaves (fun _ h => f _ h a) t2 o) :
    Behaves (fun _ h => p _ h >>= f _ h) (t1 ++ t2) o := by
  intro σ h s
  show (p σ h >>= f σ h) s = _
  rw [M.bind_run, hp]
  unfold replay
  rw [feed_append]
  cases hs : feed h t1 s with
  | ok u s' =>
    exact hf σ h s'
  | err rc s' => simp
  | ub => simp

theorem Behaves.bind_fail {α β} {p : ∀ σ : Type, Handler σ → M σ α} {f : ∀ σ : Type, Handler σ → α → M σ β}
    {t1 rc} (hp : Behaves p t1 (.fail rc)) :
    Behaves (fun _ h => p _ h >>= f _ h) t1 (.fail rc) := by
  intro σ h s
  show (p σ h >>= f σ h) s = _
  rw [M.bind_run, hp]
  unfold replay
  cases feed h t1 s <;> simp [Outcome.toM]

theorem Behaves.bind_crash {α β} {p : ∀ σ : Type, Handler σ → M σ α} {f : ∀ σ : Type, Handler σ → α → M σ β}
    {t1} (hp : Behaves p t1 .crash) :
    Behaves (fun _ h => p _ h >>= f _ h) t1 .crash := by
  intro σ h s
  show (p σ h >>= f σ h) s = _
  rw [M.bind_run, hp]
  unfold replay
  cases feed h t1 s <;> simp [Outcome.toM]

/-- A reader has *some* fixed behaviour. -/
def Regular {α} (p : ∀ σ : Type, Handler σ → M σ α) : Prop := ∃ t o, Behaves p t o

theorem Regular.pure {α} (a : α) : Regular (fun _ _ => (Pure.pure a : M _ α)) := ⟨_, _, Behaves.pure a⟩
theorem Regular.fail {α} (rc) : Regular (fun _ _ => (M.fail rc : M _ α)) := ⟨_, _, Behaves.fail rc⟩
theorem Regular.undef {α} : Regular (fun _ _ => (M.undef : M _ α)) := ⟨_, _, Behaves.undef⟩
theorem Regular.call (e : Event) : Regular (fun _ h => h e) := ⟨_, _, Behaves.call e⟩
theorem Regular.bind {α β} {p : ∀ σ : Type, Handler σ → M σ α} {f : ∀ σ : Type, Handler σ → α → M σ β}
    (hp : Regular p) (hf : ∀ a, Regular (fun _ h => f _ h a)) :
    Regular (fun _ h => p _ h >>= f _ h) := by
  obtain ⟨t, o, hp⟩ := hp
  cases o with
  | done a =>
    obtain ⟨t2, o2, hf⟩ := hf a
    exact ⟨_, _, Behaves.bind hp hf⟩
  | fail rc => exact ⟨_, _, Behaves.bind_fail hp⟩
  | crash => exact ⟨_, _, Behaves.bind_crash hp⟩

theorem feed_recorder (t s : List Event) : feed recorder t s = .ok () (s ++ t) := by
  induction t generalizing s with
  | nil => simp [feed]
  | cons e es ih => simp [feed, recorder]; rw [ih]; simp

theorem Behaves.record {α} {p : ∀ σ : Type, Handler σ → M σ α} {t o}
    (h : Behaves p t o) : p _ recorder [] = o.toM t := by
  rw [h, replay, feed_recorder]; rfl

/-- The behaviour of a reader that does not crash is unique: feed the recording visitor. -/
theorem Behaves.unique {α} {p : ∀ σ : Type, Handler σ → M σ α} {t t' o o'}
    (h1 : Behaves p t o) (h2 : Behaves p t' o') (hc : o ≠ .crash) : t = t' ∧ o = o' := by
  have h := h1.record.symm.trans h2.record
  cases o <;> cases o' <;> simp_all [Outcome.toM]

end Verif.Spec
