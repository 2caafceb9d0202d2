import Verif.Model.Basic
/-! Partial-correctness triples over the outcome monad; undefined behaviour never satisfies one. -/
namespace Verif
variable {σ α β : Type}

/-- The run is free of undefined behaviour, `Q` holds on success and `E` on failure. -/
def Res.Post (Q : α → σ → Prop) (E : Code → σ → Prop) : Res σ α → Prop
  | .ok a s => Q a s
  | .err rc s => E rc s
  | .ub => False

theorem Res.Post.imp {Q Q' : α → σ → Prop} {E E' : Code → σ → Prop} {r : Res σ α} (h : r.Post Q E)
    (hQ : ∀ a s, Q a s → Q' a s) (hE : ∀ rc s, E rc s → E' rc s) : r.Post Q' E' := by
  cases r with
  | ok a s => exact hQ _ _ h
  | err rc s => exact hE _ _ h
  | ub => exact h

theorem Res.Post.safe {Q : α → σ → Prop} {E : Code → σ → Prop} {r : Res σ α} (h : r.Post Q E) : r.Safe := by
  cases r <;> trivial

theorem post_bind {Q : α → σ → Prop} {R : β → σ → Prop} {E : Code → σ → Prop} {m : M σ α} {f : α → M σ β} {s : σ}
    (h : (m s).Post Q E) (hf : ∀ a s', Q a s' → (f a s').Post R E) : ((m >>= f) s).Post R E := by
  rw [M.bind_run]
  cases hm : m s with
  | ok a s' => rw [hm] at h; exact hf a s' h
  | err rc s' => rw [hm] at h; exact h
  | ub => rw [hm] at h; exact h

theorem post_pure {Q : α → σ → Prop} {E : Code → σ → Prop} {a : α} {s : σ} (h : Q a s) :
    ((pure a : M σ α) s).Post Q E := h

end Verif
