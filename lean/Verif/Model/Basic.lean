/-!
# Common vocabulary of the model

Outcome monad, error codes, bytes and bit patterns.

Models: C conventions used throughout `/repo/src/geoarrow` (`GeoArrowErrorCode`, `GEOARROW_OK`, the
`NANOARROW_RETURN_NOT_OK` early-return idiom, `memcpy`-style unaligned loads on a little-endian host).

Simplifications (global):
* the host is little-endian (`GEOARROW_NATIVE_ENDIAN == 0x01`, geoarrow_type.h / geoarrow_config.h);
* memory allocation always succeeds, so no `ENOMEM` path is modelled (but for `GeomNodes`, `BuilderOom` and `WkbOom`);
* doubles are their 64-bit patterns.
-/

namespace Verif

/-- Error codes are C `int`s (`GeoArrowErrorCode`, src/geoarrow/geoarrow_type.h:276). -/
abbrev Code := Int

/-- errno.h values on Linux; only their distinctness and being non-zero matters. -/
def EINVAL : Code := 22
def EAGAIN : Code := 11
def EOVERFLOW : Code := 75
def ENOTSUP : Code := 95
def EIO : Code := 5

/-- Outcome of running a C function on a mutable state `σ`:
* `ok a s`: returned `GEOARROW_OK` (or a value `a`) in state `s`;
* `err rc s`: returned the non-zero code `rc`; `s` is the state at the point of return (C does not roll back);
* `ub`: the function performed an access outside the object it may access (undefined behaviour). -/
inductive Res (σ : Type) (α : Type) where
  | ok (a : α) (s : σ)
  | err (rc : Code) (s : σ)
  | ub
  deriving DecidableEq, Repr

/-- State-passing computations with C's `RETURN_NOT_OK` sequencing
(`GEOARROW_RETURN_NOT_OK`, src/geoarrow/geoarrow_type.h:107-116). -/
abbrev M (σ α : Type) := σ → Res σ α

namespace M
variable {σ α β : Type}

def run (m : M σ α) (s : σ) : Res σ α := m s
def ret (a : α) : M σ α := fun s => .ok a s
def bind (m : M σ α) (f : α → M σ β) : M σ β := fun s =>
  match m s with
  | .ok a s' => f a s'
  | .err rc s' => .err rc s'
  | .ub => .ub
def get : M σ σ := fun s => .ok s s
def set (s : σ) : M σ Unit := fun _ => .ok () s
def modify (f : σ → σ) : M σ Unit := fun s => .ok () (f s)
/-- `return rc;` with a non-zero code -/
def fail (rc : Code) : M σ α := fun s => .err rc s
/-- undefined behaviour -/
def undef : M σ α := fun _ => .ub

instance : Monad (M σ) where
  pure := M.ret
  bind := M.bind

@[simp] theorem pure_run (a : α) (s : σ) : (pure a : M σ α) s = .ok a s := rfl
theorem bind_run (m : M σ α) (f : α → M σ β) (s : σ) :
    (m >>= f) s = match m s with
      | .ok a s' => f a s'
      | .err rc s' => .err rc s'
      | .ub => .ub := rfl
@[simp] theorem get_run (s : σ) : (M.get : M σ σ) s = .ok s s := rfl
@[simp] theorem set_run (s t : σ) : (M.set t : M σ Unit) s = .ok () t := rfl
@[simp] theorem modify_run (f : σ → σ) (s : σ) : (M.modify f) s = .ok () (f s) := rfl
@[simp] theorem fail_run (rc : Code) (s : σ) : (M.fail rc : M σ α) s = .err rc s := rfl
@[simp] theorem undef_run (s : σ) : (M.undef : M σ α) s = .ub := rfl

theorem bind_ok {m : M σ α} {f : α → M σ β} {s s' : σ} {a : α} (h : m s = .ok a s') :
    (m >>= f) s = f a s' := by
  simp [bind_run, h]
theorem bind_err {m : M σ α} {f : α → M σ β} {s s' : σ} {rc} (h : m s = .err rc s') :
    (m >>= f) s = .err rc s' := by
  simp [bind_run, h]
theorem bind_ub {m : M σ α} {f : α → M σ β} {s : σ} (h : m s = .ub) :
    (m >>= f) s = .ub := by
  simp [bind_run, h]
theorem bind_eq_ok {m : M σ α} {f : α → M σ β} {s s'' : σ} {b : β} :
    (m >>= f) s = .ok b s'' ↔ ∃ a s', m s = .ok a s' ∧ f a s' = .ok b s'' := by
  rw [bind_run]
  cases h : m s with
  | ok a s' => exact ⟨fun h => ⟨a, s', rfl, h⟩, fun ⟨_, _, h1, h2⟩ => by cases h1; exact h2⟩
  | err rc s' => simp
  | ub => simp

end M

namespace Res
variable {σ τ α : Type}
/-- Did the computation stay free of undefined behaviour? -/
def Safe : Res σ α → Prop
  | .ub => False
  | _ => True
instance : (r : Res σ α) → Decidable r.Safe
  | .ub => isFalse id
  | .ok _ _ => isTrue trivial
  | .err _ _ => isTrue trivial
@[simp] theorem safe_ok (a : α) (s : σ) : (Res.ok a s).Safe = True := rfl
@[simp] theorem safe_err (rc) (s : σ) : (Res.err rc s : Res σ α).Safe = True := rfl
@[simp] theorem safe_ub : (Res.ub : Res σ α).Safe = False := rfl
/-- State at return, if the function returned. -/
def state? : Res σ α → Option σ
  | .ok _ s => some s
  | .err _ s => some s
  | .ub => none
/-- The C return code (0 for success), if the function returned. -/
def code? : Res σ α → Option Code
  | .ok _ _ => some 0
  | .err rc _ => some rc
  | .ub => none
end Res

/-- A byte of memory (`uint8_t`). -/
abbrev Byte := BitVec 8
/-- A double, as its bit pattern. -/
abbrev Dbl := BitVec 64

/-- The `k` low-order bytes of `n`, least significant first: the in-memory representation of a `k`-byte
unsigned integer on a little-endian host. -/
def leBytes : Nat → Nat → List Byte
  | 0, _ => []
  | k + 1, n => BitVec.ofNat 8 n :: leBytes k (n / 256)

/-- The value of a little-endian byte string. -/
def leVal : List Byte → Nat
  | [] => 0
  | b :: bs => b.toNat + 256 * leVal bs

/-- In-memory bytes of a double on a little-endian host. -/
def Dbl.bytes (d : Dbl) : List Byte := leBytes 8 d.toNat
/-- `memcpy(&d, p, 8)` on a little-endian host. -/
def Dbl.ofBytes (bs : List Byte) : Dbl := BitVec.ofNat 64 (leVal bs)

/-- The bytes of an ASCII string literal (without the terminator). -/
def str (s : String) : List Byte := s.toList.map fun c => BitVec.ofNat 8 c.toNat

/-- `n` converted to `uint32_t`. -/
def u32 (n : Nat) : Nat := n % 2 ^ 32

/-- Quiet NaN as produced by the C macro `NAN`/`numeric_limits::quiet_NaN()`: 0x7ff8000000000000. -/
def Dbl.nan : Dbl := 0x7ff8000000000000#64

/-- The C macro `INFINITY`, `numeric_limits<double>::infinity()`. -/
def Dbl.inf : Dbl := 0x7ff0000000000000#64
/-- `-INFINITY` -/
def Dbl.negInf : Dbl := 0xfff0000000000000#64

end Verif
