import Verif.Model.Basic
/-!
# Finished Arrow arrays of variable-length elements
-/
namespace Verif

/-- A finished binary/string array: `length`, `null_count`, and buffers 0 (validity, `none` if absent), 1 (int32
offsets) and 2 (data). Bitmaps are lists of bits; `Verif.Props.Bitmap` relates them to bytes. -/
structure BinArray where
  length : Nat
  nullCount : Nat
  validity : Option (List Bool)
  offsets : List Int
  data : List Byte
  deriving DecidableEq, Repr

/-- `ArrowArrayFinishBuildingDefault` on a binary or string array whose buffers were set by the writer: the checks of
`ArrowArrayViewValidateMinimal`/`Default`, src/vendor/nanoarrow/nanoarrow.c:3142-3223 and 3380-3412 (array offset 0).
`none` means the validator itself reads outside the offsets buffer. -/
def finishBuilding (a : BinArray) : Option (Except Code Unit) :=
  let validityBytes := match a.validity with | none => 0 | some l => (l.length + 7) / 8
  if ¬ (a.nullCount = 0 ∧ validityBytes = 0) ∧ validityBytes < (a.length + 7) / 8 then some (.error EINVAL)
  else if a.length ≠ 0 ∧ a.offsets.length < a.length + 1 then some (.error EINVAL)
  else if a.offsets.length = 0 then some (.ok ())
  else
    match a.offsets[0]?, a.offsets[a.length]? with
    | some first, some last =>
      if first < 0 ∨ last < 0 ∨ (a.data.length : Int) < last then some (.error EINVAL) else some (.ok ())
    | _, _ => none

/-- `ArrowBitmapReserve(b, length); ArrowBitmapAppendUnsafe(b, 1, length - 1)` if the bitmap is not allocated yet, then
append 0; used by the WKB and WKT writers (wkb_writer.c:162-170, wkt_writer.c:254-262). With `length == 0` the unsafe
append is called with length -1 on a null buffer: undefined behaviour (`none`). -/
def bitsAppendNull (b : Option (List Bool)) (length : Nat) : Option (List Bool) :=
  match b with
  | none => if length = 0 then none else some (List.replicate (length - 1) true ++ [false])
  | some l => some (l ++ [false])

/-- Append 1 if the bitmap exists (wkb_writer.c:171-173). -/
def bitsAppendValid (b : Option (List Bool)) : Option (List Bool) :=
  match b with
  | none => none
  | some l => some (l ++ [true])

end Verif
