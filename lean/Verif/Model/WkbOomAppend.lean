import Verif.Model.WkbOom
/-!
# Appending geometry views to the WKB writer when memory runs out: `GeoArrowWKBWriterAppend`

As `Verif.Model.WkbOom`, for the functions of src/geoarrow/wkb_writer.c:279-362.
-/
namespace Verif.WOom

variable (mem : Nat → Bool) (junk : Nat → Nat → Bool)

/-- `GeoArrowWKBWriterAppendSequence`, src/geoarrow/wkb_writer.c:279-293: a first attempt with the spare capacity of the buffer (its
contents, which do not matter, shown as zeros), else more memory and a second attempt. The third one would need the same bytes not to
fit after they were reserved; it is shown as undefined, and does not happen (`sim_sequence`). -/
def sequence (m : Mem) (node : Node) : M OWkb Unit := fun s =>
  match nodeWriteSequence m node (List.replicate (s.valuesCap - s.w.values.length) 0) with
  | none => .ub
  | some (required, dst) =>
    if required ≤ s.valuesCap - s.w.values.length then
      .ok () { s with w := { s.w with values := s.w.values ++ dst.take required } }
    else
      match valuesReserve mem required s with
      | .ok _ s =>
        match nodeWriteSequence m node (List.replicate (s.valuesCap - s.w.values.length) 0) with
        | none => .ub
        | some (required, dst) =>
          if required ≤ s.valuesCap - s.w.values.length then
            .ok () { s with w := { s.w with values := s.w.values ++ dst.take required } }
          else .ub
      | r => r

/-- Byte order and type, src/geoarrow/wkb_writer.c:308, 312-313, 325-326, 332-333, 342-343 -/
def nodeHeader (node : Node) : M OWkb Unit := do
  valuesAppend mem [1]
  valuesAppend mem (leBytes 4 (wkbTypeCode node.gt node.dims))

/-- The loop of `GeoArrowWKBWriterAppendBuffer`, src/geoarrow/wkb_writer.c:295-352; `rings` is `remaining_rings`. -/
def appendNodes (m : Mem) : List Node → (rings : Nat) → M OWkb Unit
  | [], _ => pure ()
  | node :: ns, rings =>
    if 0 < rings then do
      valuesAppend mem (leBytes 4 node.size)
      sequence mem m node
      appendNodes m ns (rings - 1)
    else if node.gt = 1 then do
      nodeHeader mem node
      (if node.size = 0 then
        match nvals node.dims with
        | none => fun _ => .ub
        | some n => valuesAppend mem (emptyPointCoords.take (8 * n))
      else sequence mem m node)
      appendNodes m ns 0
    else if node.gt = 2 then do
      nodeHeader mem node
      valuesAppend mem (leBytes 4 node.size)
      sequence mem m node
      appendNodes m ns 0
    else if node.gt = 3 then do
      nodeHeader mem node
      valuesAppend mem (leBytes 4 node.size)
      appendNodes m ns node.size
    else if 4 ≤ node.gt ∧ node.gt ≤ 7 then do
      nodeHeader mem node
      valuesAppend mem (leBytes 4 node.size)
      appendNodes m ns 0
    else M.fail EINVAL

/-- `GeoArrowWKBWriterAppend`, src/geoarrow/wkb_writer.c:354-362, with `GeoArrowWKBWriterAppendValidity`, 249-269 -/
def appendView (m : Mem) (v : View) : M OWkb Unit := do
  let s ← M.get
  offsetsAppend mem (toI32 s.w.values.length)
  appendNodes mem m v.nodes 0
  lift (M.modify fun w => { w with length := w.length + 1 })
  bitsValid mem junk

end Verif.WOom
