import Verif.Model.WktReader
/-!
# The error messages of the WKT reader

src/geoarrow/wkt_reader.c. The reader of `Verif.Model.WktReader` once more, this time without callbacks but with the message it
leaves when the text is wrong: `SetParseErrorAuto`, src/geoarrow/wkt_reader.c:81-86, writes `Expected %s at byte %ld`. That both
readers accept and reject the same texts is `C81_message_iff_rejected`. Its text is in
`Verif.Model.ErrorText`.
-/
namespace Verif

/-- What the message says was expected: `'c'` (src/geoarrow/wkt_reader.c:94), `whitespace` (107), `'(' or 'EMPTY'` (120), `number`
(132), `geometry type` (434), `end of input` (529). The last is `Internal error: unrecognized geometry type id` (484), which has
no position. -/
inductive WkWant where
  | char (c : Byte)
  | whitespace
  | openingOrEmpty
  | number
  | geometryType
  | endOfInput
  | internal
  deriving DecidableEq, Repr

/-- Outcome: success, a message about a byte, undefined behaviour. -/
inductive EpRes (α : Type) where
  | ok (a : α) (r : WktR)
  | err (w : WkWant) (pos : Nat)
  | ub

/-- A function of the reader that keeps the message. Callbacks are taken to succeed. -/
def Ep (α : Type) := WktR → EpRes α

instance : Monad Ep where
  pure a := fun r => .ok a r
  bind m f := fun r => match m r with
    | .ok a r' => f a r'
    | .err w k => .err w k
    | .ub => .ub

/-- `SetParseErrorAuto(w, s, error)` on failure, src/geoarrow/wkt_reader.c:81-86: `pos = s->data - s->data0`. -/
def Ep.of {α : Type} (w : WkWant) (m : M WktR α) : Ep α := fun r =>
  match m r with
  | .ok a r' => .ok a r'
  | .err _ r' => .err w r'.pos
  | .ub => .ub

/-- A function that does not fail. -/
def Ep.safe {α : Type} (m : M WktR α) : Ep α := Ep.of .internal m

/-- `GeoArrowWKTAssertChar`, src/geoarrow/wkt_reader.c:88-98 -/
def epChar (blob : List Byte) (c : Byte) : Ep Unit := Ep.of (.char c) (wkrChar blob c)

/-- `ResetCoordCache`, src/geoarrow/wkt_reader.c:138-140 -/
def epReset : Ep Unit := Ep.safe (M.modify fun r => { r with n := 0 })

/-- `FlushCoordCache`, src/geoarrow/wkt_reader.c:142-150, without the callback. -/
def epFlush : Ep Unit := fun r =>
  if 0 < r.n then
    if r.nv ≤ 4 ∧ r.n ≤ 64 then .ok () { r with n := 0 } else .ub
  else .ok () r

/-- The loop over the ordinates after the first, src/geoarrow/wkt_reader.c:159-163 -/
def epOrdinates (parse : List Byte → Option Dbl) (blob : List Byte) : (i k : Nat) → Ep Unit
  | _, 0 => pure ()
  | i, k + 1 => do
    Ep.of .whitespace (wkrSpace blob)
    Ep.of .number (wkrOrdinate parse blob i)
    epOrdinates parse blob (i + 1) k

section
variable (parse : List Byte → Option Dbl) (blob : List Byte)

/-- `ReadCoordinate`, src/geoarrow/wkt_reader.c:152-167 -/
def epCoordinate : Ep Unit := do
  let n ← Ep.safe (fun r => .ok r.n r)
  (if n = 64 then epFlush else pure ())
  Ep.of .number (wkrOrdinate parse blob 0)
  let nv ← Ep.safe (fun r => .ok r.nv r)
  epOrdinates parse blob 1 (nv - 1)
  Ep.safe (M.modify fun r => { r with n := r.n + 1 })

/-- The loop `while (PeekChar(s) != ')') { skip; assert ','; skip; item; skip; }`, src/geoarrow/wkt_reader.c:183-189,
214-224, 261-269, 300-308, 333-342, 365-374, 398-404, with at most `fuel` tests. -/
def epLoop (item : Ep Unit) : Nat → Ep Unit
  | 0 => fun _ => .ub
  | fuel + 1 => do
    let c ← Ep.safe (wkrPeek blob)
    if c = 41 then pure ()
    else do
      Ep.safe (wkrSkip blob)
      epChar blob 44
      Ep.safe (wkrSkip blob)
      item
      Ep.safe (wkrSkip blob)
      epLoop item fuel

/-- First item and the others, src/geoarrow/wkt_reader.c:178-189, 205-224, 254-269, 293-308, 325-342, 358-374, 393-404 -/
def epItems (item : Ep Unit) : Ep Unit := do
  item
  Ep.safe (wkrSkip blob)
  fun r => epLoop blob item (r.left.toNat + 1) r

/-- `skip; if '(' then advance and read the content; else EMPTY`, src/geoarrow/wkt_reader.c:171-173 and 197, 232-234 and 245,
249-251 and 275, 280-282 and 314, 320-322 and 348, 353-355 and 380, 388-390 and 410 -/
def epEmptyOr (content : Ep Unit) : Ep Unit := do
  Ep.safe (wkrSkip blob)
  let c ← Ep.safe (wkrPeek blob)
  if c = 40 then do
    Ep.safe (wkrAdvance 1)
    content
  else Ep.of .openingOrEmpty (wkrEmpty blob)

/-- `ReadEmptyOrCoordinates`, src/geoarrow/wkt_reader.c:169-198 -/
def epCoordinates : Ep Unit := epEmptyOr blob do
  Ep.safe (wkrSkip blob)
  epReset
  epItems blob (epCoordinate parse blob)
  epFlush
  Ep.safe (wkrAdvance 1)

/-- `ReadEmptyOrPointCoordinate`, src/geoarrow/wkt_reader.c:230-246 -/
def epPoint : Ep Unit := epEmptyOr blob do
  Ep.safe (wkrSkip blob)
  epReset
  epCoordinate parse blob
  epFlush
  Ep.safe (wkrSkip blob)
  epChar blob 41

/-- `ReadMultipointFlat`, src/geoarrow/wkt_reader.c:200-228 -/
def epMultipointFlat : Ep Unit := do
  epChar blob 40
  epItems blob (do
    epReset
    epCoordinate parse blob
    epFlush)
  Ep.safe (wkrAdvance 1)

/-- `skip; items; advance`: `ReadPolygon`, `ReadMultilinestring`, `ReadMultipolygon`, `ReadGeometryCollection`,
src/geoarrow/wkt_reader.c:248-276, 317-349, 351-381, 386-411 -/
def epList (item : Ep Unit) : Ep Unit := epEmptyOr blob do
  Ep.safe (wkrSkip blob)
  epItems blob item
  Ep.safe (wkrAdvance 1)

/-- `ReadMultipoint`, src/geoarrow/wkt_reader.c:278-315 -/
def epMultipoint : Ep Unit := epEmptyOr blob do
  Ep.safe (wkrSkip blob)
  let c ← Ep.safe (wkrPeek blob)
  if c ≠ 40 ∧ c ≠ 69 then do
    Ep.safe (fun r => if r.pos = 0 then .ub else .ok () { r with pos := r.pos - 1, left := r.left + 1 })
    epMultipointFlat parse blob
  else do
    epItems blob (epPoint parse blob)
    Ep.safe (wkrAdvance 1)

/-- The switch on the geometry type, src/geoarrow/wkt_reader.c:460-485 -/
def epContent (tagged : Ep Unit) (gt : Nat) : Ep Unit :=
  if gt = 1 then epPoint parse blob
  else if gt = 2 then epCoordinates parse blob
  else if gt = 3 then epList blob (epCoordinates parse blob)
  else if gt = 4 then epMultipoint parse blob
  else if gt = 5 then epList blob (epCoordinates parse blob)
  else if gt = 6 then epList blob (epList blob (epCoordinates parse blob))
  else if gt = 7 then epList blob tagged
  else Ep.of .internal (M.fail EINVAL)

/-- `ReadTaggedGeometry`, src/geoarrow/wkt_reader.c:413-488, with at most `fuel` nested calls. -/
def epTagged : Nat → Ep Unit
  | 0 => fun _ => .ub
  | fuel + 1 => do
    let t ← Ep.of .geometryType (wkrTag blob)
    epContent parse blob (epTagged fuel) t.1

/-- `GeoArrowWKTReaderVisit`, src/geoarrow/wkt_reader.c:516-534, from `data`/`size_bytes` being set on. -/
def epFeature (fuel : Nat) : Ep Unit := do
  epTagged parse blob fuel
  Ep.safe (wkrSkip blob)
  let c ← Ep.safe (wkrPeek blob)
  if c ≠ 0 then Ep.of .endOfInput (M.fail EINVAL) else pure ()

/-- The message `GeoArrowWKTReaderVisit` leaves, src/geoarrow/wkt_reader.c:516-534: what was expected and the byte; none if the
text is read. The reader's state `r` before the call. -/
def wktMessage (r : WktR) : Option (WkWant × Nat) :=
  match epFeature parse blob (blob.length + 1) { r with pos := 0, left := blob.length } with
  | .err w k => some (w, k)
  | _ => none
end

end Verif
