import Verif.Model.Visitor
/-!
# The WKT reader

src/geoarrow/wkt_reader.c

The number parser `GeoArrowFromChars` (src/geoarrow/double_parse_std.c, double_parse_fast_float.cc) is a parameter: `parse w`
is the number the characters `w` stand for, `none` if it returns `EINVAL`. Error messages are in
`Verif.Model.WktError`.
-/
namespace Verif

/-- `struct WKTReaderPrivate`, src/geoarrow/wkt_reader.c:11-17. `pos` is `data - data0`, `left` is `size_bytes`; `nv` and `n`
are `coord_view.n_values` and `coord_view.n_coords`; `coords` is the array of 256 doubles, of which `values[i]` is the part
starting at `64 * i` (src/geoarrow/wkt_reader.c:502-506). -/
structure WktR where
  pos : Nat
  left : Int
  nv : Nat
  n : Nat
  coords : Nat → Dbl

/-! ## Scanning -/

/-- `GeoArrowWKTAdvanceUnsafe`, src/geoarrow/wkt_reader.c:19-22 -/
def wkrAdvance (k : Nat) : M WktR Unit := M.modify fun r => { r with pos := r.pos + k, left := r.left - k }

/-- The test of `GeoArrowWKTSkipWhitespace`, src/geoarrow/wkt_reader.c:27 -/
def wkrIsSpace (c : Byte) : Bool := c = 32 || c = 9 || c = 10 || c = 13

/-- The loop of `GeoArrowWKTSkipWhitespace`, src/geoarrow/wkt_reader.c:25-33, with at most `fuel` tests; running out counts
as undefined behaviour (it never happens, `C26_no_undefined_behaviour`). Reading outside the text is undefined behaviour. -/
def wkrSkipLoop (blob : List Byte) : Nat → M WktR Unit
  | 0 => M.undef
  | fuel + 1 => fun r =>
    if 0 < r.left then
      match blob[r.pos]? with
      | none => .ub
      | some c => if wkrIsSpace c then wkrSkipLoop blob fuel { r with pos := r.pos + 1, left := r.left - 1 } else .ok () r
    else .ok () r

/-- `GeoArrowWKTSkipWhitespace`, src/geoarrow/wkt_reader.c:24-34 -/
def wkrSkip (blob : List Byte) : M WktR Unit := fun r => wkrSkipLoop blob (r.left.toNat + 1) r

/-- The characters of `" \n\t\r,()"`, src/geoarrow/wkt_reader.c:58 -/
def wkrIsSep (c : Byte) : Bool := c = 32 || c = 10 || c = 9 || c = 13 || c = 44 || c = 40 || c = 41

/-- `GeoArrowWKTSkipUntil` with these characters, src/geoarrow/wkt_reader.c:36-59, with at most `fuel` tests. -/
def wkrUntilLoop (blob : List Byte) : Nat → M WktR Unit
  | 0 => M.undef
  | fuel + 1 => fun r =>
    if 0 < r.left then
      match blob[r.pos]? with
      | none => .ub
      | some c =>
        if c = 0 then .ok () r
        else if wkrIsSep c then .ok () r
        else wkrUntilLoop blob fuel { r with pos := r.pos + 1, left := r.left - 1 }
    else .ok () r

/-- `GeoArrowWKTSkipUntilSep`, src/geoarrow/wkt_reader.c:57-59 -/
def wkrUntilSep (blob : List Byte) : M WktR Unit := fun r => wkrUntilLoop blob (r.left.toNat + 1) r

/-- `PeekChar`, src/geoarrow/wkt_reader.c:61-67 -/
def wkrPeek (blob : List Byte) : M WktR Byte := fun r =>
  if 0 < r.left then
    match blob[r.pos]? with
    | none => .ub
    | some c => .ok c r
  else .ok 0 r

/-- `GeoArrowWKTPeekUntilSep`, src/geoarrow/wkt_reader.c:69-79: the characters up to the separator, found on a copy of the
state. -/
def wkrWord (blob : List Byte) (max : Nat) : M WktR (List Byte) := fun r =>
  match wkrUntilSep blob { r with left := if r.left > max then max else r.left } with
  | .ok _ tmp => .ok ((blob.drop r.pos).take (tmp.pos - r.pos)) r
  | .err rc _ => .err rc r
  | .ub => .ub

/-- `GeoArrowWKTAssertChar`, src/geoarrow/wkt_reader.c:88-98 -/
def wkrChar (blob : List Byte) (c : Byte) : M WktR Unit := fun r =>
  if 0 < r.left then
    match blob[r.pos]? with
    | none => .ub
    | some d => if d = c then wkrAdvance 1 r else .err EINVAL r
  else .err EINVAL r

/-- `GeoArrowWKTAssertWhitespace`, src/geoarrow/wkt_reader.c:100-110 -/
def wkrSpace (blob : List Byte) : M WktR Unit := fun r =>
  if 0 < r.left then
    match blob[r.pos]? with
    | none => .ub
    | some c => if wkrIsSpace c then wkrSkip blob r else .err EINVAL r
  else .err EINVAL r

/-- `GeoArrowWKTAssertWordEmpty`, src/geoarrow/wkt_reader.c:112-122 -/
def wkrEmpty (blob : List Byte) : M WktR Unit := do
  let w ← wkrWord blob 6
  if w = str "EMPTY" then wkrAdvance 5 else M.fail EINVAL

/-- `ReadOrdinate` into `values[i][n_coords]`, src/geoarrow/wkt_reader.c:124-136; storing outside the array of 256 doubles is
undefined behaviour. -/
def wkrOrdinate (parse : List Byte → Option Dbl) (blob : List Byte) (i : Nat) : M WktR Unit := fun r =>
  match wkrUntilSep blob r with
  | .ok _ r' =>
    match parse ((blob.drop r.pos).take (r'.pos - r.pos)) with
    | none => .err EINVAL r
    | some x =>
      if 64 * i + r.n < 256 then
        .ok () { r' with coords := fun k => if k = 64 * i + r.n then x else r.coords k }
      else .ub
  | .err rc _ => .err rc r
  | .ub => .ub

/-- The loop over the ordinates after the first, src/geoarrow/wkt_reader.c:159-163: `k` of them from number `i` on. -/
def wkrOrdinates (parse : List Byte → Option Dbl) (blob : List Byte) : (i k : Nat) → M WktR Unit
  | _, 0 => pure ()
  | i, k + 1 => do
    wkrSpace blob
    wkrOrdinate parse blob i
    wkrOrdinates parse blob (i + 1) k

/-! ## Reading with callbacks -/

/-- A function with access to the reader's state and the visitor. The reader's state after a failure is not kept: every use
of the reader sets what it needs (`C11_wkt_reader_reusable`). -/
def Rd (σ α : Type) := WktR → M σ (α × WktR)

instance {σ : Type} : Monad (Rd σ) where
  pure a := fun r => pure (a, r)
  bind m f := fun r => m r >>= fun x => f x.1 x.2

/-- A function that makes no callback. -/
def Rd.of {σ α : Type} (m : M WktR α) : Rd σ α := fun r s =>
  match m r with
  | .ok a r' => .ok (a, r') s
  | .err rc _ => .err rc s
  | .ub => .ub

/-- A callback. -/
def Rd.call {σ : Type} (h : Handler σ) (e : Event) : Rd σ Unit := fun r => do
  h e
  pure ((), r)

/-- `ResetCoordCache`, src/geoarrow/wkt_reader.c:138-140 -/
def wkrReset {σ : Type} : Rd σ Unit := Rd.of (M.modify fun r => { r with n := 0 })

/-- The coordinates the visitor sees through `coord_view`. -/
def WktR.cached (r : WktR) : List (List Dbl) :=
  (List.range r.n).map fun j => (List.range r.nv).map fun i => r.coords (64 * i + j)

/-- `FlushCoordCache`, src/geoarrow/wkt_reader.c:142-150; a view that reaches outside the array is undefined behaviour. -/
def wkrFlush {σ : Type} (h : Handler σ) : Rd σ Unit := fun r =>
  if 0 < r.n then
    if r.nv ≤ 4 ∧ r.n ≤ 64 then (do
      h (.coords r.nv r.cached)
      pure ((), { r with n := 0 }))
    else M.undef
  else pure ((), r)

section
variable {σ : Type} (parse : List Byte → Option Dbl) (blob : List Byte) (h : Handler σ)

/-- `ReadCoordinate`, src/geoarrow/wkt_reader.c:152-167. Flush when 64 coordinates are cached. -/
def wkrCoordinate : Rd σ Unit := do
  let n ← Rd.of (fun r => .ok r.n r)
  (if n = 64 then wkrFlush h else pure ())
  Rd.of (wkrOrdinate parse blob 0)
  let nv ← Rd.of (fun r => .ok r.nv r)
  Rd.of (wkrOrdinates parse blob 1 (nv - 1))
  Rd.of (M.modify fun r => { r with n := r.n + 1 })

/-- The loop `while (PeekChar(s) != ')') { skip; assert ','; skip; item; skip; }`, src/geoarrow/wkt_reader.c:183-189,
214-224, 261-269, 300-308, 333-342, 365-374, 398-404, with at most `fuel` tests. -/
def wkrLoop (item : Rd σ Unit) : Nat → Rd σ Unit
  | 0 => fun _ => M.undef
  | fuel + 1 => do
    let c ← Rd.of (wkrPeek blob)
    if c = 41 then pure ()
    else do
      Rd.of (wkrSkip blob)
      Rd.of (wkrChar blob 44)
      Rd.of (wkrSkip blob)
      item
      Rd.of (wkrSkip blob)
      wkrLoop item fuel

/-- First item and the others, src/geoarrow/wkt_reader.c:178-189, 205-224, 254-269, 293-308, 325-342, 358-374, 393-404 -/
def wkrItems (item : Rd σ Unit) : Rd σ Unit := do
  item
  Rd.of (wkrSkip blob)
  fun r => wkrLoop blob item (r.left.toNat + 1) r

/-- `skip; if '(' then advance and read the content; else EMPTY`, src/geoarrow/wkt_reader.c:171-173 and 197, 232-234 and 245,
249-251 and 275, 280-282 and 314, 320-322 and 348, 353-355 and 380, 388-390 and 410 -/
def wkrEmptyOr (content : Rd σ Unit) : Rd σ Unit := do
  Rd.of (wkrSkip blob)
  let c ← Rd.of (wkrPeek blob)
  if c = 40 then do
    Rd.of (wkrAdvance 1)
    content
  else Rd.of (wkrEmpty blob)

/-- `ReadEmptyOrCoordinates`, src/geoarrow/wkt_reader.c:169-198 -/
def wkrCoordinates : Rd σ Unit := wkrEmptyOr blob do
  Rd.of (wkrSkip blob)
  wkrReset
  wkrItems blob (wkrCoordinate parse blob h)
  wkrFlush h
  Rd.of (wkrAdvance 1)

/-- `ReadEmptyOrPointCoordinate`, src/geoarrow/wkt_reader.c:230-246 -/
def wkrPoint : Rd σ Unit := wkrEmptyOr blob do
  Rd.of (wkrSkip blob)
  wkrReset
  wkrCoordinate parse blob h
  wkrFlush h
  Rd.of (wkrSkip blob)
  Rd.of (wkrChar blob 41)

/-- A member between `geom_start` and `geom_end`, src/geoarrow/wkt_reader.c:294-296, 326-329, 359-361 -/
def wkrMember (gt dims : Nat) (body : Rd σ Unit) : Rd σ Unit := do
  Rd.call h (.geomStart gt dims)
  body
  Rd.call h .geomEnd

/-- `ReadMultipointFlat`, src/geoarrow/wkt_reader.c:200-228 -/
def wkrMultipointFlat (dims : Nat) : Rd σ Unit := do
  Rd.of (wkrChar blob 40)
  wkrItems blob (wkrMember h 1 dims do
    wkrReset
    wkrCoordinate parse blob h
    wkrFlush h)
  Rd.of (wkrAdvance 1)

/-- `ReadPolygon`, src/geoarrow/wkt_reader.c:248-276 -/
def wkrPolygon : Rd σ Unit := wkrEmptyOr blob do
  Rd.of (wkrSkip blob)
  wkrItems blob (do
    Rd.call h .ringStart
    wkrCoordinates parse blob h
    Rd.call h .ringEnd)
  Rd.of (wkrAdvance 1)

/-- `ReadMultipoint`, src/geoarrow/wkt_reader.c:278-315. Going back one character is undefined behaviour at the start of the
text. -/
def wkrMultipoint (dims : Nat) : Rd σ Unit := wkrEmptyOr blob do
  Rd.of (wkrSkip blob)
  let c ← Rd.of (wkrPeek blob)
  if c ≠ 40 ∧ c ≠ 69 then do
    Rd.of (fun r => if r.pos = 0 then .ub else .ok () { r with pos := r.pos - 1, left := r.left + 1 })
    wkrMultipointFlat parse blob h dims
  else do
    wkrItems blob (wkrMember h 1 dims (wkrPoint parse blob h))
    Rd.of (wkrAdvance 1)

/-- `ReadMultilinestring`, src/geoarrow/wkt_reader.c:317-349 -/
def wkrMultilinestring (dims : Nat) : Rd σ Unit := wkrEmptyOr blob do
  Rd.of (wkrSkip blob)
  wkrItems blob (wkrMember h 2 dims (wkrCoordinates parse blob h))
  Rd.of (wkrAdvance 1)

/-- `ReadMultipolygon`, src/geoarrow/wkt_reader.c:351-381 -/
def wkrMultipolygon (dims : Nat) : Rd σ Unit := wkrEmptyOr blob do
  Rd.of (wkrSkip blob)
  wkrItems blob (wkrMember h 3 dims (wkrPolygon parse blob h))
  Rd.of (wkrAdvance 1)

/-- `ReadGeometryCollection`, src/geoarrow/wkt_reader.c:386-411; `tagged` is `ReadTaggedGeometry`. -/
def wkrCollection (tagged : Rd σ Unit) : Rd σ Unit := wkrEmptyOr blob do
  Rd.of (wkrSkip blob)
  wkrItems blob tagged
  Rd.of (wkrAdvance 1)

/-- The geometry type of a keyword, src/geoarrow/wkt_reader.c:419-436 -/
def wkrType (w : List Byte) : Option Nat :=
  if w = str "POINT" then some 1
  else if w = str "LINESTRING" then some 2
  else if w = str "POLYGON" then some 3
  else if w = str "MULTIPOINT" then some 4
  else if w = str "MULTILINESTRING" then some 5
  else if w = str "MULTIPOLYGON" then some 6
  else if w = str "GEOMETRYCOLLECTION" then some 7
  else none

/-- Dimensions, number of ordinates and length of the word, src/geoarrow/wkt_reader.c:441-456 -/
def wkrDims (w : List Byte) : Nat × Nat × Nat :=
  if w = str "Z" then (2, 3, 1)
  else if w = str "M" then (3, 3, 1)
  else if w = str "ZM" then (4, 4, 2)
  else (1, 2, 0)

/-- Keyword and dimensions, src/geoarrow/wkt_reader.c:415-456. Returns geometry type and dimensions. -/
def wkrTag : M WktR (Nat × Nat) := do
  wkrSkip blob
  let w ← wkrWord blob 19
  match wkrType w with
  | none => M.fail EINVAL
  | some gt => do
    wkrAdvance w.length
    wkrSkip blob
    let w ← wkrWord blob 3
    M.modify fun r => { r with nv := (wkrDims w).2.1 }
    wkrAdvance (wkrDims w).2.2
    pure (gt, (wkrDims w).1)

/-- The switch on the geometry type, src/geoarrow/wkt_reader.c:460-485 -/
def wkrContent (tagged : Rd σ Unit) (gt dims : Nat) : Rd σ Unit :=
  if gt = 1 then wkrPoint parse blob h
  else if gt = 2 then wkrCoordinates parse blob h
  else if gt = 3 then wkrPolygon parse blob h
  else if gt = 4 then wkrMultipoint parse blob h dims
  else if gt = 5 then wkrMultilinestring parse blob h dims
  else if gt = 6 then wkrMultipolygon parse blob h dims
  else if gt = 7 then wkrCollection blob tagged
  else Rd.of (M.fail EINVAL)

/-- `ReadTaggedGeometry`, src/geoarrow/wkt_reader.c:413-488, with at most `fuel` nested calls. The C recursion has no such
limit; stack exhaustion is not modelled. -/
def wkrTagged : Nat → Rd σ Unit
  | 0 => fun _ => M.undef
  | fuel + 1 => do
    let t ← Rd.of (wkrTag blob)
    wkrMember h t.1 t.2 (wkrContent parse blob h (wkrTagged fuel) t.1 t.2)

/-- `GeoArrowWKTReaderVisit`, src/geoarrow/wkt_reader.c:516-534, from `data`/`size_bytes` being set on. -/
def wkrFeature (fuel : Nat) : Rd σ Unit := do
  Rd.call h .featStart
  wkrTagged parse blob h fuel
  Rd.call h .featEnd
  Rd.of (wkrSkip blob)
  let c ← Rd.of (wkrPeek blob)
  if c ≠ 0 then Rd.of (M.fail EINVAL) else pure ()

/-- `GeoArrowWKTReaderVisit`, src/geoarrow/wkt_reader.c:516-534, on a reader in any state `r`. -/
def wktVisit (r : WktR) : M σ Unit := do
  let _ ← wkrFeature parse blob h (blob.length + 1) { r with pos := 0, left := blob.length }
  pure ()
end

end Verif
