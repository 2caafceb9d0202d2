import Verif.Model.WktError
/-!
# Error messages and the exceptions made of them

src/geoarrow/util.c, src/geoarrow/hpp/exception.hpp and the messages of src/geoarrow/wkt_reader.c. `vsnprintf` is modelled after the
C standard, for the directives used in this library.
-/
namespace Verif

/-- `ERANGE` of errno.h on Linux -/
def ERANGE : Code := 34

/-- `%ld`, `%d` and `%u` of a number that is not negative -/
def decNat (n : Nat) : List Byte :=
  if n < 10 then [BitVec.ofNat 8 (48 + n)] else decNat (n / 10) ++ [BitVec.ofNat 8 (48 + n % 10)]
termination_by n

/-- `%ld` and `%d` -/
def decInt (n : Int) : List Byte := if n < 0 then 45 :: decNat n.natAbs else decNat n.natAbs

/-- What a piece of a format stands for: the format's own text, `%s`, `%ld` (or `%d`, `%u`), `%.*s`. -/
inductive Piece where
  | lit (t : List Byte)
  | cstr (t : List Byte)
  | dec (n : Int)
  | sized (size : Int) (t : List Byte)

/-- `%s` prints up to the NUL, `%.*s` at most `size` bytes, or all if `size` is negative (C11 7.21.6.1). -/
def Piece.print : Piece → List Byte
  | .lit t => t.takeWhile (· ≠ 0)
  | .cstr t => t.takeWhile (· ≠ 0)
  | .dec n => decInt n
  | .sized size t => if size < 0 then t.takeWhile (· ≠ 0) else (t.take size.toNat).takeWhile (· ≠ 0)

/-- The text of all pieces. -/
def printAll (ps : List Piece) : List Byte := ps.flatMap Piece.print

/-- `vsnprintf(message, size, ...)` on the bytes of `message` (C11 7.21.6.5, 7.21.6.12): all that fits and a NUL; the result is the
length of the whole text. If that is no `int`, the result is negative and the bytes are unspecified (`junk`). -/
def vsnprintf (junk : List Byte) (message : List Byte) (ps : List Piece) : Int × List Byte :=
  let t := printAll ps
  if 2147483647 < t.length then (-1, junk)
  else (t.length, t.take (message.length - 1) ++ 0 :: message.drop (min t.length (message.length - 1) + 1))

/-- `GeoArrowErrorSet`, src/geoarrow/util.c:13-32; `none`: `error == NULL`. The message has 1024 bytes,
src/geoarrow/geoarrow_type.h:278-280. -/
def errorSet (junk : List Byte) (ps : List Piece) (error : Option (List Byte)) : Code × Option (List Byte) :=
  match error with
  | none => (0, none)
  | some message =>
    let r := vsnprintf junk (List.replicate message.length 0) ps
    if r.1 < 0 then (EINVAL, some r.2)
    else if (message.length : Int) ≤ r.1 then (ERANGE, some r.2)
    else (0, some r.2)

/-- The argument of `SetParseErrorAuto`, src/geoarrow/wkt_reader.c:94, 107, 120, 132, 434, 529 -/
def WkWant.words : WkWant → List Byte
  | .char c => [39, c, 39]
  | .whitespace => str "whitespace"
  | .openingOrEmpty => str "'(' or 'EMPTY'"
  | .number => str "number"
  | .geometryType => str "geometry type"
  | .endOfInput => str "end of input"
  | .internal => str "Internal error: unrecognized geometry type id"

/-- The message of the WKT reader, src/geoarrow/wkt_reader.c:85 and, without a position, 483 -/
def wktPieces (w : WkWant) (pos : Nat) : List Piece :=
  match w with
  | .internal => [.lit w.words]
  | _ => [.lit (str "Expected "), .cstr w.words, .lit (str " at byte "), .dec pos]

/-- `GeoArrowWKTReaderVisit` as far as `error` is concerned, src/geoarrow/wkt_reader.c:511-534: set once if the text is rejected,
else left alone. -/
def wktError (junk : List Byte) (parse : List Byte → Option Dbl) (blob : List Byte) (r : WktR) (error : Option (List Byte)) : Option (List Byte) :=
  match wktMessage parse blob r with
  | none => error
  | some (w, pos) => (errorSet junk (wktPieces w pos) error).2

/-- `geoarrow::ErrnoException`, src/geoarrow/hpp/exception.hpp:54-67 -/
structure Thrown where
  code : Code
  message : List Byte
  deriving DecidableEq

/-- Appending a `char*` to a `std::string`: up to the NUL; `none`: there is none in the array. -/
def cString (a : List Byte) : Option (List Byte) := if (0 : Byte) ∈ a then some (a.takeWhile (· ≠ 0)) else none

/-- `GEOARROW_THROW_NOT_OK(error, expr)` without `GEOARROW_DEBUG`, src/geoarrow/hpp/exception.hpp:23-39, where the call of `expr`
returned `code` and left `error`: `some none` if nothing is thrown, `none` if the message is read beyond its end. -/
def throwNotOk (expr : List Byte) (code : Code) (error : Option (List Byte)) : Option (Option Thrown) :=
  if code = 0 then some none
  else
    let msg := expr ++ str " failed with errno " ++ decInt code
    match error with
    | none => some (some ⟨code, msg⟩)
    | some a => (cString a).map fun t => some ⟨code, msg ++ str ": \n" ++ t⟩

end Verif
