import Verif.Model.Ryu
/-!
# Numbers without the bundled libraries

`GeoArrowPrintDouble` without Ryu and `GeoArrowFromChars` without fast_float, over functions of the C library that are parameters. What the
C library has to fulfil is stated in `Verif/Spec/StdNumbers.lean`.
-/
namespace Verif

/-- The functions of the C library that are called: `snprintf` with the formats `%0.*f` and `%0.*e` (the text it would write into a
sufficiently large buffer), and `strtod` (how many characters it reads and the value), src/geoarrow/double_print.c:28, 31 and
src/geoarrow/double_parse_std.c:30 -/
structure Libc where
  fixed : Nat → Dbl → List Byte
  sci : Nat → Dbl → List Byte
  strtod : List Byte → Nat × Dbl

/-- The loop that drops zeros, and the point if it comes next, from the end of the text, src/geoarrow/double_print.c:37-46. The text is
given from its end. -/
def stripLoop : List Byte → List Byte
  | [] => []
  | b :: r => if b = 48 then stripLoop r else if b = 46 then r else b :: r

/-- `GeoArrowPrintDouble` without `GEOARROW_USE_RYU`, src/geoarrow/double_print.c:24-49. The buffer of `snprintf` holds 39 characters. Numbers
in scientific notation are far shorter than that, so their text is not cut. The precision is below 2^31. -/
def stdPrint (L : Libc) (precision : Nat) (f : Dbl) : List Byte :=
  if f.gt dbl1e17 || Dbl.gt (0xC376345785D8A000#64) f then L.sci 16 f
  else (stripLoop ((L.fixed precision f).take 39).reverse).reverse

/-- `GeoArrowFromChars` without `GEOARROW_USE_FAST_FLOAT`, src/geoarrow/double_parse_std.c:10-38. `strtod` sees the copy up to the first zero
byte. -/
def stdParse (L : Libc) (t : List Byte) : Option Dbl :=
  if t = [] then none
  else if 64 ≤ t.length then none
  else
    let r := L.strtod (t.takeWhile (· != 0))
    if r.1 = t.length then some r.2 else none

end Verif
