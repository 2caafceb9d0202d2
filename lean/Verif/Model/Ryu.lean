import Verif.Model.RyuTable
import Verif.Model.ArrayView
/-!
# `double_print.c` and `ryu/d2s.c`: printing doubles (the default build, with Ryu)

`none` stands for a failed assertion, an index outside a table, a shift by a wrong amount, bytes never written, or a loop that does
not end. Loops take an upper bound for the number of rounds as an argument; running out of it is `none`.

Simplified: of the three variants of the 128-bit multiplication the one for compilers with a 128-bit type is modelled
(`HAS_UINT128`); remainders are computed in 32 bits in C, which agrees with `%` as they are below 100 or 10^8; the function
`pow5Factor` counts factors of five, here divisibility by the power is tested; texts are lists of the bytes written.
-/
namespace Verif

/-- `decimalLength17`, src/geoarrow/ryu/d2s.c:187-242 -/
def decimalLength17 (v : Nat) : Nat :=
  if v ≥ 10000000000000000 then 17
  else if v ≥ 1000000000000000 then 16
  else if v ≥ 100000000000000 then 15
  else if v ≥ 10000000000000 then 14
  else if v ≥ 1000000000000 then 13
  else if v ≥ 100000000000 then 12
  else if v ≥ 10000000000 then 11
  else if v ≥ 1000000000 then 10
  else if v ≥ 100000000 then 9
  else if v ≥ 10000000 then 8
  else if v ≥ 1000000 then 7
  else if v ≥ 100000 then 6
  else if v ≥ 10000 then 5
  else if v ≥ 1000 then 4
  else if v ≥ 100 then 3
  else if v ≥ 10 then 2
  else 1

/-- `pow5bits`, src/geoarrow/ryu/common.h:70-77 -/
def pow5bits (e : Nat) : Nat := u32 (e * 1217359) / 2 ^ 19 + 1

/-- `log10Pow2`, src/geoarrow/ryu/common.h:83-89 -/
def log10Pow2 (e : Nat) : Nat := u32 (e * 78913) / 2 ^ 18

/-- `log10Pow5`, src/geoarrow/ryu/common.h:92-98 -/
def log10Pow5 (e : Nat) : Nat := u32 (e * 732923) / 2 ^ 20

/-- `mulShift`, src/geoarrow/ryu/d2s.c:98-103; `mul` is the entry of a table, low half first. -/
def mulShift (m : Nat) (mul : Nat × Nat) (j : Int) : Option Nat :=
  let b0 := m * mul.1
  let b2 := m * mul.2
  if 64 ≤ j ∧ j < 192 then some ((b0 / 2 ^ 64 + b2) % 2 ^ 128 / 2 ^ (j - 64).toNat % 2 ^ 64) else none

/-- The values `vr`, `vp`, `vm`, `e10` and the two flags after step 3 of `d2d`. -/
structure RyuBounds where
  vr : Nat
  vp : Nat
  vm : Nat
  e10 : Int
  vmZeros : Bool
  vrZeros : Bool
  deriving DecidableEq, Repr

/-- `mulShiftAll`, src/geoarrow/ryu/d2s.c:105-123: `vr`, `vp`, `vm`. -/
def mulShiftAll (m : Nat) (mul : Nat × Nat) (j : Int) (mmShift : Nat) : Option (Nat × Nat × Nat) := do
  let vp ← mulShift (4 * m + 2) mul j
  let vm ← mulShift (4 * m - 1 - mmShift) mul j
  let vr ← mulShift (4 * m) mul j
  some (vr, vp, vm)

/-- `q` for `e2 >= 0`, src/geoarrow/ryu/d2s.c:287 -/
def upQ (e2 : Nat) : Nat := log10Pow2 e2 - (if e2 > 3 then 1 else 0)

/-- `q` for `e2 < 0`, src/geoarrow/ryu/d2s.c:321; `n` is `-e2`. -/
def downQ (n : Nat) : Nat := log10Pow5 n - (if n > 1 then 1 else 0)

/-- Step 3 of `d2d` for `e2 >= 0`, src/geoarrow/ryu/d2s.c:285-318 -/
def d2dUp (m2 e2 mmShift : Nat) : Option RyuBounds := do
  let q := upQ e2
  let k : Int := 125 + pow5bits q - 1
  let i : Int := -e2 + q + k
  let mul ← pow5InvSplit[q]?
  let (vr, vp, vm) ← mulShiftAll m2 mul i mmShift
  let mv := 4 * m2
  if q ≤ 21 then
    if mv % 5 = 0 then some ⟨vr, vp, vm, q, false, decide (mv % 5 ^ q = 0)⟩
    else if m2 % 2 = 0 then some ⟨vr, vp, vm, q, decide ((mv - 1 - mmShift) % 5 ^ q = 0), false⟩
    else some ⟨vr, if (mv + 2) % 5 ^ q = 0 then vp - 1 else vp, vm, q, false, false⟩
  else some ⟨vr, vp, vm, q, false, false⟩

/-- Step 3 of `d2d` for `e2 < 0`, src/geoarrow/ryu/d2s.c:320-359; `n` is `-e2`. -/
def d2dDown (m2 n mmShift : Nat) : Option RyuBounds := do
  let q := downQ n
  let i := n - q
  let k : Int := pow5bits i - 125
  let j : Int := q - k
  let mul ← pow5Split[i]?
  let (vr, vp, vm) ← mulShiftAll m2 mul j mmShift
  let e10 : Int := q - n
  let mv := 4 * m2
  if q ≤ 1 then
    if m2 % 2 = 0 then some ⟨vr, vp, vm, e10, decide (mmShift = 1), true⟩
    else some ⟨vr, vp - 1, vm, e10, false, true⟩
  else if q < 63 then some ⟨vr, vp, vm, e10, false, decide (mv % 2 ^ q = 0)⟩
  else some ⟨vr, vp, vm, e10, false, false⟩

/-- Variables of the loops of step 4. -/
structure RyuLoop where
  vr : Nat
  vp : Nat
  vm : Nat
  vmZeros : Bool
  vrZeros : Bool
  last : Nat
  removed : Nat
  deriving DecidableEq, Repr

/-- src/geoarrow/ryu/d2s.c:375-391 -/
def ryuLoop1 : (rounds : Nat) → RyuLoop → Option RyuLoop
  | 0, _ => none
  | n + 1, s =>
    if s.vp / 10 ≤ s.vm / 10 then some s
    else ryuLoop1 n ⟨s.vr / 10, s.vp / 10, s.vm / 10, s.vmZeros && decide (s.vm % 10 = 0), s.vrZeros && decide (s.last = 0), s.vr % 10, s.removed + 1⟩

/-- src/geoarrow/ryu/d2s.c:397-412 -/
def ryuLoop2 : (rounds : Nat) → RyuLoop → Option RyuLoop
  | 0, _ => none
  | n + 1, s =>
    if s.vm % 10 ≠ 0 then some s
    else ryuLoop2 n ⟨s.vr / 10, s.vp / 10, s.vm / 10, s.vmZeros, s.vrZeros && decide (s.last = 0), s.vr % 10, s.removed + 1⟩

/-- The loop of the common case, src/geoarrow/ryu/d2s.c:443-456; `vr`, `vp`, `vm`, `roundUp`, `removed`. -/
def ryuLoop3 : (rounds : Nat) → (vr vp vm : Nat) → (roundUp : Bool) → (removed : Nat) → Option (Nat × Nat × Nat × Bool × Nat)
  | 0, _, _, _, _, _ => none
  | n + 1, vr, vp, vm, roundUp, removed =>
    if vp / 10 ≤ vm / 10 then some (vr, vp, vm, roundUp, removed)
    else ryuLoop3 n (vr / 10) (vp / 10) (vm / 10) (decide (vr % 10 ≥ 5)) (removed + 1)

/-- A decimal `mantissa * 10^exponent`. `floating_decimal_64`, src/geoarrow/ryu/d2s.c:245-250 -/
structure Dec where
  mantissa : Nat
  exponent : Int
  deriving DecidableEq, Repr

/-- The general case of step 4, src/geoarrow/ryu/d2s.c:374-424 -/
def d2dGeneral (b : RyuBounds) (acceptBounds : Bool) : Option Dec := do
  let s ← ryuLoop1 64 ⟨b.vr, b.vp, b.vm, b.vmZeros, b.vrZeros, 0, 0⟩
  let s ← if s.vmZeros then ryuLoop2 64 s else some s
  let last := if s.vrZeros && decide (s.last = 5) && decide (s.vr % 2 = 0) then 4 else s.last
  let up := (decide (s.vr = s.vm) && (!acceptBounds || !s.vmZeros)) || decide (last ≥ 5)
  some ⟨s.vr + (if up then 1 else 0), b.e10 + s.removed⟩

/-- The common case of step 4, src/geoarrow/ryu/d2s.c:426-463 -/
def d2dCommon (b : RyuBounds) : Option Dec := do
  let (vr, vp, vm, up, removed) :=
    if b.vp / 100 > b.vm / 100 then (b.vr / 100, b.vp / 100, b.vm / 100, decide (b.vr % 100 ≥ 50), 2) else (b.vr, b.vp, b.vm, false, 0)
  let (vr, _, vm, up, removed) ← ryuLoop3 64 vr vp vm up removed
  some ⟨vr + (if decide (vr = vm) || up then 1 else 0), b.e10 + removed⟩

/-- `d2d`, src/geoarrow/ryu/d2s.c:252-476 -/
def d2d (ieeeMantissa ieeeExponent : Nat) : Option Dec := do
  let e2 : Int := if ieeeExponent = 0 then 1 - 1023 - 52 - 2 else ieeeExponent - 1023 - 52 - 2
  let m2 := if ieeeExponent = 0 then ieeeMantissa else 2 ^ 52 + ieeeMantissa
  let mmShift := if ieeeMantissa ≠ 0 ∨ ieeeExponent ≤ 1 then 1 else 0
  let b ← if 0 ≤ e2 then d2dUp m2 e2.toNat mmShift else d2dDown m2 (-e2).toNat mmShift
  if b.vmZeros || b.vrZeros then d2dGeneral b (decide (m2 % 2 = 0)) else d2dCommon b

/-- `pow_10`, src/geoarrow/ryu/d2s.c:478-503 -/
def pow10 (e : Nat) : Option Nat := if e ≤ 17 then some (10 ^ e) else none

/-- A decimal digit. -/
def digit (n : Nat) : Byte := BitVec.ofNat 8 (48 + n)

/-- Two bytes at `DIGIT_TABLE + 2 * c`, src/geoarrow/ryu/digit_table.h:22-34 -/
def digitPair (c : Nat) : Option (List Byte) := if c < 100 then some [digit (c / 10), digit (c % 10)] else none

/-- The four-digit blocks of `to_chars_uint64`, src/geoarrow/ryu/d2s.c:533-545: the rest of the number and the bytes written so far
at the end of the text. -/
def charBlocks : (rounds : Nat) → (output2 : Nat) → (written : List Byte) → Option (Nat × List Byte)
  | 0, _, _ => none
  | n + 1, output2, written =>
    if output2 ≥ 10000 then do
      let c := output2 % 10000
      let p0 ← digitPair (c % 100)
      let p1 ← digitPair (c / 100)
      charBlocks n (output2 / 10000) (p1 ++ p0 ++ written)
    else some (output2, written)

/-- The eight low digits of a number of more than 32 bits, src/geoarrow/ryu/d2s.c:508-530 -/
def charHalf (output : Nat) : Option (Nat × List Byte) :=
  if output / 2 ^ 32 ≠ 0 then do
    let q := output / 100000000
    let output2 := output % 100000000
    let c := output2 % 10000
    let d := output2 / 10000 % 10000
    let c0 ← digitPair (c % 100)
    let c1 ← digitPair (c / 100)
    let d0 ← digitPair (d % 100)
    let d1 ← digitPair (d / 100)
    some (q, d1 ++ d0 ++ c1 ++ c0)
  else some (output, [])

/-- Two more digits, src/geoarrow/ryu/d2s.c:547-556 -/
def charTwo (output2 : Nat) (written : List Byte) : Option (Nat × List Byte) :=
  if output2 ≥ 100 then do
    let p ← digitPair (output2 % 100)
    some (output2 / 100, p ++ written)
  else some (output2, written)

/-- The first one or two digits, src/geoarrow/ryu/d2s.c:557-566. Digits are written from the end of the `olength` bytes, but a single
digit is written to the first byte: `none` if the bytes written are not the first ones. -/
def charFirst (output2 : Nat) (written : List Byte) (olength : Nat) : Option (List Byte) :=
  if output2 ≥ 10 then do
    let p ← digitPair output2
    if olength = 2 + written.length then some (p ++ written) else none
  else
    if written = [] ∨ olength = 1 + written.length then some (digit output2 :: written) else none

/-- `to_chars_uint64`, src/geoarrow/ryu/d2s.c:505-567 -/
def toCharsUint64 (output olength : Nat) : Option (List Byte) := do
  let half ← charHalf output
  let blocks ← charBlocks 4 (u32 half.1) half.2
  let two ← charTwo blocks.1 blocks.2
  charFirst two.1 two.2 olength

/-- The loop that drops trailing zeros, src/geoarrow/ryu/d2s.c:609-613: `output`, `exp`, `olength`. -/
def dropZeros : (rounds : Nat) → (output : Nat) → (exp : Int) → (olength : Nat) → Option (Nat × Int × Nat)
  | 0, _, _, _ => none
  | n + 1, output, exp, olength =>
    if output ≠ 0 ∧ output % 10 = 0 then dropZeros n (output / 10) (exp + 1) (olength - 1) else some (output, exp, olength)

/-- The rounding to `precision` decimals in `to_chars_fixed`, src/geoarrow/ryu/d2s.c:588-615, for a negative exponent. -/
def roundDecimals (output : Nat) (exp : Int) (olength precision : Nat) : Option (Nat × Int × Nat) :=
  if (precision : Int) < -exp then
    let trim := (-exp - precision).toNat
    if trim > olength then some (0, 0, olength)
    else do
      let divisor ← pow10 trim
      let half := divisor / 2
      let outputDiv := output / divisor
      let remainder := output - outputDiv * divisor
      let exp := exp + trim
      let up := decide (remainder > half) || (decide (remainder = half) && decide (outputDiv % 2 = 1))
      dropZeros 64 (if up then outputDiv + 1 else outputDiv) exp (if up then decimalLength17 (outputDiv + 1) else olength - trim)
  else some (output, exp, olength)

/-- The parts `to_chars_fixed` writes. -/
structure FixedParts where
  intPart : Nat
  intLength : Nat
  intZeros : Nat
  decPart : Nat
  decLength : Nat
  decZeros : Nat
  deriving DecidableEq, Repr

/-- src/geoarrow/ryu/d2s.c:569-640 -/
def fixedParts (v : Dec) (precision : Nat) : Option FixedParts :=
  let olength := decimalLength17 v.mantissa
  if v.exponent ≥ 0 then some ⟨v.mantissa, olength, v.exponent.toNat, 0, 0, 0⟩
  else do
    let (output, exp, olength) ← roundDecimals v.mantissa v.exponent olength precision
    let nexp := (-exp).toNat
    if exp ≥ 0 then some ⟨output, olength, exp.toNat, 0, 0, 0⟩
    else if nexp < olength then do
      let p ← pow10 nexp
      let decPart := output % p
      let low ← pow10 (nexp - 1)
      if decPart < low then
        some ⟨output / p, olength - nexp, 0, decPart, decimalLength17 decPart, nexp - decimalLength17 decPart⟩
      else some ⟨output / p, olength - nexp, 0, decPart, nexp, 0⟩
    else some ⟨0, 0, 0, output, olength, nexp - olength⟩

/-- `to_chars_fixed`, src/geoarrow/ryu/d2s.c:569-668 -/
def toCharsFixed (v : Dec) (sign : Bool) (precision : Nat) : Option (List Byte) := do
  let p ← fixedParts v precision
  let int ← toCharsUint64 p.intPart p.intLength
  let head := (if sign && (decide (p.intPart ≠ 0) || decide (p.decPart ≠ 0)) then str "-" else []) ++ int ++ List.replicate p.intZeros (digit 0)
  if p.decPart ≠ 0 then do
    let dec ← toCharsUint64 p.decPart p.decLength
    some (head ++ str "." ++ List.replicate p.decZeros (digit 0) ++ dec)
  else some head

/-- `d2d_small_int`, src/geoarrow/ryu/d2s.c:670-700 -/
def d2dSmallInt (ieeeMantissa ieeeExponent : Nat) : Option Dec :=
  let m2 := 2 ^ 52 + ieeeMantissa
  let e2 : Int := ieeeExponent - 1023 - 52
  if e2 > 0 then none
  else if e2 < -52 then none
  else if m2 % 2 ^ (-e2).toNat ≠ 0 then none
  else some ⟨m2 / 2 ^ (-e2).toNat, 0⟩

/-- The loop that moves zeros into the exponent, src/geoarrow/ryu/d2s.c:734-742 -/
def trimSmallInt : (rounds : Nat) → Dec → Option Dec
  | 0, _ => none
  | n + 1, v => if v.mantissa % 10 ≠ 0 then some v else trimSmallInt n ⟨v.mantissa / 10, v.exponent + 1⟩

/-- The sign bit. src/geoarrow/ryu/d2s.c:715-716 -/
def Dbl.sign (f : Dbl) : Bool := decide (f.toNat / 2 ^ 63 % 2 ≠ 0)
/-- src/geoarrow/ryu/d2s.c:717 -/
def Dbl.mantissa (f : Dbl) : Nat := f.toNat % 2 ^ 52
/-- src/geoarrow/ryu/d2s.c:718-719 -/
def Dbl.exponent (f : Dbl) : Nat := f.toNat / 2 ^ 52 % 2 ^ 11

/-- `copy_special_str`, src/geoarrow/ryu/common.h:100-114 -/
def specialText (sign : Bool) (exponent mantissa : Nat) : List Byte :=
  if mantissa ≠ 0 then str "nan"
  else if exponent ≠ 0 then (if sign then str "-" else []) ++ str "Infinity"
  else str "0"

/-- The conversion to a decimal in the two printing functions, src/geoarrow/ryu/d2s.c:726-745 and 774-793 -/
def toDecimal (f : Dbl) : Option Dec :=
  match d2dSmallInt f.mantissa f.exponent with
  | some v => trimSmallInt 64 v
  | none => d2d f.mantissa f.exponent

/-- The double is an infinity, a NaN or a zero. src/geoarrow/ryu/d2s.c:721-722 -/
def Dbl.special (f : Dbl) : Bool := decide (f.exponent = 2 ^ 11 - 1) || (decide (f.exponent = 0) && decide (f.mantissa = 0))

/-- `GeoArrowd2sfixed_buffered_n`, src/geoarrow/ryu/d2s.c:702-748 -/
def d2sFixed (f : Dbl) (precision : Nat) : Option (List Byte) :=
  if f.special then some (specialText f.sign f.exponent f.mantissa)
  else do
    let v ← toDecimal f
    toCharsFixed v f.sign precision

/-- The exponent in `GeoArrowd2sexp_buffered_n`, src/geoarrow/ryu/d2s.c:803-822 -/
def expText (exp : Int) : Option (List Byte) :=
  let e := exp.natAbs
  let digits :=
    if e ≥ 100 then (digitPair (e / 10)).map (· ++ [digit (e % 10)])
    else if e ≥ 10 then digitPair e
    else some [digit e]
  digits.map ((str "e" ++ (if exp < 0 then str "-" else str "+")) ++ ·)

/-- `GeoArrowd2sexp_buffered_n`, src/geoarrow/ryu/d2s.c:750-825 -/
def d2sExp (f : Dbl) (precision : Nat) : Option (List Byte) :=
  if f.special then some (specialText f.sign f.exponent f.mantissa)
  else do
    let v ← toDecimal f
    let olength := decimalLength17 v.mantissa
    let text ← toCharsFixed ⟨v.mantissa, 1 - olength⟩ f.sign precision
    let e ← expText (v.exponent + olength - 1)
    some (text ++ e)

/-- The constant `1.0e17`, src/geoarrow/double_print.c:12 -/
def dbl1e17 : Dbl := 0x4376345785D8A000#64

/-- `GeoArrowPrintDouble` with `GEOARROW_USE_RYU`, src/geoarrow/double_print.c:9-20 -/
def printDouble (f : Dbl) (precision : Nat) : Option (List Byte) :=
  if f.gt dbl1e17 || Dbl.gt (0xC376345785D8A000#64) f then d2sExp f 17 else d2sFixed f precision

end Verif
