import Verif.Model.FastFloatTable
/-!
# `fast_float.h` and `double_parse_fast_float.cc`: reading doubles (the default build)

`fast_float::from_chars` for `double`, `char` and the default options, and everything it calls.

Simplified: 64-bit integers are natural numbers reduced modulo `2^64` where C++ may wrap; `int32_t` and `int64_t` are integers, as
texts are shorter than `2^27` in all theorems; of the variants for different compilers those for 64-bit GCC are modelled
(`__SIZEOF_INT128__`, `__builtin_clzll`, `FASTFLOAT_64BIT_LIMB`, no `FASTFLOAT_ALLOWS_LEADING_PLUS`, no `FASTFLOAT_SKIP_WHITE_SPACE`);
texts are lists of bytes and pointers into them are the lists of what follows; masks are written as remainders of divisions by powers
of two. `none` stands for a big integer that does not fit (the return value of the operation is ignored in C++) or a loop that does not end.
-/
namespace Verif.FF

/-- `uint64_t` -/
def u64 (n : Nat) : Nat := n % 2 ^ 64

/-- `is_integer`, src/geoarrow/fast_float.h:1509-1512 -/
def isInteger (b : Byte) : Bool := decide (48 ≤ b.toNat) && decide (b.toNat ≤ 57)

/-- What `*p - '0'` is for a digit, src/geoarrow/fast_float.h:1793 -/
def digit (b : Byte) : Nat := b.toNat - 48

/-- `read8_to_u64`, src/geoarrow/fast_float.h:1521-1539 -/
def read8 (a b c d e f g h : Byte) : Nat :=
  a.toNat + 2 ^ 8 * b.toNat + 2 ^ 16 * c.toNat + 2 ^ 24 * d.toNat + 2 ^ 32 * e.toNat + 2 ^ 40 * f.toNat + 2 ^ 48 * g.toNat + 2 ^ 56 * h.toNat

/-- `x & 0x000000FF000000FF`, src/geoarrow/fast_float.h:1599 -/
def mask04 (x : Nat) : Nat := x % 2 ^ 8 + x / 2 ^ 32 % 2 ^ 8 * 2 ^ 32

/-- `parse_eight_digits_unrolled`, src/geoarrow/fast_float.h:1592-1601 -/
def parseEight (val : Nat) : Nat :=
  let val := u64 (val + 2 ^ 64 - 0x3030303030303030)
  let val := u64 (u64 (val * 10) + val / 2 ^ 8)
  let val := u64 (u64 (mask04 val * 0x000F424000000064) + u64 (mask04 (val / 2 ^ 16) * 0x0000271000000001)) / 2 ^ 32
  val % 2 ^ 32

/-- `(x & 0x8080808080808080) != 0`, src/geoarrow/fast_float.h:1616-1617 -/
def anyHighBit (x : Nat) : Bool :=
  [7, 15, 23, 31, 39, 47, 55, 63].any fun i => decide (x / 2 ^ i % 2 = 1)

/-- `is_made_of_eight_digits_fast`, src/geoarrow/fast_float.h:1614-1618 -/
def isMadeOfEightDigits (val : Nat) : Bool :=
  !(anyHighBit (u64 (val + 0x4646464646464646)) || anyHighBit (u64 (val + 2 ^ 64 - 0x3030303030303030)))

/-- The loops over digits, src/geoarrow/fast_float.h:1789-1795 and 1820-1824: the number and what follows the digits. -/
def digitLoop : Nat → List Byte → Nat × List Byte
  | i, [] => (i, [])
  | i, b :: l => if isInteger b then digitLoop (u64 (u64 (10 * i) + digit b)) l else (i, b :: l)

/-- `loop_parse_if_eight_digits`, src/geoarrow/fast_float.h:1693-1701 -/
def eightLoop : Nat → List Byte → Nat × List Byte
  | i, a :: b :: c :: d :: e :: f :: g :: h :: l =>
    if isMadeOfEightDigits (read8 a b c d e f g h) then eightLoop (u64 (u64 (i * 100000000) + parseEight (read8 a b c d e f g h))) l
    else (i, a :: b :: c :: d :: e :: f :: g :: h :: l)
  | i, l => (i, l)

/-- The loop over the digits of the exponent, src/geoarrow/fast_float.h:1865-1871 -/
def exponentLoop : Nat → List Byte → Nat × List Byte
  | n, [] => (n, [])
  | n, b :: l => if isInteger b then exponentLoop (if n < 0x10000000 then 10 * n + digit b else n) l else (n, b :: l)

/-- The part of `start` before `rest`, which is a tail of it: the `span` constructed in src/geoarrow/fast_float.h:1798 and 1826 -/
def spanTo (start rest : List Byte) : List Byte := start.take (start.length - rest.length)

/-- The exponential part, src/geoarrow/fast_float.h:1839-1876: its number and what follows it. -/
def exponentPart (p : List Byte) : Int × List Byte :=
  match p with
  | [] => (0, p)
  | c :: q =>
    if c = 101 ∨ c = 69 then
      let negExp : Bool := q.head? = some 45
      let r := if q.head? = some 45 ∨ q.head? = some 43 then q.drop 1 else q
      if (r.head?.map isInteger).getD false then
        let (n, r') := exponentLoop 0 r
        (if negExp then -(n : Int) else n, r')
      else (0, p)
    else (0, p)

/-- The loop over leading zeros, src/geoarrow/fast_float.h:1899-1904 -/
def leadingZeros : Int → List Byte → Int
  | n, [] => n
  | n, b :: l => if b = 48 ∨ b = 46 then leadingZeros (if b = 48 then n - 1 else n) l else n

/-- The loops that take digits until there are nineteen, src/geoarrow/fast_float.h:1915-1918 and 1924-1927 -/
def nineteen : Nat → List Byte → Nat × List Byte
  | i, [] => (i, [])
  | i, b :: l => if i < 1000000000000000000 then nineteen (u64 (u64 (i * 10) + digit b)) l else (i, b :: l)

/-- `parsed_number_string_t`, src/geoarrow/fast_float.h:1723-1734 -/
structure Parsed where
  exponent : Int
  mantissa : Nat
  rest : List Byte
  negative : Bool
  tooMany : Bool
  integer : List Byte
  fraction : Option (List Byte)
  deriving DecidableEq, Repr

/-- What follows the sign, src/geoarrow/fast_float.h:1762-1783: `none` if there is no digit and no point after a minus. -/
def afterSign (t : List Byte) : Option (List Byte) :=
  if t.head? = some 45 then
    match t.drop 1 with
    | [] => none
    | b :: l => if !isInteger b && b ≠ 46 then none else some (b :: l)
  else some t

/-- The mantissa and the exponent of a number with more than nineteen digits, src/geoarrow/fast_float.h:1907-1931 -/
def truncated (integer fraction : List Byte) (expNumber : Int) : Nat × Int :=
  let (i, p) := nineteen 0 integer
  if i ≥ 1000000000000000000 then (i, p.length + expNumber)
  else
    let (i, p) := nineteen i fraction
    (i, (p.length : Int) - fraction.length + expNumber)

/-- `parse_number_string`, src/geoarrow/fast_float.h:1752-1938; `none` if the result is not valid. -/
def parseNumberString (t : List Byte) : Option Parsed :=
  match afterSign t with
  | none => none
  | some start =>
    let a := digitLoop 0 start
    let integer := spanTo start a.2
    let point : Bool := a.2.head? = some 46
    let before := a.2.drop 1
    let b := if point then digitLoop (eightLoop a.1 before).1 (eightLoop a.1 before).2 else a
    let exponent : Int := if point then (b.2.length : Int) - before.length else 0
    let fraction := if point then some (spanTo before b.2) else none
    let count : Int := integer.length - exponent
    if count = 0 then none
    else
      let e := exponentPart b.2
      if count > 19 ∧ leadingZeros count start > 19 then
        let (m, ex) := truncated integer (fraction.getD []) e.1
        some ⟨ex, m, e.2, t.head? = some 45, true, integer, fraction⟩
      else some ⟨exponent + e.1, b.1, e.2, t.head? = some 45, false, integer, fraction⟩

/-- `adjusted_mantissa`, src/geoarrow/fast_float.h:564-576 -/
structure Adjusted where
  mantissa : Nat
  power2 : Int
  deriving DecidableEq, Repr

/-- `to_float`, src/geoarrow/fast_float.h:1127-1141, without the sign: the bits of the absolute value. -/
def Adjusted.bits (a : Adjusted) : Nat := a.mantissa ||| u64 ((a.power2 % 2 ^ 64).toNat <<< 52)

/-- `leading_zeroes`, src/geoarrow/fast_float.h:485-503, of a number that is not zero -/
def leadingZeroes (w : Nat) : Nat := 63 - w.log2

/-- `compute_product_approximation`, src/geoarrow/fast_float.h:2789-2816: the high and the low word. -/
def productApprox (q : Int) (w : Nat) : Nat × Nat :=
  let index := (2 * (q + 342)).toNat
  let first := w * powerOfFive128.getD index 0
  let high := first / 2 ^ 64
  let low := first % 2 ^ 64
  if high % 2 ^ 9 = 2 ^ 9 - 1 then
    let second := w * powerOfFive128.getD (index + 1) 0 / 2 ^ 64
    let low := u64 (low + second)
    if second > low then (u64 (high + 1), low) else (high, low)
  else (high, low)

/-- `detail::power`, src/geoarrow/fast_float.h:2832-2834 -/
def power (q : Int) : Int := (152170 + 65536) * q / 2 ^ 16 + 63

/-- `compute_error_scaled` and `compute_error`, src/geoarrow/fast_float.h:2839-2861 -/
def computeError (q : Int) (w : Nat) : Adjusted :=
  let lz := leadingZeroes w
  let h := (productApprox q (u64 (w * 2 ^ lz))).1
  let hilz : Nat := if h / 2 ^ 63 = 1 then 0 else 1
  ⟨u64 (h * 2 ^ hilz), power q + (52 + 1023) - (hilz : Int) - (lz : Int) - 62 + -0x8000⟩

/-- The last steps of `compute_float`, src/geoarrow/fast_float.h:2961-2970 -/
def finish (m : Nat) (power2 : Int) : Adjusted :=
  if m ≥ 2 * 2 ^ 52 then
    if power2 + 1 ≥ 0x7FF then ⟨0, 0x7FF⟩ else ⟨2 ^ 52 % 2 ^ 52, power2 + 1⟩
  else if power2 ≥ 0x7FF then ⟨0, 0x7FF⟩ else ⟨m % 2 ^ 52, power2⟩

/-- The end of `compute_float` for a number that is not subnormal, src/geoarrow/fast_float.h:2938-2971 -/
def roundNormal (q : Int) (high low shift m : Nat) (power2 : Int) : Adjusted :=
  let m := if low ≤ 1 ∧ q ≥ -4 ∧ q ≤ 23 ∧ m % 4 = 1 ∧ u64 (m * 2 ^ shift) = high then m - m % 2 else m
  finish ((m + m % 2) / 2) power2

/-- `compute_float`, src/geoarrow/fast_float.h:2868-2969 -/
def computeFloat (q : Int) (w : Nat) : Adjusted :=
  if w = 0 ∨ q < -342 then ⟨0, 0⟩
  else if q > 308 then ⟨0, 0x7FF⟩
  else
    let lz := leadingZeroes w
    let product := productApprox q (u64 (w * 2 ^ lz))
    let upperbit : Nat := product.1 / 2 ^ 63
    let shift := upperbit + 64 - 52 - 3
    let m := product.1 / 2 ^ shift
    let power2 : Int := power q + (upperbit : Int) - (lz : Int) + 1023
    if power2 ≤ 0 then
      if -power2 + 1 ≥ 64 then ⟨0, 0⟩
      else
        let m := m / 2 ^ (-power2 + 1).toNat
        let m := (m + m % 2) / 2
        ⟨m, if m < 2 ^ 52 then 0 else 1⟩
    else roundNormal q product.1 product.2 shift m power2

/-! ## Big integers: lists of limbs, the lowest first -/

/-- `bigint_limbs`, src/geoarrow/fast_float.h:3016-3017 -/
def bigintLimbs : Nat := 4000 / 64

/-- `try_push` of a carry that is not zero, src/geoarrow/fast_float.h:3071-3078, as used in 3252-3254 and 3272-3274 -/
def pushCarry (r : List Nat × Nat) : Option (List Nat) :=
  if r.2 ≠ 0 then (if r.1.length < bigintLimbs then some (r.1 ++ [r.2]) else none) else some r.1

/-- The loop of `small_add_from`, src/geoarrow/fast_float.h:3247-3251 -/
def addCarry : List Nat → Nat → List Nat × Nat
  | [], c => ([], c)
  | x :: xs, c =>
    if c = 0 then (x :: xs, 0)
    else
      let r := addCarry xs (if 2 ^ 64 ≤ x + c then 1 else 0)
      (u64 (x + c) :: r.1, r.2)

/-- `small_add`, src/geoarrow/fast_float.h:3259-3263 -/
def smallAdd (v : List Nat) (y : Nat) : Option (List Nat) := pushCarry (addCarry v y)

/-- The loop of `small_mul`, src/geoarrow/fast_float.h:3269-3271, with `scalar_mul`, 3214-3237 -/
def mulCarry (y : Nat) : List Nat → Nat → List Nat × Nat
  | [], c => ([], c)
  | x :: xs, c =>
    let r := mulCarry y xs ((x * y + c) / 2 ^ 64)
    (u64 (x * y + c) :: r.1, r.2)

/-- `small_mul`, src/geoarrow/fast_float.h:3266-3276 -/
def smallMul (v : List Nat) (y : Nat) : Option (List Nat) := pushCarry (mulCarry y v 0)

/-- The loop of `large_add_from` and what follows it, src/geoarrow/fast_float.h:3290-3306, for the limbs of `x` from `start` on: the carry is
handled by `small_add_from`. -/
def addLimbs : List Nat → List Nat → Bool → List Nat × Nat
  | xs, [], carry => addCarry xs (if carry then 1 else 0)
  | [], _ :: _, _ => ([], 0)
  | x :: xs, y :: ys, carry =>
    let s := u64 (x + y)
    let c1 := decide (2 ^ 64 ≤ x + y)
    let t := if carry then u64 (s + 1) else s
    let c2 := carry && decide (2 ^ 64 ≤ s + 1)
    let r := addLimbs xs ys (c1 || c2)
    (t :: r.1, r.2)

/-- `large_add_from`, src/geoarrow/fast_float.h:3280-3308 -/
def largeAddFrom (x y : List Nat) (start : Nat) : Option (List Nat) :=
  let resize := decide (x.length < start) || decide (y.length > x.length - start)
  if resize && decide (bigintLimbs < y.length + start) then none
  else
    let x := if resize then x ++ List.replicate (y.length + start - x.length) 0 else x
    let r := addLimbs (x.drop start) y false
    pushCarry (x.take start ++ r.1, r.2)

/-- `normalize`, src/geoarrow/fast_float.h:3137-3141 -/
def normalize (v : List Nat) : List Nat := (v.reverse.dropWhile (· == 0)).reverse

/-- The loop of `long_mul`, src/geoarrow/fast_float.h:3327-3338, from `index` on: `z` is the factor, `x` the sum so far. -/
def longLoop (z : List Nat) : List Nat → List Nat → Nat → Option (List Nat)
  | x, [], _ => some x
  | x, yi :: ys, index =>
    if yi ≠ 0 then do
      let zi ← smallMul z yi
      let x ← largeAddFrom x zi index
      longLoop z x ys (index + 1)
    else longLoop z x ys (index + 1)

/-- `long_mul`, src/geoarrow/fast_float.h:3318-3343 -/
def longMul (x y : List Nat) : Option (List Nat) :=
  match y with
  | [] => some (normalize x)
  | y0 :: ys => do
    let x' ← smallMul x y0
    let r ← longLoop x x' ys 1
    some (normalize r)

/-- `large_mul`, src/geoarrow/fast_float.h:3346-3354 -/
def largeMul (x y : List Nat) : Option (List Nat) :=
  match y with
  | [y0] => smallMul x y0
  | _ => longMul x y

/-- `small_power_of_5`, src/geoarrow/fast_float.h:3359-3388 -/
def smallPowerOf5 : List Nat :=
  [1, 5, 25, 125, 625, 3125, 15625, 78125, 390625, 1953125, 9765625, 48828125, 244140625, 1220703125, 6103515625, 30517578125,
    152587890625, 762939453125, 3814697265625, 19073486328125, 95367431640625, 476837158203125, 2384185791015625, 11920928955078125,
    59604644775390625, 298023223876953125, 1490116119384765625, 7450580596923828125]

/-- `large_power_of_5`, src/geoarrow/fast_float.h:3390-3392 -/
def largePowerOf5 : List Nat := [1414648277510068013, 9180637584431281687, 4539964771860779200, 10482974169319127550, 198276706040285095]

/-- The first loop of `pow5`, src/geoarrow/fast_float.h:3586-3589: the rounds are counted by the first argument. -/
def pow5Large : Nat → List Nat → Option (List Nat)
  | 0, v => some v
  | n + 1, v => do
    let v ← largeMul v largePowerOf5
    pow5Large n v

/-- The second loop of `pow5`, src/geoarrow/fast_float.h:3597-3600 -/
def pow5Small : Nat → List Nat → Option (List Nat)
  | 0, v => some v
  | n + 1, v => do
    let v ← smallMul v 7450580596923828125
    pow5Small n v

/-- `pow5`, src/geoarrow/fast_float.h:3582-3610: the loops subtract 135 and 27 while they can, that is, as often as the quotient says. -/
def pow5 (exp : Nat) (v : List Nat) : Option (List Nat) := do
  let v ← pow5Large (exp / 135) v
  let exp := exp % 135
  let v ← pow5Small (exp / 27) v
  let exp := exp % 27
  if exp ≠ 0 then smallMul v (smallPowerOf5.getD exp 0) else some v

/-- The loop of `shl_bits`, src/geoarrow/fast_float.h:3507-3511 -/
def shlLimbs (n : Nat) : List Nat → Nat → List Nat × Nat
  | [], prev => ([], prev / 2 ^ (64 - n))
  | x :: xs, prev =>
    let r := shlLimbs n xs x
    ((u64 (x * 2 ^ n) ||| prev / 2 ^ (64 - n)) :: r.1, r.2)

/-- `shl_bits`, src/geoarrow/fast_float.h:3494-3517, if there are bits to shift, 3544-3546 -/
def shlBits (n : Nat) (v : List Nat) : Option (List Nat) := if n ≠ 0 then pushCarry (shlLimbs n v 0) else some v

/-- `shl_limbs`, src/geoarrow/fast_float.h:3520-3538, if there are limbs to shift, 3547-3549 -/
def shlWhole (n : Nat) (v : List Nat) : Option (List Nat) :=
  if n ≠ 0 then
    if n + v.length > bigintLimbs then none
    else if v ≠ [] then some (List.replicate n 0 ++ v)
    else some v
  else some v

/-- `shl`, src/geoarrow/fast_float.h:3541-3551; also `pow2`, 3579 -/
def shl (n : Nat) (v : List Nat) : Option (List Nat) := (shlBits (n % 64) v).bind (shlWhole (n / 64))

/-- `pow10`, src/geoarrow/fast_float.h:3613-3616 -/
def pow10 (exp : Nat) (v : List Nat) : Option (List Nat) := do
  let v ← pow5 exp v
  shl exp v

/-- The constructor of `bigint` from a number, src/geoarrow/fast_float.h:3428-3436 -/
def bigOf (value : Nat) : List Nat := normalize [value]

/-- `hi64`, src/geoarrow/fast_float.h:3440-3451, with `uint64_hi64`, 3150-3170: the 64 highest bits and whether bits were dropped. -/
def hi64 (v : List Nat) : Nat × Bool :=
  match v.reverse with
  | [] => (0, false)
  | [r0] => (u64 (r0 * 2 ^ leadingZeroes r0), false)
  | r0 :: r1 :: rs =>
    let shl := leadingZeroes r0
    let r := if shl = 0 then (r0, decide (r1 ≠ 0)) else (u64 (r0 * 2 ^ shl) ||| r1 / 2 ^ (64 - shl), decide (u64 (r1 * 2 ^ shl) ≠ 0))
    (r.1, r.2 || rs.any (· ≠ 0))

/-- `bit_length` and `ctlz`, src/geoarrow/fast_float.h:3554-3572 -/
def bitLength (v : List Nat) : Int :=
  64 * v.length - (match v.reverse with | [] => 0 | r0 :: _ => leadingZeroes r0 : Nat)

/-- The loop of `compare`, src/geoarrow/fast_float.h:3479-3488, over the limbs from the highest on -/
def compareLimbs : List Nat → List Nat → Ordering
  | x :: xs, y :: ys => if x > y then .gt else if x < y then .lt else compareLimbs xs ys
  | _, _ => .eq

/-- `compare`, src/geoarrow/fast_float.h:3473-3490 -/
def compareBig (x y : List Nat) : Ordering :=
  if x.length > y.length then .gt else if x.length < y.length then .lt else compareLimbs x.reverse y.reverse

/-! ## Comparing digits -/

/-- `scientific_exponent`, src/geoarrow/fast_float.h:3667-3685; each loop divides at most six times, as mantissas are below `2^64`. -/
def scientificExponent (mantissa : Nat) (exponent : Int) : Int :=
  let step (d : Nat) (k : Int) (s : Nat × Int) : Nat × Int := if s.1 ≥ d then (s.1 / d, s.2 + k) else s
  let s := (List.range 6).foldl (fun s _ => step 10000 4 s) (mantissa, exponent)
  let s := (List.range 6).foldl (fun s _ => step 100 2 s) s
  ((List.range 6).foldl (fun s _ => step 10 1 s) s).2

/-- `round_nearest_tie_even` and `round_down`, src/geoarrow/fast_float.h:3764-3795, for a shift of at most 64: `up` tells from whether the
result is odd, the bits dropped are a half, and more than a half whether to add one. -/
def roundShift (up : Bool → Bool → Bool → Bool) (m : Nat) (shift : Nat) : Nat :=
  let dropped := m % 2 ^ shift
  let halfway := if shift = 0 then 0 else 2 ^ (shift - 1)
  let m := m / 2 ^ shift
  m + if up (decide (m % 2 = 1)) (decide (dropped = halfway)) (decide (dropped > halfway)) then 1 else 0

/-- `round`, src/geoarrow/fast_float.h:3734-3762; it ends as `compute_float` does. -/
def round (up : Bool → Bool → Bool → Bool) (a : Adjusted) : Adjusted :=
  if -a.power2 ≥ 11 then
    let m := roundShift up a.mantissa (min (-a.power2 + 1) 64).toNat
    ⟨m, if m < 2 ^ 52 then 0 else 1⟩
  else
    finish (roundShift up a.mantissa 11) (a.power2 + 11)

/-- `to_extended_halfway` and `to_extended`, src/geoarrow/fast_float.h:3688-3731, of the double with the given bits (not negative) -/
def halfwayAbove (bits : Nat) : Adjusted :=
  let am : Adjusted :=
    if bits / 2 ^ 52 % 2 ^ 11 = 0 then ⟨bits % 2 ^ 52, 1 - (52 + 1023)⟩
    else ⟨bits % 2 ^ 52 + 2 ^ 52, (bits / 2 ^ 52 % 2 ^ 11 : Nat) - (52 + 1023)⟩
  ⟨u64 (am.mantissa * 2 + 1), am.power2 - 1⟩

/-- `skip_zeros`, src/geoarrow/fast_float.h:3797-3814 -/
def skipZeros : List Byte → List Byte
  | a :: b :: c :: d :: e :: f :: g :: h :: l =>
    if read8 a b c d e f g h = 0x3030303030303030 then skipZeros l
    else (a :: b :: c :: d :: e :: f :: g :: h :: l).dropWhile (· == 48)
  | l => l.dropWhile (· == 48)

/-- `is_truncated`, src/geoarrow/fast_float.h:3818-3837 -/
def isTruncated : List Byte → Bool
  | a :: b :: c :: d :: e :: f :: g :: h :: l =>
    if read8 a b c d e f g h = 0x3030303030303030 then isTruncated l else true
  | l => l.any (· != 48)

/-- `add_native`, src/geoarrow/fast_float.h:3863-3867 -/
def addNative (big : List Nat) (power value : Nat) : Option (List Nat) := do
  let big ← smallMul big power
  smallAdd big value

/-- `powers_of_ten_uint64`, src/geoarrow/fast_float.h:3641-3660 -/
def powersOfTen : List Nat :=
  [1, 10, 100, 1000, 10000, 100000, 1000000, 10000000, 100000000, 1000000000, 10000000000, 100000000000, 1000000000000, 10000000000000,
    100000000000000, 1000000000000000, 10000000000000000, 100000000000000000, 1000000000000000000, 10000000000000000000]

/-- The digits not yet read, the number collected since the last addition to the big integer, how many digits it has, and how many digits
were read: the local variables of `parse_mantissa`, src/geoarrow/fast_float.h:3886-3899 -/
structure Reading where
  p : List Byte
  value : Nat
  counter : Nat
  digits : Nat
  deriving DecidableEq, Repr

/-- The first inner loop of `parse_mantissa`, src/geoarrow/fast_float.h:3902-3905, with `parse_eight_digits`, 3845-3852 -/
def readEights (maxDigits : Nat) : List Byte → Nat → Nat → Nat → Reading
  | a :: b :: c :: d :: e :: f :: g :: h :: l, value, counter, digits =>
    if 19 - counter ≥ 8 ∧ maxDigits - digits ≥ 8 then
      readEights maxDigits l (u64 (u64 (value * 100000000) + parseEight (read8 a b c d e f g h))) (counter + 8) (digits + 8)
    else ⟨a :: b :: c :: d :: e :: f :: g :: h :: l, value, counter, digits⟩
  | l, value, counter, digits => ⟨l, value, counter, digits⟩

/-- The second inner loop of `parse_mantissa`, src/geoarrow/fast_float.h:3906-3908, with `parse_one_digit`, 3854-3861 -/
def readOnes (maxDigits : Nat) : List Byte → Nat → Nat → Nat → Reading
  | [], value, counter, digits => ⟨[], value, counter, digits⟩
  | b :: l, value, counter, digits =>
    if counter < 19 ∧ digits < maxDigits then readOnes maxDigits l (u64 (u64 (value * 10) + digit b)) (counter + 1) (digits + 1)
    else ⟨b :: l, value, counter, digits⟩

/-- The outer loops of `parse_mantissa`, src/geoarrow/fast_float.h:3901-3924 and 3933-3953: the big integer, the number of digits read and, if
there are `maxDigits`, the digits that were not. The first argument counts rounds; `value` and `counter` are zero whenever a round begins. -/
def readChunks (maxDigits : Nat) : Nat → List Byte → List Nat → Nat → Option (List Nat × Nat × Option (List Byte))
  | _, [], big, digits => some (big, digits, none)
  | 0, _ :: _, _, _ => none
  | n + 1, p, big, digits => do
    let r := readEights maxDigits p 0 0 digits
    let r := readOnes maxDigits r.p r.value r.counter r.digits
    let big ← addNative big (powersOfTen.getD r.counter 0) r.value
    if r.digits = maxDigits then some (big, r.digits, some r.p) else readChunks maxDigits n r.p big r.digits

/-- `round_up_bigint` if a digit that is not zero was dropped, src/geoarrow/fast_float.h:3869-3875, as used in 3915-3918 and 3944-3947 -/
def roundUpBig (dropped : Bool) (big : List Nat) (digits : Nat) : Option (List Nat × Nat) :=
  if dropped then do
    let big ← addNative big 10 1
    some (big, digits + 1)
  else some (big, digits)

/-- `parse_mantissa`, src/geoarrow/fast_float.h:3878-3961: the big integer and how many digits it has. -/
def parseMantissa (maxDigits : Nat) (integer : List Byte) (fraction : Option (List Byte)) : Option (List Nat × Nat) := do
  let (big, digits, rest) ← readChunks maxDigits (integer.length + 1) (skipZeros integer) [] 0
  match rest with
  | some p => roundUpBig (isTruncated p || (fraction.map isTruncated).getD false) big digits
  | none =>
    match fraction with
    | none => some (big, digits)
    | some f => do
      let (big, digits, rest) ← readChunks maxDigits (f.length + 1) (if digits = 0 then skipZeros f else f) big digits
      match rest with
      | some p => roundUpBig (isTruncated p) big digits
      | none => some (big, digits)

/-- `positive_digit_comp`, src/geoarrow/fast_float.h:3963-3982 -/
def positiveDigitComp (big : List Nat) (exponent : Nat) : Option Adjusted := do
  let big ← pow10 exponent big
  let (m, truncated) := hi64 big
  some (round (fun odd half above => above || (half && truncated) || (odd && half)) ⟨m, bitLength big - 64 + (52 + 1023)⟩)

/-- An operation on a big integer that is left out unless the condition holds, as in src/geoarrow/fast_float.h:4009-4016 -/
def onlyIf (c : Bool) (f : List Nat → Option (List Nat)) (v : List Nat) : Option (List Nat) := if c then f v else some v

/-- `negative_digit_comp`, src/geoarrow/fast_float.h:3989-4033 -/
def negativeDigitComp (big : List Nat) (am : Adjusted) (exponent : Int) : Option Adjusted := do
  let b := (round (fun _ _ _ => false) am).bits
  let theor := halfwayAbove b
  let theorDigits := bigOf theor.mantissa
  let pow2Exp := theor.power2 - exponent
  let pow5Exp := (-exponent).toNat
  let theorDigits ← onlyIf (pow5Exp ≠ 0) (pow5 pow5Exp) theorDigits
  let theorDigits ← onlyIf (pow2Exp > 0) (shl pow2Exp.toNat) theorDigits
  let big ← onlyIf (pow2Exp < 0) (shl (-pow2Exp).toNat) big
  let ord := compareBig big theorDigits
  some (round (fun odd _ _ => match ord with | .gt => true | .lt => false | .eq => odd) am)

/-- `digit_comp`, src/geoarrow/fast_float.h:4051-4069 -/
def digitComp (p : Parsed) (am : Adjusted) : Option Adjusted := do
  let am : Adjusted := ⟨am.mantissa, am.power2 - -0x8000⟩
  let sciExp := scientificExponent p.mantissa p.exponent
  let (big, digits) ← parseMantissa 769 p.integer p.fraction
  let exponent := sciExp + 1 - digits
  if exponent ≥ 0 then positiveDigitComp big exponent.toNat else negativeDigitComp big am exponent

/-! ## The whole -/

/-- The arithmetic of the machine on doubles that are not negative, given by their bits: whether it rounds to nearest
(`rounds_to_nearest`, src/geoarrow/fast_float.h:4153-4211), products and quotients. -/
structure Fpu where
  nearest : Bool
  mul : Nat → Nat → Nat
  div : Nat → Nat → Nat

/-- The bits of the double that is the integer `m`, if there is one: the conversion `T(pns.mantissa)`,
src/geoarrow/fast_float.h:4307 and 4333, and the entries of `powers_of_ten`, 626-628 -/
def natBits (m : Nat) : Nat := if m = 0 then 0 else (m.log2 + 1023) * 2 ^ 52 + (m * 2 ^ 52 / 2 ^ m.log2 - 2 ^ 52)

/-- The bits of a number with a sign, src/geoarrow/fast_float.h:1135 and 4313-4315 -/
def signed (negative : Bool) (bits : Nat) : Dbl := BitVec.ofNat 64 (bits + if negative then 2 ^ 63 else 0)

/-- The outcome of `from_chars`: a value with what follows the number; an error (`invalid_argument`); a value out of range
(`result_out_of_range`); or what is not modelled, see above. -/
inductive Outcome where
  | value (f : Dbl) (rest : List Byte)
  | invalid
  | range (f : Dbl)
  | stuck
  deriving DecidableEq, Repr

/-- `from_chars_advanced` of a parsed number, src/geoarrow/fast_float.h:4273-4355 -/
def fromParsed (fpu : Fpu) (p : Parsed) : Outcome :=
  let small : Bool := decide (-22 ≤ p.exponent ∧ p.exponent ≤ 22) && !p.tooMany
  if small && fpu.nearest && decide (p.mantissa ≤ 2 * 2 ^ 52) then
    .value (signed p.negative (if p.exponent < 0 then fpu.div (natBits p.mantissa) (natBits (10 ^ (-p.exponent).toNat))
      else fpu.mul (natBits p.mantissa) (natBits (10 ^ p.exponent.toNat)))) p.rest
  else if small && !fpu.nearest && decide (p.exponent ≥ 0) && decide (p.mantissa ≤ 2 ^ 53 / 5 ^ p.exponent.toNat) then
    .value (signed p.negative (fpu.mul (natBits p.mantissa) (natBits (10 ^ p.exponent.toNat)))) p.rest
  else
    let am := computeFloat p.exponent p.mantissa
    let am := if p.tooMany && decide (am.power2 ≥ 0) && decide (am ≠ computeFloat p.exponent (u64 (p.mantissa + 1))) then
      computeError p.exponent p.mantissa else am
    match (if am.power2 < 0 then digitComp p am else some am) with
    | none => .stuck
    | some am =>
      if (p.mantissa ≠ 0 ∧ am.mantissa = 0 ∧ am.power2 = 0) ∨ am.power2 = 0x7FF then .range (signed p.negative am.bits)
      else .value (signed p.negative am.bits) p.rest

/-- `fastfloat_strncasecmp`, src/geoarrow/fast_float.h:411-422: the text begins with the word, whatever the case of its letters. -/
def beginsWith : List Byte → List Byte → Bool
  | _, [] => true
  | [], _ :: _ => false
  | a :: l, e :: es => (a ||| 32) == e && beginsWith l es

/-- What follows `nan`, src/geoarrow/fast_float.h:4120-4130: after a parenthesis letters, digits and underscores up to another one are skipped. -/
def afterNan (l : List Byte) : List Byte :=
  match l with
  | c :: r =>
    if c = 40 then
      match r.dropWhile (fun b => (decide (97 ≤ b.toNat) && decide (b.toNat ≤ 122)) || (decide (65 ≤ b.toNat) && decide (b.toNat ≤ 90)) || isInteger b || b == 95) with
      | d :: r' => if d = 41 then r' else l
      | [] => l
    else l
  | [] => l

/-- `parse_infnan`, src/geoarrow/fast_float.h:4098-4147 -/
def parseInfNan (t : List Byte) : Outcome :=
  let minus : Bool := t.head? = some 45
  let t := if minus then t.drop 1 else t
  if beginsWith t (str "nan") then .value (signed minus 0x7FF8000000000000) (afterNan (t.drop 3))
  else if beginsWith t (str "inf") then
    .value (signed minus 0x7FF0000000000000) (if beginsWith (t.drop 3) (str "inity") then t.drop 8 else t.drop 3)
  else .invalid

/-- `from_chars` and `from_chars_float_advanced`, src/geoarrow/fast_float.h:4261-4266 and 4357-4393 -/
def fromChars (fpu : Fpu) (t : List Byte) : Outcome :=
  if t = [] then .invalid
  else
    match parseNumberString t with
    | none => parseInfNan t
    | some p => fromParsed fpu p

end Verif.FF

namespace Verif

/-- `GeoArrowFromChars` with `fast_float`, src/geoarrow/double_parse_fast_float.cc:7-20: `none` is `EINVAL`. What follows the number is
not looked at. -/
def fastParse (fpu : FF.Fpu) (t : List Byte) : Option Dbl :=
  match FF.fromChars fpu t with
  | .value f _ => some f
  | _ => none

end Verif
