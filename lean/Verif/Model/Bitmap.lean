import Verif.Model.Basic
/-!
# Validity bitmaps (vendored nanoarrow)

src/vendor/nanoarrow/nanoarrow.h
-/
namespace Verif

/-- `struct ArrowBitmap`, src/vendor/nanoarrow/nanoarrow.h (buffer + size_bits). `buf` is the allocated region (its length is
`capacity_bytes`; `data == NULL` iff it is empty), `sizeBytes` is `buffer.size_bytes`. -/
structure Bitmap where
  buf : List Byte
  sizeBytes : Nat
  bits : Nat
  deriving DecidableEq, Repr

/-- `ArrowBitmapInit`, src/vendor/nanoarrow/nanoarrow.h:2919-2922 -/
def Bitmap.init : Bitmap := ⟨[], 0, 0⟩

/-- `_ArrowkPrecedingBitmask[k]`, src/vendor/nanoarrow/nanoarrow.h:2671 -/
def precedingMask (k : Nat) : Byte := ([0, 1, 3, 7, 15, 31, 63, 127] : List Byte).getD k 0
/-- `_ArrowkTrailingBitmask[k]`, src/vendor/nanoarrow/nanoarrow.h:2672 -/
def trailingMask (k : Nat) : Byte := ([255, 254, 252, 248, 240, 224, 192, 128] : List Byte).getD k 0

/-- `_ArrowBytesForBits`, src/vendor/nanoarrow/nanoarrow.h:2692-2694 -/
def bytesForBits (n : Nat) : Nat := n / 8 + (if n % 8 ≠ 0 then 1 else 0)

/-- `bits[i] = (bits[i] & mask) | (fill & ~mask)`; `none` if outside the allocation. -/
def maskByte (buf : List Byte) (i : Nat) (mask fill : Byte) : Option (List Byte) :=
  match buf[i]? with
  | none => none
  | some b => some (buf.set i ((b &&& mask) ||| (fill &&& ~~~mask)))

/-- `memset(bits + i, fill, n)` -/
def fillBytes (fill : Byte) : (n i : Nat) → List Byte → Option (List Byte)
  | 0, _, buf => some buf
  | n + 1, i, buf => if i < buf.length then fillBytes fill n (i + 1) (buf.set i fill) else none

/-- `ArrowBitsSetTo`, src/vendor/nanoarrow/nanoarrow.h:2829-2872, with `bits_are_set` 0 or 1. -/
def bitsSetTo (buf : List Byte) (start length : Nat) (v : Bool) : Option (List Byte) :=
  if length = 0 then some buf
  else
    let iEnd := start + length
    let fill : Byte := if v then 255 else 0
    let bytesBegin := start / 8
    let bytesEnd := iEnd / 8 + 1
    let first := precedingMask (start % 8)
    let last := trailingMask (iEnd % 8)
    if bytesEnd = bytesBegin + 1 then
      maskByte buf bytesBegin (if iEnd % 8 = 0 then first else first ||| last) fill
    else do
      let buf ← maskByte buf bytesBegin first fill
      let buf ← (if 2 < bytesEnd - bytesBegin then fillBytes fill (bytesEnd - bytesBegin - 2) (bytesBegin + 1) buf
                 else some buf)
      if iEnd % 8 = 0 then some buf
      else maskByte buf (bytesEnd - 1) last fill

/-- `_ArrowGrowByFactor`, src/vendor/nanoarrow/nanoarrow.h:2436-2443 -/
def growByFactor (cur new : Nat) : Nat := if cur * 2 > new then cur * 2 else new

/-- `ArrowBufferReserve`, src/vendor/nanoarrow/nanoarrow.h:2554-2574, on a buffer with allocated region `buf` of which
`size` bytes are in use. Fresh memory has contents `junk`. -/
def bufferReserve (junk : Nat → Byte) (buf : List Byte) (size additional : Nat) : List Byte :=
  if size + additional ≤ buf.length then buf
  else
    let cap := growByFactor buf.length (size + additional)
    buf ++ (List.range (cap - buf.length)).map junk

/-- `ArrowBitmapReserve`, src/vendor/nanoarrow/nanoarrow.h:2930-2951 -/
def Bitmap.reserve (junk : Nat → Byte) (b : Bitmap) (additional : Nat) : Bitmap :=
  let minCap := bytesForBits (b.bits + additional)
  if minCap ≤ b.buf.length then b
  else
    let buf := bufferReserve junk b.buf b.sizeBytes (minCap - b.sizeBytes)
    { b with buf := buf.set (buf.length - 1) 0 }

/-- `ArrowBitmapAppendUnsafe`, src/vendor/nanoarrow/nanoarrow.h:2976-2981 -/
def Bitmap.appendUnsafe (b : Bitmap) (v : Bool) (length : Nat) : Option Bitmap :=
  match bitsSetTo b.buf b.bits length v with
  | none => none
  | some buf => some { buf := buf, sizeBytes := bytesForBits (b.bits + length), bits := b.bits + length }

/-- `ArrowBitmapAppend`, src/vendor/nanoarrow/nanoarrow.h:2968-2974 -/
def Bitmap.append (junk : Nat → Byte) (b : Bitmap) (v : Bool) (length : Nat) : Option Bitmap :=
  (b.reserve junk length).appendUnsafe v length

/-- `ArrowBitGet`, src/vendor/nanoarrow/nanoarrow.h:2732-2734 -/
def bitGet (buf : List Byte) (i : Nat) : Option Bool :=
  (buf[i / 8]?).map fun (b : Byte) => ((b >>> (i % 8)) &&& 1) != 0

end Verif
