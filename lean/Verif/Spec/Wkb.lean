import Verif.Spec.Geom
/-!
# Specification: well-known binary

Independent of the reader and writer: what byte strings are encodings of a geometry.
-/
namespace Verif.Spec
open Verif

/-- Little-endian bytes put in the wanted byte order. -/
def inOrder (big : Bool) (bs : List Byte) : List Byte := if big then bs.reverse else bs
/-- A 32-bit unsigned integer. -/
def wkbU32 (big : Bool) (n : Nat) : List Byte := inOrder big (leBytes 4 n)
/-- A double. -/
def wkbDbl (big : Bool) (x : Dbl) : List Byte := inOrder big x.bytes
/-- A run of coordinates. -/
def wkbCoords (big : Bool) (cs : List Coord) : List Byte := cs.flatMap fun c => c.flatMap (wkbDbl big)
/-- The byte order mark: 0 is big-endian, 1 little-endian. -/
def orderMark (big : Bool) : Byte := if big then 0 else 1

/-- ISO: thousands digit of the type code. -/
def isoOffset : Dims → Nat
  | .xy => 0
  | .xyz => 1000
  | .xym => 2000
  | .xyzm => 3000
/-- EWKB: Z flag 0x80000000, M flag 0x40000000. -/
def ewkbFlags : Dims → Nat
  | .xy => 0
  | .xyz => 0x80000000
  | .xym => 0x40000000
  | .xyzm => 0xc0000000

/-- `h` is a header for a geometry with type code `base` and dimensions `d`: ISO, or EWKB with or without an SRID
(flag 0x20000000). -/
def IsHeader (big : Bool) (base : Nat) (d : Dims) (h : List Byte) : Prop :=
  h = orderMark big :: wkbU32 big (base + isoOffset d) ∨
  h = orderMark big :: wkbU32 big (base + ewkbFlags d) ∨
  ∃ srid, srid < 2 ^ 32 ∧ h = orderMark big :: wkbU32 big (base + ewkbFlags d + 0x20000000) ++ wkbU32 big srid

/-- The rings of a polygon: each a count and its coordinates. -/
def wkbRings (big : Bool) : List (List Coord) → List Byte
  | [] => []
  | r :: rs => wkbU32 big r.length ++ wkbCoords big r ++ wkbRings big rs

mutual
/-- `b` encodes the geometry. Every part chooses its own byte order and header flavour. Counts fit in 32 bits, a point
has exactly one coordinate (an empty point is written as all-NaN). -/
def WkbEnc : Geom → List Byte → Prop
  | .point d cs, b => ∃ big h c, cs = [c] ∧ c.length = d.n ∧ IsHeader big 1 d h ∧ b = h ++ wkbCoords big [c]
  | .linestring d cs, b => ∃ big h, cs.length < 2 ^ 32 ∧ (∀ c ∈ cs, c.length = d.n) ∧ IsHeader big 2 d h ∧
      b = h ++ wkbU32 big cs.length ++ wkbCoords big cs
  | .polygon d rs, b => ∃ big h, rs.length < 2 ^ 32 ∧ (∀ r ∈ rs, r.length < 2 ^ 32 ∧ ∀ c ∈ r, c.length = d.n) ∧
      IsHeader big 3 d h ∧ b = h ++ wkbU32 big rs.length ++ wkbRings big rs
  | .multi k d ps, b => ∃ big h b', ps.length < 2 ^ 32 ∧ IsHeader big k.code d h ∧ WkbEncL ps b' ∧
      b = h ++ wkbU32 big ps.length ++ b'
def WkbEncL : List Geom → List Byte → Prop
  | [], b => b = []
  | g :: gs, b => ∃ b1 b2, WkbEnc g b1 ∧ WkbEncL gs b2 ∧ b = b1 ++ b2
end

mutual
/-- Number of nesting levels below the outermost geometry: rings count as one. -/
def Geom.height : Geom → Nat
  | .point _ _ => 0
  | .linestring _ _ => 0
  | .polygon _ _ => 1
  | .multi _ _ ps => 1 + Geom.heightL ps
def Geom.heightL : List Geom → Nat
  | [] => 0
  | g :: gs => max g.height (Geom.heightL gs)
end

end Verif.Spec

namespace Verif.Spec
open Verif

/-- ISO header in little-endian order. -/
def isoHeader (base : Nat) (d : Dims) : List Byte := orderMark false :: wkbU32 false (base + isoOffset d)

mutual
/-- The little-endian ISO encoding of a geometry, an empty point being written with all-NaN ordinates. -/
def isoWkb : Geom → List Byte
  | .point d cs => isoHeader 1 d ++ wkbCoords false (if cs = [] then [List.replicate d.n Dbl.nan] else cs)
  | .linestring d cs => isoHeader 2 d ++ wkbU32 false cs.length ++ wkbCoords false cs
  | .polygon d rs => isoHeader 3 d ++ wkbU32 false rs.length ++ wkbRings false rs
  | .multi k d ps => isoHeader k.code d ++ wkbU32 false ps.length ++ isoWkbL ps
def isoWkbL : List Geom → List Byte
  | [] => []
  | g :: gs => isoWkb g ++ isoWkbL gs
end

mutual
/-- Empty points replaced by points whose ordinates are all NaN. -/
def Geom.nanEmpty : Geom → Geom
  | .point d cs => .point d (if cs = [] then [List.replicate d.n Dbl.nan] else cs)
  | .linestring d cs => .linestring d cs
  | .polygon d rs => .polygon d rs
  | .multi k d ps => .multi k d (Geom.nanEmptyL ps)
def Geom.nanEmptyL : List Geom → List Geom
  | [] => []
  | g :: gs => g.nanEmpty :: Geom.nanEmptyL gs
end

mutual
/-- Every count fits in 32 bits and points have at most one coordinate. -/
def Geom.Countable : Geom → Prop
  | .point _ cs => cs.length ≤ 1
  | .linestring _ cs => cs.length < 2 ^ 32
  | .polygon _ rs => rs.length < 2 ^ 32 ∧ ∀ r ∈ rs, r.length < 2 ^ 32
  | .multi _ _ ps => ps.length < 2 ^ 32 ∧ Geom.CountableL ps
def Geom.CountableL : List Geom → Prop
  | [] => True
  | g :: gs => g.Countable ∧ Geom.CountableL gs
end

end Verif.Spec

namespace Verif.Spec
open Verif
mutual
/-- Every coordinate sequence has fewer than 2^32 ordinates. -/
def Geom.SmallSeqs : Geom → Prop
  | .point d cs => d.n * cs.length < 2 ^ 32
  | .linestring d cs => d.n * cs.length < 2 ^ 32
  | .polygon d rs => ∀ r ∈ rs, d.n * r.length < 2 ^ 32
  | .multi _ _ ps => Geom.SmallSeqsL ps
def Geom.SmallSeqsL : List Geom → Prop
  | [] => True
  | g :: gs => g.SmallSeqs ∧ Geom.SmallSeqsL gs
end

mutual
/-- Every point has at most one coordinate. -/
def Geom.SinglePoints : Geom → Prop
  | .point _ cs => cs.length ≤ 1
  | .linestring _ _ => True
  | .polygon _ _ => True
  | .multi _ _ ps => Geom.SinglePointsL ps
def Geom.SinglePointsL : List Geom → Prop
  | [] => True
  | g :: gs => Geom.SinglePoints g ∧ Geom.SinglePointsL gs
end

mutual
/-- No point, at any depth, is empty. -/
def Geom.NoEmptyPoints : Geom → Prop
  | .point _ cs => cs ≠ []
  | .linestring _ _ => True
  | .polygon _ _ => True
  | .multi _ _ ps => Geom.NoEmptyPointsL ps
def Geom.NoEmptyPointsL : List Geom → Prop
  | [] => True
  | g :: gs => g.NoEmptyPoints ∧ Geom.NoEmptyPointsL gs
end
end Verif.Spec
