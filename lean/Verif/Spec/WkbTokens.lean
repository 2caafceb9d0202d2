import Verif.Spec.Wkb
import Verif.Model.WkbParser
/-!
# Specification: what a tokenised WKB geometry must satisfy
-/
namespace Verif.Spec
open Verif

/-- The sequence is a run of whole coordinates of a known dimension set, all of its bytes among the first `size`. -/
def SeqInside (size : Nat) (q : CppSeq) : Prop :=
  ∃ d : Dims, q.dims = d.code ∧ q.stride = d.n ∧ q.pos + 8 * (d.n * q.length) ≤ size

mutual
/-- Every sequence reported anywhere in the geometry is inside. -/
def Inside (size : Nat) : CppGeom → Prop
  | .mk _ _ _ qs gs => (∀ q ∈ qs, SeqInside size q) ∧ InsideL size gs
def InsideL (size : Nat) : List CppGeom → Prop
  | [] => True
  | g :: gs => Inside size g ∧ InsideL size gs
end

/-- A caller iterating over the sequences sees the given coordinate lists. -/
def SeqsHold (blob : List Byte) (d : Dims) : List (List Coord) → List CppSeq → Prop
  | [], qs => qs = []
  | cs :: css, qs => ∃ q qs', qs = q :: qs' ∧ q.dims = d.code ∧ q.length = cs.length ∧
      cppSeqVertices blob q = some cs ∧ SeqsHold blob d css qs'

mutual
/-- The reported tree is the geometry: type, dimensions, sequences (point: one, linestring: one, polygon: one per ring)
and members, recursively. -/
def Tokens (blob : List Byte) : Geom → CppGeom → Prop
  | .point d cs, .mk gt dims _ qs gs => gt = 1 ∧ dims = d.code ∧ gs = [] ∧ SeqsHold blob d [cs] qs
  | .linestring d cs, .mk gt dims _ qs gs => gt = 2 ∧ dims = d.code ∧ gs = [] ∧ SeqsHold blob d [cs] qs
  | .polygon d rs, .mk gt dims _ qs gs => gt = 3 ∧ dims = d.code ∧ gs = [] ∧ SeqsHold blob d rs qs
  | .multi k d ps, .mk gt dims _ qs gs => gt = k.code ∧ dims = d.code ∧ qs = [] ∧ TokensL blob ps gs
def TokensL (blob : List Byte) : List Geom → List CppGeom → Prop
  | [], gs => gs = []
  | p :: ps, gs => ∃ g gs', gs = g :: gs' ∧ Tokens blob p g ∧ TokensL blob ps gs'
end

end Verif.Spec

namespace Verif.Spec
open Verif
/-- `h` is a header as in `IsHeader`, and the parser is to report `srid` for it: the SRID written, or 0xffffffff if
there is none. -/
def HeaderSrid (big : Bool) (base : Nat) (d : Dims) (srid : Nat) (h : List Byte) : Prop :=
  (srid = 0xffffffff ∧ h = orderMark big :: wkbU32 big (base + isoOffset d)) ∨
  (srid = 0xffffffff ∧ h = orderMark big :: wkbU32 big (base + ewkbFlags d)) ∨
  (srid < 2 ^ 32 ∧ h = orderMark big :: wkbU32 big (base + ewkbFlags d + 0x20000000) ++ wkbU32 big srid)
end Verif.Spec
