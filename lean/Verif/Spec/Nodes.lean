import Verif.Spec.Geom
import Verif.Model.Geometry
/-!
# Specification: what an array of geometry nodes denotes

Only the data types `Node`, `Ptr`, `Mem` of the model are used, none of its functions over them except raw loads.
-/
namespace Verif.Spec
open Verif

/-- Ordinate `j` of coordinate `i` of a sequence node: the 8 bytes at `coords[j] + i * coord_stride[j]`, in reverse if
the node is flagged as byte-swapped, as a double. `none` if outside readable memory. -/
def ordinate (m : Mem) (node : Node) (i j : Nat) : Option Dbl :=
  (m.load ⟨(node.coords.get j).blk, (node.coords.get j).off + i * node.stride.get j⟩ 8).map fun bs =>
    Dbl.ofBytes (if node.swap then bs.reverse else bs)

/-- The sequence node denotes the coordinates `cs` with dimensions `d`. -/
def SeqDenotes (m : Mem) (node : Node) (d : Dims) (cs : List Coord) : Prop :=
  node.dims = d.code ∧ node.size = cs.length ∧ cs.length < 2 ^ 32 ∧ (∀ c ∈ cs, c.length = d.n) ∧
  ∀ (i j : Nat) (c : Coord) (v : Dbl), cs[i]? = some c → c[j]? = some v → ordinate m node i j = some v

/-- Ring nodes: linestring nodes, one per ring. -/
def RingsDenote (m : Mem) (d : Dims) : List (List Coord) → List Node → Prop
  | [], ns => ns = []
  | r :: rs, ns => ∃ n ns', ns = n :: ns' ∧ n.gt = 2 ∧ SeqDenotes m n d r ∧ RingsDenote m d rs ns'

mutual
/-- The node list is the depth-first (pre-order) layout of the geometry. -/
def Geom.Denoted (m : Mem) : Geom → List Node → Prop
  | .point d cs, ns => ∃ n, ns = [n] ∧ n.gt = 1 ∧ SeqDenotes m n d cs
  | .linestring d cs, ns => ∃ n, ns = [n] ∧ n.gt = 2 ∧ SeqDenotes m n d cs
  | .polygon d rs, ns => ∃ n ns', ns = n :: ns' ∧ n.gt = 3 ∧ n.dims = d.code ∧ n.size = rs.length ∧
      rs.length < 2 ^ 32 ∧ RingsDenote m d rs ns'
  | .multi k d ps, ns => ∃ n ns', ns = n :: ns' ∧ n.gt = k.code ∧ n.dims = d.code ∧ n.size = ps.length ∧
      ps.length < 2 ^ 32 ∧ Geom.DenotedL m ps ns'
def Geom.DenotedL (m : Mem) : List Geom → List Node → Prop
  | [], ns => ns = []
  | g :: gs, ns => ∃ n1 n2, ns = n1 ++ n2 ∧ Geom.Denoted m g n1 ∧ Geom.DenotedL m gs n2
end

/-- A geometry view denotes a geometry. -/
def ViewDenotes (m : Mem) (v : View) (g : Geom) : Prop := g.Denoted m v.nodes

/-- Coordinates as interleaved doubles in native (little-endian) memory. -/
def interleaved (cs : List Coord) : List Byte := cs.flatMap fun c => c.flatMap Dbl.bytes

end Verif.Spec
