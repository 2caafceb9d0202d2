import Verif.Model.WkbReader
import Verif.Spec.Wkb
import Verif.Spec.Nodes
import Verif.Proof.Visit
import Verif.Props.Types
/-! Reading valid encodings. -/
namespace Verif
open Spec

@[simp] theorem length_wkbU32 (big n) : (wkbU32 big n).length = 4 := by
  unfold wkbU32 inOrder; split <;> simp

theorem wkbDbl_eq (big : Bool) (x : Dbl) : wkbDbl big x = ordBytes big x := rfl

theorem length_flatMap_const {α} (l : List α) (f : α → List Byte) (k : Nat) (h : ∀ x ∈ l, (f x).length = k) :
    (l.flatMap f).length = k * l.length := by
  induction l with
  | nil => rfl
  | cons x xs ih =>
    simp only [List.flatMap_cons, List.length_append, List.length_cons, Nat.mul_succ]
    rw [ih (fun y hy => h y (by simp [hy])), h x (by simp)]; omega

theorem drop_flatMap_const {α} (l : List α) (f : α → List Byte) (k : Nat) (h : ∀ x ∈ l, (f x).length = k) (i : Nat) :
    (l.flatMap f).drop (k * i) = (l.drop i).flatMap f := by
  induction i generalizing l with
  | zero => simp
  | succ i ih =>
    cases l with
    | nil => simp
    | cons x xs =>
      have hx := h x (by simp)
      rw [List.flatMap_cons, List.drop_succ_cons, ← ih xs (fun y hy => h y (by simp [hy])), Nat.mul_succ,
        List.drop_append, List.drop_of_length_le (by omega), List.nil_append]
      congr 1; omega

theorem length_wkbCoord (big : Bool) (c : Coord) : (c.flatMap (wkbDbl big)).length = 8 * c.length :=
  length_flatMap_const _ _ _ (fun x _ => by rw [wkbDbl_eq]; simp)

theorem length_wkbCoords {big nv cs} (h : ∀ c ∈ cs, c.length = nv) : (wkbCoords big cs).length = 8 * nv * cs.length := by
  unfold wkbCoords
  exact length_flatMap_const _ _ _ (fun c hc => by rw [length_wkbCoord, h c hc])

/-- Reading ordinate `(i, j)` straight out of interleaved coordinates. -/
theorem wkbCoords_at {big nv} {cs : List Coord} (h : ∀ c ∈ cs, c.length = nv) {i j : Nat} {c : Coord} {v : Dbl}
    (hc : cs[i]? = some c) (hv : c[j]? = some v) (rest : List Byte) :
    ((wkbCoords big cs ++ rest).drop (8 * nv * i + 8 * j)).take 8 = ordBytes big v := by
  obtain ⟨hi, rfl⟩ := List.getElem?_eq_some_iff.mp hc
  obtain ⟨hj, rfl⟩ := List.getElem?_eq_some_iff.mp hv
  have hcl := h cs[i] (List.getElem_mem hi)
  have hlen := length_wkbCoords (big := big) h
  have hb1 : 8 * nv * (i + 1) ≤ 8 * nv * cs.length := Nat.mul_le_mul_left _ (by omega)
  rw [Nat.mul_succ] at hb1
  rw [List.drop_append_of_le_length (by omega), ← List.drop_drop]
  unfold wkbCoords at hlen ⊢
  rw [drop_flatMap_const cs _ (8 * nv) (fun c hc => by rw [length_wkbCoord, h c hc]) i]
  rw [List.drop_eq_getElem_cons hi, List.flatMap_cons]
  rw [List.drop_append_of_le_length (by rw [length_wkbCoord]; omega)]
  rw [drop_flatMap_const cs[i] _ 8 (fun x _ => by rw [wkbDbl_eq]; simp) j]
  rw [List.drop_eq_getElem_cons hj, List.flatMap_cons, List.append_assoc, List.append_assoc, wkbDbl_eq]
  rw [List.take_append_of_le_length (by simp), List.take_of_length_le (by simp)]

theorem bswap32_leVal {n : Nat} (hn : n < 2 ^ 32) :
    (bswap32 (BitVec.ofNat 32 (leVal (leBytes 4 n).reverse))).toNat = n := by
  have hlt : leVal (leBytes 4 n).reverse < 2 ^ 32 := by
    have := leVal_lt (leBytes 4 n).reverse
    simpa using this
  apply leBytes_inj (k := 4)
  · have := (bswap32 (BitVec.ofNat 32 (leVal (leBytes 4 n).reverse))).isLt
    simpa using this
  · simpa using hn
  · rw [C01_bswap32_reverses, BitVec.toNat_ofNat, Nat.mod_eq_of_lt hlt]
    have := leBytes_leVal (leBytes 4 n).reverse
    simp only [List.length_reverse, length_leBytes] at this
    rw [this, List.reverse_reverse]

theorem wkbMem_one (blob : List Byte) : wkbMem blob 1 = blob := rfl

theorem load_wkb {blob bs rest : List Byte} {pos : Nat} (h : blob.drop pos = bs ++ rest) {p : Int} (hp : p = pos)
    (hn : pos ≤ blob.length) : (wkbMem blob).load ⟨1, p⟩ bs.length = some bs := by
  have hl := congrArg List.length h
  simp only [List.length_drop, List.length_append] at hl
  unfold Mem.load
  simp only [wkbMem_one, hp]
  rw [if_pos (by omega), Int.toNat_natCast, h]
  simp

/-- The reader has at least as many bytes accounted for as are really left. -/
def WkbInv (blob : List Byte) (s : WkbR) : Prop := s.pos ≤ blob.length ∧ blob.length ≤ s.pos + s.left

theorem drop_add {blob b rest : List Byte} {pos : Nat} (h : blob.drop pos = b ++ rest) :
    blob.drop (pos + b.length) = rest := by
  rw [← List.drop_drop, h, List.drop_left]

theorem len_of_drop {blob b rest : List Byte} {pos : Nat} (h : blob.drop pos = b ++ rest) (hp : pos ≤ blob.length) :
    pos + b.length ≤ blob.length := by
  have hl := congrArg List.length h
  simp only [List.length_drop, List.length_append] at hl
  omega

theorem readU32_spec {blob rest : List Byte} {s : WkbR} {n : Nat} (hi : WkbInv blob s)
    (h : blob.drop s.pos = wkbU32 s.swap n ++ rest) (hn : n < 2 ^ 32) :
    wkbReadU32 blob s = .ok n { s with pos := s.pos + 4, left := s.left - 4 } := by
  have hl := len_of_drop h hi.1
  rw [length_wkbU32] at hl
  have hload := load_wkb h (p := s.pos) rfl hi.1
  rw [length_wkbU32] at hload
  unfold wkbReadU32
  rw [if_pos (by have := hi.2; omega), hload]
  simp only [Res.ok.injEq, and_true]
  unfold wkbU32 inOrder
  cases s.swap
  · simp only [Bool.false_eq_true, if_false]
    rw [leVal_leBytes_of_lt (by simpa using hn), BitVec.toNat_ofNat, Nat.mod_eq_of_lt hn]
  · simp only [if_true]
    exact bswap32_leVal hn

theorem inv_step {blob : List Byte} {s : WkbR} {k : Nat} {sw ns} (hi : WkbInv blob s) (h : s.pos + k ≤ blob.length) :
    WkbInv blob { pos := s.pos + k, left := s.left - k, swap := sw, nodes := ns } := by
  obtain ⟨h1, h2⟩ := hi
  exact ⟨h, by simp only []; omega⟩

theorem orderMark_ne (big : Bool) : (orderMark big != 1) = big := by cases big <;> decide

theorem readEndian_spec {blob rest : List Byte} {s : WkbR} {big : Bool} (hi : WkbInv blob s)
    (h : blob.drop s.pos = orderMark big :: rest) :
    wkbReadEndian blob s = .ok () { s with swap := big, pos := s.pos + 1, left := s.left - 1 } := by
  have hl := len_of_drop (b := [orderMark big]) (by simpa using h) hi.1
  simp only [List.length_singleton] at hl
  have hget : blob[s.pos]? = some (orderMark big) := by
    have : (blob.drop s.pos)[0]? = some (orderMark big) := by rw [h]; rfl
    simpa using this
  unfold wkbReadEndian
  rw [if_pos (by have := hi.2; omega), hget]
  simp only [orderMark_ne]

def dimZ : Dims → Bool
  | .xy => false | .xyz => true | .xym => false | .xyzm => true
def dimM : Dims → Bool
  | .xy => false | .xyz => false | .xym => true | .xyzm => true

theorem typeWord_iso (base : Nat) (d : Dims) (h : 1 ≤ base ∧ base ≤ 7) :
    wkbTypeWord (base + isoOffset d) = (base, dimZ d, dimM d) ∧ ((base + isoOffset d) &&& 0x20000000 != 0) = false := by
  have : base = 1 ∨ base = 2 ∨ base = 3 ∨ base = 4 ∨ base = 5 ∨ base = 6 ∨ base = 7 := by omega
  rcases this with rfl | rfl | rfl | rfl | rfl | rfl | rfl <;> cases d <;> decide

theorem typeWord_ewkb (base : Nat) (d : Dims) (h : 1 ≤ base ∧ base ≤ 7) :
    wkbTypeWord (base + ewkbFlags d) = (base, dimZ d, dimM d) ∧ ((base + ewkbFlags d) &&& 0x20000000 != 0) = false := by
  have : base = 1 ∨ base = 2 ∨ base = 3 ∨ base = 4 ∨ base = 5 ∨ base = 6 ∨ base = 7 := by omega
  rcases this with rfl | rfl | rfl | rfl | rfl | rfl | rfl <;> cases d <;> decide

theorem typeWord_srid (base : Nat) (d : Dims) (h : 1 ≤ base ∧ base ≤ 7) :
    wkbTypeWord (base + ewkbFlags d + 0x20000000) = (base, dimZ d, dimM d) ∧
    ((base + ewkbFlags d + 0x20000000) &&& 0x20000000 != 0) = true := by
  have : base = 1 ∨ base = 2 ∨ base = 3 ∨ base = 4 ∨ base = 5 ∨ base = 6 ∨ base = 7 := by omega
  rcases this with rfl | rfl | rfl | rfl | rfl | rfl | rfl <;> cases d <;> decide

theorem typeWord_lt (base : Nat) (d : Dims) (h : 1 ≤ base ∧ base ≤ 7) :
    base + isoOffset d < 2 ^ 32 ∧ base + ewkbFlags d < 2 ^ 32 ∧ base + ewkbFlags d + 0x20000000 < 2 ^ 32 := by
  cases d <;> simp [isoOffset, ewkbFlags] <;> omega

theorem readHeader_spec {blob h rest : List Byte} {s : WkbR} {big : Bool} {base : Nat} {d : Dims} (hi : WkbInv blob s)
    (hb : 1 ≤ base ∧ base ≤ 7) (hh : IsHeader big base d h) (hd : blob.drop s.pos = h ++ rest) :
    wkbReadHeader blob s = .ok (base, dimZ d, dimM d)
      { s with swap := big, pos := s.pos + h.length, left := s.left - h.length } := by
  obtain ⟨l1, l2, l3⟩ := typeWord_lt base d hb
  have hlen := len_of_drop hd hi.1
  have simple : ∀ w, w < 2 ^ 32 → h = orderMark big :: wkbU32 big w → (w &&& 0x20000000 != 0) = false →
      wkbTypeWord w = (base, dimZ d, dimM d) →
      wkbReadHeader blob s = .ok (base, dimZ d, dimM d)
        { s with swap := big, pos := s.pos + h.length, left := s.left - h.length } := by
    intro w hw hhw hs htw
    subst hhw
    simp only [List.length_cons, length_wkbU32] at hlen
    simp only [wkbReadHeader]
    rw [M.bind_ok (readEndian_spec hi (by simpa using hd))]
    have hd1 : blob.drop (s.pos + 1) = wkbU32 big w ++ rest := by
      have := drop_add (b := [orderMark big]) (rest := wkbU32 big w ++ rest) (by simpa using hd)
      simpa using this
    rw [M.bind_ok (readU32_spec (inv_step (sw := big) (ns := s.nodes) hi (by omega)) hd1 hw)]
    rw [hs, htw]
    simp only [Bool.false_eq_true, if_false]
    rw [M.bind_ok (M.pure_run _ _)]
    simp [Nat.add_assoc, Nat.sub_sub]
  rcases hh with hh | hh | ⟨srid, hsr, hh⟩
  · exact simple _ l1 hh (typeWord_iso base d hb).2 (typeWord_iso base d hb).1
  · exact simple _ l2 hh (typeWord_ewkb base d hb).2 (typeWord_ewkb base d hb).1
  · subst hh
    simp only [List.cons_append, List.length_cons, List.length_append, length_wkbU32] at hlen
    simp only [wkbReadHeader]
    rw [M.bind_ok (readEndian_spec hi (by simpa using hd))]
    have hd1 : blob.drop (s.pos + 1) = wkbU32 big (base + ewkbFlags d + 0x20000000) ++ (wkbU32 big srid ++ rest) := by
      have := drop_add (b := [orderMark big])
        (rest := wkbU32 big (base + ewkbFlags d + 0x20000000) ++ (wkbU32 big srid ++ rest)) (by simpa using hd)
      simpa using this
    have hi1 := inv_step (k := 1) (sw := big) (ns := s.nodes) hi (by omega)
    rw [M.bind_ok (readU32_spec hi1 hd1 l3)]
    obtain ⟨t1, t2⟩ := typeWord_srid base d hb
    rw [t1, t2]
    simp only [if_true]
    have hd2 := drop_add hd1
    rw [length_wkbU32] at hd2
    have hi2 := inv_step (k := 4) (sw := big) (ns := s.nodes) hi1 (by simp only []; omega)
    rw [M.bind_ok (readU32_spec hi2 hd2 hsr)]
    simp [Nat.add_assoc, Nat.sub_sub]

theorem wkbDims_code (d : Dims) : wkbDims (dimZ d) (dimM d) = d.code := by cases d <;> rfl
theorem wkbCoordSize_n (d : Dims) : wkbCoordSize (dimZ d) (dimM d) = d.n := by cases d <;> rfl

/-- Reading a coordinate run. -/
theorem readCoords_spec {blob rest : List Byte} {s : WkbR} {d : Dims} {cs : List Coord} {node : Node}
    (hi : WkbInv blob s) (hs : cs.length < 2 ^ 32) (hl : ∀ c ∈ cs, c.length = d.n)
    (hb : blob.length < 2 ^ 35) (hd : blob.drop s.pos = wkbCoords node.swap cs ++ rest)
    (hsize : node.size = cs.length) (hdims : node.dims = d.code) :
    ∃ node', wkbReadCoords cs.length d.n node s =
        .ok node' { s with pos := s.pos + (wkbCoords node.swap cs).length } ∧
      node'.gt = node.gt ∧ node'.level = node.level ∧ SeqDenotes (wkbMem blob) node' d cs := by
  have hlen := length_wkbCoords (big := node.swap) hl
  have hfit := len_of_drop hd hi.1
  have hw : cs.length * d.n < 2 ^ 32 := by
    rw [Nat.mul_comm]
    have : 8 * (d.n * cs.length) = (wkbCoords node.swap cs).length := by rw [hlen, Nat.mul_assoc]
    omega
  have hneed : u32 (cs.length * d.n) * 8 = (wkbCoords node.swap cs).length := by
    rw [u32_of_lt hw, hlen, Nat.mul_comm cs.length, Nat.mul_comm, Nat.mul_assoc]
  unfold wkbReadCoords
  simp only [hneed]
  rw [if_neg (by have := hi.2; omega)]
  refine ⟨_, rfl, ?_, ?_, ?_⟩
  · split <;> rfl
  · split <;> rfl
  · have hn := Dims.n_pos d
    by_cases h0 : 0 < cs.length
    · rw [if_pos h0]
      refine ⟨hdims, hsize, hs, hl, ?_⟩
      intro i j c v hc hv
      have hj : j < d.n := by
        have := hl c (List.mem_of_getElem? hc)
        have := (List.getElem?_eq_some_iff.mp hv).1
        omega
      apply ordinate_of_load
      simp only [Quad.get_ofFn _ j (show j < 4 by omega), hj, if_true, Ptr.add]
      have hat := wkbCoords_at (big := node.swap) hl hc hv rest
      rw [← hd, List.drop_drop] at hat
      have hib := (List.getElem?_eq_some_iff.mp hc).1
      have hb1 : 8 * d.n * (i + 1) ≤ 8 * d.n * cs.length := Nat.mul_le_mul_left _ (by omega)
      rw [Nat.mul_succ] at hb1
      have hcast : (s.pos : Int) + (j : Int) * 8 + (i : Int) * ((d.n : Int) * 8) =
          ((s.pos + (8 * d.n * i + 8 * j) : Nat) : Int) := by
        simp only [Int.natCast_add, Int.natCast_mul]
        have : (i : Int) * ((d.n : Int) * 8) = 8 * (d.n : Int) * i := by
          rw [Int.mul_comm (i : Int), Int.mul_comm (d.n : Int) 8]
        rw [this]
        show _ = (s.pos : Int) + (8 * (d.n : Int) * i + 8 * (j : Int))
        omega
      generalize hq : s.pos + (8 * d.n * i + 8 * j) = q at *
      have := load_wkb (blob := blob) (bs := ordBytes node.swap v) (rest := (blob.drop q).drop 8) (pos := q)
        (by rw [← hat, List.take_append_drop]) hcast (by omega)
      rw [length_ordBytes] at this
      exact this
    · have : cs = [] := List.eq_nil_of_length_eq_zero (by omega)
      subst this
      rw [if_neg h0]
      exact ⟨hdims, hsize, hs, hl, by intro i j c v hc; simp at hc⟩

end Verif
