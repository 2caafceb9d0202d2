import Verif.Spec.Nodes
import Verif.Spec.Program
import Verif.Proof.Bytes
import Verif.Proof.Program
import Verif.Props.Types
/-! Lemmas for coordinate copying and geometry visiting. -/
namespace Verif
open Spec

/-- overwrite part of a buffer -/
def splice (buf : List Byte) (off : Nat) (bs : List Byte) : List Byte :=
  buf.take off ++ bs ++ buf.drop (off + bs.length)

theorem length_splice {buf : List Byte} {off bs} (h : off + bs.length ≤ buf.length) :
    (splice buf off bs).length = buf.length := by
  simp [splice]; omega

theorem splice_nil (buf : List Byte) (off) : splice buf off [] = buf := by
  simp [splice]

theorem splice_splice {buf : List Byte} {off a b} (h : off + a.length ≤ buf.length) :
    splice (splice buf off a) (off + a.length) b = splice buf off (a ++ b) := by
  unfold splice
  have h1 : (buf.take off ++ a).length = off + a.length := by simp; omega
  rw [List.take_append_of_le_length (by omega), List.take_of_length_le (by omega),
      List.drop_append, List.drop_of_length_le (by omega), h1, List.drop_drop]
  simp only [List.append_assoc, List.length_append, List.nil_append]
  congr 4
  omega

theorem bufWrite_eq {buf : List Byte} {off bs} (h : off + bs.length ≤ buf.length) :
    bufWrite buf off bs = some (splice buf off bs) := by
  simp [bufWrite, splice, h]

/-- Concatenation of `b j, …, b (j+k-1)` -/
def catFrom (b : Nat → List Byte) : Nat → Nat → List Byte
  | 0, _ => []
  | k + 1, j => b j ++ catFrom b k (j + 1)

theorem length_catFrom {b : Nat → List Byte} {k j : Nat} (h : ∀ i, j ≤ i → i < j + k → (b i).length = 8) :
    (catFrom b k j).length = 8 * k := by
  induction k generalizing j with
  | zero => simp [catFrom]
  | succ k ih =>
    simp only [catFrom, List.length_append]
    rw [ih (fun i h1 h2 => h i (by omega) (by omega)), h j (by omega) (by omega)]
    omega

theorem Mem.load_length {m : Mem} {p n bs} (h : m.load p n = some bs) : bs.length = n := by
  unfold Mem.load at h
  split at h
  · rename_i hh
    cases h
    simp
    omega
  · cases h

theorem writeOrds_eq (m : Mem) (stride : Quad Int) (b : Nat → List Byte) (k j : Nat) (src : Nat → Ptr) (off : Nat)
    (buf : List Byte) (hl : ∀ i, j ≤ i → i < j + k → m.load (src i) 8 = some (b i))
    (ho : off + 8 * k ≤ buf.length) :
    writeOrds m stride k j src off buf =
      some (fun i => if j ≤ i ∧ i < j + k then (src i).add (stride.get i) else src i,
        splice buf off (catFrom b k j)) := by
  induction k generalizing j src off buf with
  | zero =>
    simp only [writeOrds, catFrom, splice_nil]
    congr 2
    funext i
    rw [if_neg (by omega)]
  | succ k ih =>
    simp only [writeOrds]
    rw [hl j (by omega) (by omega)]
    have hbl : (b j).length = 8 := Mem.load_length (hl j (by omega) (by omega))
    simp only []
    rw [bufWrite_eq (by omega)]
    simp only []
    rw [ih]
    · congr 2
      · funext i
        by_cases hi : i = j
        · subst hi
          rw [if_neg (by omega), if_pos rfl, if_pos (by omega)]
        · simp only [hi, if_false]
          by_cases h1 : j + 1 ≤ i ∧ i < j + 1 + k
          · rw [if_pos h1, if_pos (by omega)]
          · rw [if_neg h1, if_neg (by omega)]
      · have := splice_splice (buf := buf) (off := off) (a := b j) (b := catFrom b k (j + 1)) (by omega)
        rw [hbl] at this
        rw [this]; rfl
    · intro i h1 h2
      have : i ≠ j := by omega
      simp only [this, if_false]
      exact hl i (by omega) (by omega)
    · rw [length_splice (by omega)]; omega

/-- Raw (unswapped) bytes of the first `n` coordinates. -/
def rawCoords (b : Nat → Nat → List Byte) (nv : Nat) : Nat → Nat → List Byte
  | 0, _ => []
  | n + 1, i => catFrom (b i) nv 0 ++ rawCoords b nv n (i + 1)

theorem length_rawCoords {b : Nat → Nat → List Byte} {nv n i : Nat}
    (h : ∀ k, i ≤ k → k < i + n → ∀ j, j < nv → (b k j).length = 8) :
    (rawCoords b nv n i).length = 8 * nv * n := by
  induction n generalizing i with
  | zero => simp [rawCoords]
  | succ n ih =>
    simp only [rawCoords, List.length_append]
    rw [ih (fun k h1 h2 => h k (by omega) (by omega)),
      length_catFrom (fun j _ h2 => h i (by omega) (by omega) j (by omega)), Nat.mul_succ]
    omega

theorem writeCoordsLoop_eq (m : Mem) (stride : Quad Int) (nv : Nat) (p0 : Nat → Ptr)
    (b : Nat → Nat → List Byte) (n i : Nat) (src : Nat → Ptr) (off : Nat) (buf : List Byte)
    (hsrc : ∀ j, j < nv → src j = (p0 j).add (i * stride.get j))
    (hl : ∀ k, i ≤ k → k < i + n → ∀ j, j < nv → m.load ((p0 j).add (k * stride.get j)) 8 = some (b k j))
    (ho : off + 8 * nv * n ≤ buf.length) :
    writeCoordsLoop m stride nv n src off buf = some (splice buf off (rawCoords b nv n i)) := by
  induction n generalizing i src off buf with
  | zero => simp [writeCoordsLoop, rawCoords, splice_nil]
  | succ n ih =>
    have e : 8 * nv * (n + 1) = 8 * nv * n + 8 * nv := Nat.mul_succ _ _
    simp only [writeCoordsLoop]
    rw [writeOrds_eq m stride (b i) nv 0 src off buf _ (by omega)]
    · simp only []
      have hc : (catFrom (b i) nv 0).length = 8 * nv := length_catFrom (fun j _ h2 =>
        Mem.load_length (hl i (by omega) (by omega) j (by omega)))
      rw [ih (i + 1)]
      · have := splice_splice (buf := buf) (off := off) (a := catFrom (b i) nv 0) (b := rawCoords b nv n (i + 1))
          (by omega)
        rw [hc] at this
        rw [this]; rfl
      · intro j hj
        simp only [Nat.zero_le, true_and, Nat.zero_add, hj, if_true]
        rw [hsrc j hj]
        simp only [Ptr.add, Ptr.mk.injEq, true_and]
        rw [Int.natCast_add, Int.add_mul]
        simp; omega
      · intro k h1 h2; exact hl k (by omega) (by omega)
      · rw [length_splice (by omega)]; omega
    · intro j _ hj
      rw [hsrc j (by omega)]
      exact hl i (by omega) (by omega) j (by omega)

/-- Reversing every group of eight bytes. -/
def rev8 : Nat → List Byte → List Byte
  | 0, _ => []
  | n + 1, bs => (bs.take 8).reverse ++ rev8 n (bs.drop 8)

theorem bswap_bytes {bs : List Byte} (h : bs.length = 8) :
    Dbl.bytes (bswap64 (Dbl.ofBytes bs)) = bs.reverse := by
  unfold Dbl.bytes
  rw [C01_bswap64_reverses]
  congr 1
  exact Dbl.bytes_ofBytes h

theorem length_rev8 {n : Nat} {bs : List Byte} (h : 8 * n ≤ bs.length) : (rev8 n bs).length = 8 * n := by
  induction n generalizing bs with
  | zero => simp [rev8]
  | succ n ih =>
    simp only [rev8, List.length_append, List.length_reverse, List.length_take]
    rw [ih (by simp; omega)]
    omega

theorem swapLoop_eq (n off : Nat) (buf : List Byte) (h : off + 8 * n ≤ buf.length) :
    swapLoop n off buf = splice buf off (rev8 n (buf.drop off)) := by
  induction n generalizing off buf with
  | zero => simp [swapLoop, rev8, splice_nil]
  | succ n ih =>
    simp only [swapLoop]
    have h8 : ((buf.drop off).take 8).length = 8 := by simp; omega
    rw [bswap_bytes h8]
    have hs : buf.take off ++ ((buf.drop off).take 8).reverse ++ buf.drop (off + 8) =
        splice buf off ((buf.drop off).take 8).reverse := by
      simp only [splice, List.length_reverse, h8]
    rw [hs, ih _ _ (by rw [length_splice (by simp only [List.length_reverse, h8]; omega)]; omega)]
    have := splice_splice (buf := buf) (off := off) (a := ((buf.drop off).take 8).reverse)
      (b := rev8 n ((splice buf off ((buf.drop off).take 8).reverse).drop (off + 8)))
      (by simp only [List.length_reverse, h8]; omega)
    simp only [List.length_reverse, h8] at this
    rw [this]
    have hd : (splice buf off ((buf.drop off).take 8).reverse).drop (off + 8) = (buf.drop off).drop 8 := by
      unfold splice
      simp only [List.length_reverse, h8]
      have hl : (buf.take off ++ ((buf.drop off).take 8).reverse).length = off + 8 := by simp; omega
      rw [List.drop_append_of_le_length (by omega), List.drop_of_length_le (by omega), List.drop_drop]
      rfl
    rw [hd]
    rfl

end Verif
