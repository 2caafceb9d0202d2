import Verif.Model.Basic
/-! Lemmas on byte codecs. -/
namespace Verif

@[simp] theorem length_leBytes (k n : Nat) : (leBytes k n).length = k := by
  induction k generalizing n with
  | zero => rfl
  | succ k ih => simp [leBytes, ih]

theorem leVal_lt (bs : List Byte) : leVal bs < 256 ^ bs.length := by
  induction bs with
  | nil => simp [leVal]
  | cons b bs ih =>
    simp only [leVal, List.length_cons, Nat.pow_succ]
    have := b.isLt
    omega

theorem leVal_leBytes (k n : Nat) : leVal (leBytes k n) = n % 256 ^ k := by
  induction k generalizing n with
  | zero => simp [leBytes, leVal, Nat.mod_one]
  | succ k ih =>
    simp only [leBytes, leVal, ih, BitVec.toNat_ofNat]
    have h : (256 : Nat) ^ (k + 1) = 256 * 256 ^ k := by rw [Nat.pow_succ, Nat.mul_comm]
    rw [h, Nat.mod_mul]

theorem leVal_leBytes_of_lt {k n : Nat} (h : n < 256 ^ k) : leVal (leBytes k n) = n := by
  rw [leVal_leBytes, Nat.mod_eq_of_lt h]

theorem leBytes_leVal (bs : List Byte) : leBytes bs.length (leVal bs) = bs := by
  induction bs with
  | nil => rfl
  | cons b bs ih =>
    simp only [List.length_cons, leBytes, leVal]
    have hb := b.isLt
    have h1 : (b.toNat + 256 * leVal bs) / 256 = leVal bs := by omega
    rw [h1, ih]
    congr 1
    apply BitVec.eq_of_toNat_eq
    simp
    omega

theorem leBytes_inj {k n m : Nat} (hn : n < 256 ^ k) (hm : m < 256 ^ k)
    (h : leBytes k n = leBytes k m) : n = m := by
  have := congrArg leVal h
  rwa [leVal_leBytes_of_lt hn, leVal_leBytes_of_lt hm] at this

@[simp] theorem Dbl.length_bytes (d : Dbl) : (Dbl.bytes d).length = 8 := by
  simp [Dbl.bytes]

@[simp] theorem Dbl.ofBytes_bytes (d : Dbl) : Dbl.ofBytes (Dbl.bytes d) = d := by
  unfold Dbl.ofBytes Dbl.bytes
  rw [leVal_leBytes_of_lt (by simpa using d.isLt)]
  simp

theorem Dbl.bytes_ofBytes {bs : List Byte} (h : bs.length = 8) :
    Dbl.bytes (Dbl.ofBytes bs) = bs := by
  unfold Dbl.ofBytes Dbl.bytes
  have h1 := leVal_lt bs
  rw [h] at h1
  rw [BitVec.toNat_ofNat, Nat.mod_eq_of_lt (by simpa using h1), ← h, leBytes_leVal]

theorem Dbl.bytes_inj {a b : Dbl} (h : Dbl.bytes a = Dbl.bytes b) : a = b := by
  rw [← Dbl.ofBytes_bytes a, h, Dbl.ofBytes_bytes]

theorem u32_lt (n : Nat) : u32 n < 2 ^ 32 := Nat.mod_lt _ (by decide)
theorem u32_of_lt {n : Nat} (h : n < 2 ^ 32) : u32 n = n := Nat.mod_eq_of_lt h

theorem leBytes_eq_extract (k n : Nat) (x : BitVec n): 
   leBytes k (x.toNat) = (List.range k).map (fun i => x.extractLsb' (8*i) 8) := by
  suffices h : ∀ j, leBytes k (x.toNat / 2^(8*j)) = (List.range' j k).map (fun i => x.extractLsb' (8*i) 8) by
    have := h 0
    simpa [List.range_eq_range'] using this
  induction k with
  | zero => intro j; simp [leBytes]
  | succ k ih =>
    intro j
    rw [leBytes, List.range'_succ, List.map_cons, Nat.div_div_eq_div_mul]
    have : 2^(8*j) * 256 = 2^(8*(j+1)) := by rw [Nat.mul_add, Nat.pow_add]
    rw [this, ih]
    congr 1
    apply BitVec.eq_of_toNat_eq
    simp [Nat.shiftRight_eq_div_pow]

end Verif
