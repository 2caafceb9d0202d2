import Verif.Model.Bitmap
/-!
# Bit-level facts about validity bitmaps
-/
namespace Verif

def bit (buf : List Byte) (i : Nat) : Bool := (buf.getD (i / 8) 0).getLsbD (i % 8)

theorem byteBit (b : Byte) (k : Nat) (hk : k < 8) : (((b >>> k) &&& 1) != 0) = b.getLsbD k := by
  have h : ∀ (b : Byte) (k : Fin 8), (((b >>> k.val) &&& 1) != 0) = b.getLsbD k.val := by decide +kernel
  exact h b ⟨k, hk⟩

theorem bitGet_eq {buf : List Byte} {i : Nat} (h : i / 8 < buf.length) : bitGet buf i = some (bit buf i) := by
  unfold bitGet bit
  rw [List.getElem?_eq_getElem h, Option.map_some, byteBit _ _ (Nat.mod_lt _ (by decide)),
    List.getD_eq_getElem?_getD, List.getElem?_eq_getElem h, Option.getD_some]

theorem preceding_bit (k j : Nat) (hk : k < 8) (hj : j < 8) : (precedingMask k).getLsbD j = decide (j < k) := by
  have h : ∀ k j : Fin 8, (precedingMask k.val).getLsbD j.val = decide (j.val < k.val) := by decide +kernel
  exact h ⟨k, hk⟩ ⟨j, hj⟩
theorem trailing_bit (k j : Nat) (hk : k < 8) (hj : j < 8) : (trailingMask k).getLsbD j = decide (k ≤ j) := by
  have h : ∀ k j : Fin 8, (trailingMask k.val).getLsbD j.val = decide (k.val ≤ j.val) := by decide +kernel
  exact h ⟨k, hk⟩ ⟨j, hj⟩
theorem fill_bit (v : Bool) (j : Nat) (hj : j < 8) : (if v then (255 : Byte) else 0).getLsbD j = v := by
  have h : ∀ (v : Bool) (j : Fin 8), (if v then (255 : Byte) else 0).getLsbD j.val = v := by decide +kernel
  exact h v ⟨j, hj⟩

theorem getD_set (buf : List Byte) (i k : Nat) (x : Byte) (hi : i < buf.length) :
    (buf.set i x).getD k 0 = if k = i then x else buf.getD k 0 := by
  simp only [List.getD_eq_getElem?_getD, List.getElem?_set]
  by_cases h : i = k
  · subst h; simp [hi]
  · rw [if_neg h, if_neg (fun h' => h h'.symm)]

theorem maskByte_spec {buf : List Byte} {i : Nat} (mask fill : Byte) (hi : i < buf.length) :
    ∃ buf', maskByte buf i mask fill = some buf' ∧ buf'.length = buf.length ∧
      ∀ j, bit buf' j = if j / 8 = i then (if mask.getLsbD (j % 8) then bit buf j else fill.getLsbD (j % 8))
        else bit buf j := by
  unfold maskByte
  rw [List.getElem?_eq_getElem hi]
  refine ⟨_, rfl, by simp, ?_⟩
  intro j
  unfold bit
  rw [getD_set _ _ _ _ hi]
  by_cases h : j / 8 = i
  · subst h
    have hj := Nat.mod_lt j (show 0 < 8 by decide)
    simp only [if_true, BitVec.getLsbD_or, BitVec.getLsbD_and, BitVec.getLsbD_not, hj, decide_true, Bool.true_and,
      List.getD_eq_getElem?_getD, List.getElem?_eq_getElem hi, Option.getD_some]
    cases mask.getLsbD (j % 8) <;> simp
  · simp [h]

theorem fillBytes_spec (fill : Byte) (n : Nat) : ∀ (i : Nat) (buf : List Byte), i + n ≤ buf.length →
    ∃ buf', fillBytes fill n i buf = some buf' ∧ buf'.length = buf.length ∧
      ∀ j, bit buf' j = if i ≤ j / 8 ∧ j / 8 < i + n then fill.getLsbD (j % 8) else bit buf j := by
  induction n with
  | zero => intro i buf _; exact ⟨buf, rfl, rfl, fun j => by rw [if_neg (by omega)]⟩
  | succ n ih =>
    intro i buf h
    have hi : i < buf.length := by omega
    obtain ⟨buf', h1, h2, h3⟩ := ih (i + 1) (buf.set i fill) (by simp; omega)
    refine ⟨buf', by simp only [fillBytes, hi, if_true, h1], by simpa using h2, ?_⟩
    intro j
    rw [h3]
    by_cases h4 : i + 1 ≤ j / 8 ∧ j / 8 < i + 1 + n
    · rw [if_pos h4, if_pos (by omega)]
    · rw [if_neg h4]
      unfold bit
      rw [getD_set _ _ _ _ hi]
      by_cases h5 : j / 8 = i
      · rw [if_pos h5, if_pos (by omega)]
      · rw [if_neg h5, if_neg (by omega)]

theorem bitsSetTo_spec {buf : List Byte} {start length : Nat} (v : Bool) (h : start + length ≤ 8 * buf.length) :
    ∃ buf', bitsSetTo buf start length v = some buf' ∧ buf'.length = buf.length ∧
      ∀ j, bit buf' j = if start ≤ j ∧ j < start + length then v else bit buf j := by
  unfold bitsSetTo
  by_cases h0 : length = 0
  · subst h0; exact ⟨buf, by simp, rfl, fun j => by rw [if_neg (by omega)]⟩
  rw [if_neg h0]
  simp only []
  have hm : ∀ j, j % 8 < 8 := fun j => Nat.mod_lt _ (by decide)
  by_cases hs : (start + length) / 8 + 1 = start / 8 + 1
  · rw [if_pos hs]
    obtain ⟨buf', h1, h2, h3⟩ := maskByte_spec (buf := buf) (i := start / 8)
      (if (start + length) % 8 = 0 then precedingMask (start % 8)
       else precedingMask (start % 8) ||| trailingMask ((start + length) % 8)) (if v then 255 else 0) (by omega)
    refine ⟨buf', h1, h2, ?_⟩
    intro j
    rw [h3]
    by_cases hj : j / 8 = start / 8
    · have h8 : ¬ (start + length) % 8 = 0 := by omega
      rw [if_pos hj, if_neg h8, BitVec.getLsbD_or, preceding_bit _ _ (hm _) (hm _), trailing_bit _ _ (hm _) (hm _),
        fill_bit _ _ (hm _)]
      by_cases hr : start ≤ j ∧ j < start + length
      · rw [if_pos hr, if_neg]
        simp; omega
      · rw [if_neg hr, if_pos]
        simp; omega
    · rw [if_neg hj, if_neg (by omega)]
  · rw [if_neg hs]
    obtain ⟨b1, h11, h12, h13⟩ := maskByte_spec (buf := buf) (i := start / 8)
      (precedingMask (start % 8)) (if v then 255 else 0) (by omega)
    rw [h11]
    have hmid : ∃ b2, (if 2 < (start + length) / 8 + 1 - start / 8 then
          fillBytes (if v then 255 else 0) ((start + length) / 8 + 1 - start / 8 - 2) (start / 8 + 1) b1
        else some b1) = some b2 ∧ b2.length = buf.length ∧
        ∀ j, bit b2 j = if start ≤ j ∧ j / 8 < (start + length) / 8 then v else bit buf j := by
      have base : ∀ j, j / 8 = start / 8 → bit b1 j = if start ≤ j then v else bit buf j := by
        intro j hj
        rw [h13, if_pos hj, preceding_bit _ _ (hm _) (hm _), fill_bit _ _ (hm _)]
        by_cases hr : start ≤ j
        · rw [if_neg (by simp; omega), if_pos hr]
        · rw [if_pos (by simp; omega), if_neg hr]
      have other : ∀ j, j / 8 ≠ start / 8 → bit b1 j = bit buf j := fun j hj => by rw [h13, if_neg hj]
      by_cases h2 : 2 < (start + length) / 8 + 1 - start / 8
      · rw [if_pos h2]
        obtain ⟨b2, h21, h22, h23⟩ := fillBytes_spec (if v then 255 else 0) ((start + length) / 8 + 1 - start / 8 - 2)
          (start / 8 + 1) b1 (by omega)
        refine ⟨b2, h21, by omega, ?_⟩
        intro j
        rw [h23]
        by_cases hj : start / 8 + 1 ≤ j / 8 ∧ j / 8 < start / 8 + 1 + ((start + length) / 8 + 1 - start / 8 - 2)
        · rw [if_pos hj, fill_bit _ _ (hm _), if_pos (by omega)]
        · rw [if_neg hj]
          by_cases he : j / 8 = start / 8
          · rw [base j he]
            by_cases hr : start ≤ j
            · rw [if_pos hr, if_pos (by omega)]
            · rw [if_neg hr, if_neg (by omega)]
          · rw [other j he, if_neg (by omega)]
      · rw [if_neg h2]
        refine ⟨b1, rfl, h12, ?_⟩
        intro j
        by_cases he : j / 8 = start / 8
        · rw [base j he]
          by_cases hr : start ≤ j
          · rw [if_pos hr, if_pos (by omega)]
          · rw [if_neg hr, if_neg (by omega)]
        · rw [other j he, if_neg (by omega)]
    obtain ⟨b2, h21, h22, h23⟩ := hmid
    simp only [Option.bind_eq_bind, Option.bind_some]
    rw [h21]
    simp only [Option.bind_some]
    by_cases h8 : (start + length) % 8 = 0
    · rw [if_pos h8]
      refine ⟨b2, rfl, h22, ?_⟩
      intro j
      rw [h23]
      by_cases hr : start ≤ j ∧ j < start + length
      · rw [if_pos hr, if_pos (by omega)]
      · rw [if_neg hr, if_neg (by omega)]
    · rw [if_neg h8]
      obtain ⟨b3, h31, h32, h33⟩ := maskByte_spec (buf := b2) (i := (start + length) / 8 + 1 - 1)
        (trailingMask ((start + length) % 8)) (if v then 255 else 0) (by omega)
      refine ⟨b3, h31, by omega, ?_⟩
      intro j
      rw [h33]
      by_cases hj : j / 8 = (start + length) / 8 + 1 - 1
      · rw [if_pos hj, trailing_bit _ _ (hm _) (hm _), fill_bit _ _ (hm _), h23]
        by_cases hr : (start + length) % 8 ≤ j % 8
        · rw [if_pos (by simpa using hr), if_neg (by omega), if_neg (by omega)]
        · rw [if_neg (by simpa using hr), if_pos (by omega)]
      · rw [if_neg hj, h23]
        by_cases hr : start ≤ j ∧ j < start + length
        · rw [if_pos hr, if_pos (by omega)]
        · rw [if_neg hr, if_neg (by omega)]

/-- The bitmap holds exactly the bits `l`. -/
def Bitmap.Holds (b : Bitmap) (l : List Bool) : Prop :=
  b.bits = l.length ∧ b.sizeBytes = bytesForBits l.length ∧ b.sizeBytes ≤ b.buf.length ∧
  ∀ i (v : Bool), l[i]? = some v → bit b.buf i = v

theorem bytesForBits_spec (n : Nat) : n ≤ 8 * bytesForBits n ∧ 8 * bytesForBits n < n + 8 := by
  unfold bytesForBits
  split <;> omega

/-- Reserving keeps the bits and makes room. -/
theorem Bitmap.reserve_spec (junk : Nat → Byte) {b : Bitmap} {l : List Bool} (h : b.Holds l) (n : Nat) :
    (b.reserve junk n).Holds l ∧ b.bits + n ≤ 8 * (b.reserve junk n).buf.length := by
  obtain ⟨h1, h2, h3, h4⟩ := h
  have hres : ∃ b1, b.reserve junk n = b1 ∧ b1.bits = b.bits ∧ b1.sizeBytes = b.sizeBytes ∧
      b.bits + n ≤ 8 * b1.buf.length ∧ b.sizeBytes ≤ b1.buf.length ∧
      ∀ i, i < b.bits → bit b1.buf i = bit b.buf i := by
    have hb := bytesForBits_spec (b.bits + n)
    have hb0 := bytesForBits_spec l.length
    unfold Bitmap.reserve
    simp only []
    by_cases hc : bytesForBits (b.bits + n) ≤ b.buf.length
    · rw [if_pos hc]
      exact ⟨b, rfl, rfl, rfl, by omega, h3, fun _ _ => rfl⟩
    · rw [if_neg hc]
      refine ⟨_, rfl, rfl, rfl, ?_⟩
      have hr : b.sizeBytes + (bytesForBits (b.bits + n) - b.sizeBytes) = bytesForBits (b.bits + n) := by omega
      have hlen : (bufferReserve junk b.buf b.sizeBytes (bytesForBits (b.bits + n) - b.sizeBytes)) =
          b.buf ++ (List.range (growByFactor b.buf.length (bytesForBits (b.bits + n)) - b.buf.length)).map junk := by
        unfold bufferReserve
        rw [hr, if_neg hc]
      rw [hlen]
      have hg : bytesForBits (b.bits + n) ≤ growByFactor b.buf.length (bytesForBits (b.bits + n)) := by
        unfold growByFactor; split <;> omega
      simp only [List.length_set, List.length_append, List.length_map, List.length_range]
      refine ⟨by omega, by omega, ?_⟩
      intro i hi
      unfold bit
      rw [getD_set _ _ _ _ (by simp only [List.length_append, List.length_map, List.length_range]; omega), if_neg (by omega)]
      simp only [List.getD_eq_getElem?_getD]
      rw [List.getElem?_append_left (by omega)]
  obtain ⟨b1, e1, e2, e3, e4, e5, e6⟩ := hres
  rw [e1]
  refine ⟨⟨e2.trans h1, e3.trans h2, by rw [e3]; exact e5, fun i v hv => ?_⟩, e4⟩
  rw [e6 i (by rw [h1]; exact (List.getElem?_eq_some_iff.mp hv).1)]
  exact h4 i v hv

/-- Appending within the room there is. -/
theorem Bitmap.appendUnsafe_spec {b : Bitmap} {l : List Bool} (h : b.Holds l) (v : Bool) (n : Nat) (hroom : b.bits + n ≤ 8 * b.buf.length) :
    ∃ b', b.appendUnsafe v n = some b' ∧ b'.Holds (l ++ List.replicate n v) := by
  obtain ⟨h1, h2, h3, h4⟩ := h
  unfold Bitmap.appendUnsafe
  obtain ⟨buf', f1, f2, f3⟩ := bitsSetTo_spec v (buf := b.buf) (start := b.bits) (length := n) (by omega)
  rw [f1]
  refine ⟨_, rfl, ?_, ?_, ?_, ?_⟩
  · simp; omega
  · simp; rw [h1]
  · have := bytesForBits_spec (b.bits + n)
    simp only []
    omega
  · intro i w hw
    simp only []
    rw [f3]
    by_cases hi : i < l.length
    · rw [List.getElem?_append_left hi] at hw
      rw [if_neg (by omega)]
      exact h4 i w hw
    · rw [List.getElem?_append_right (by omega), List.getElem?_replicate] at hw
      split at hw
      · rw [if_pos (by omega)]; simpa using hw
      · cases hw

theorem Bitmap.append_spec (junk : Nat → Byte) {b : Bitmap} {l : List Bool} (h : b.Holds l) (v : Bool) (n : Nat) :
    ∃ b', b.append junk v n = some b' ∧ b'.Holds (l ++ List.replicate n v) := by
  obtain ⟨h1, h2⟩ := Bitmap.reserve_spec junk h n
  exact Bitmap.appendUnsafe_spec h1 v n (by rw [h1.1, ← h.1]; exact h2)

end Verif
