import Verif.Proof.Bitmap
/-!
# C49: validity bitmaps
-/
namespace Verif

/-- Append runs of equal bits one after the other. -/
def appendRuns (junk : Nat → Byte) : List (Bool × Nat) → Bitmap → Option Bitmap
  | [], b => some b
  | (v, n) :: rs, b => match b.append junk v n with
    | none => none
    | some b' => appendRuns junk rs b'

/-- The bits a sequence of runs stands for. -/
def runBits (rs : List (Bool × Nat)) : List Bool := rs.flatMap fun r => List.replicate r.2 r.1

theorem appendRuns_holds (junk : Nat → Byte) (rs : List (Bool × Nat)) : ∀ (b : Bitmap) (l : List Bool), b.Holds l →
    ∃ b', appendRuns junk rs b = some b' ∧ b'.Holds (l ++ runBits rs) := by
  induction rs with
  | nil => intro b l h; exact ⟨b, rfl, by simpa [runBits] using h⟩
  | cons r rs ih =>
    intro b l h
    obtain ⟨b1, h1, h2⟩ := b.append_spec junk h r.1 r.2
    obtain ⟨b2, h3, h4⟩ := ih b1 _ h2
    refine ⟨b2, by simp [appendRuns, h1, h3], ?_⟩
    simpa [runBits, List.append_assoc] using h4

/-- After any sequence of runs, whatever freshly allocated memory contains: nothing outside the allocation is touched,
the number of bits and bytes is right and reading bit `i` gives the `i`-th appended bit. -/
theorem C49_bitmap_records (junk : Nat → Byte) (rs : List (Bool × Nat)) :
    ∃ b, appendRuns junk rs Bitmap.init = some b ∧ b.bits = (runBits rs).length ∧
      b.sizeBytes = ((runBits rs).length + 7) / 8 ∧ b.sizeBytes ≤ b.buf.length ∧
      ∀ i, i < (runBits rs).length → bitGet (b.buf.take b.sizeBytes) i = (runBits rs)[i]? := by
  obtain ⟨b, h1, h2, h3, h4, h5⟩ := appendRuns_holds junk rs Bitmap.init [] ⟨rfl, rfl, Nat.le_refl _, by simp⟩
  simp only [List.nil_append] at h2 h3 h5
  have hb := bytesForBits_spec (runBits rs).length
  refine ⟨b, h1, h2, by omega, h4, ?_⟩
  intro i hi
  have hlt : i / 8 < (b.buf.take b.sizeBytes).length := by rw [List.length_take]; omega
  rw [bitGet_eq hlt, List.getElem?_eq_getElem hi, ← h5 i _ (List.getElem?_eq_getElem hi)]
  unfold bit
  rw [List.getD_eq_getElem?_getD, List.getD_eq_getElem?_getD, List.getElem?_take_of_lt (by rw [List.length_take] at hlt; omega)]

example : ∃ b, appendRuns (fun _ => 0xa5) [(true, 11), (false, 1), (true, 3), (false, 9)] Bitmap.init = some b ∧
    b.sizeBytes = 3 ∧ b.bits = 24 ∧ bitGet b.buf 11 = some false ∧ bitGet b.buf 14 = some true := by
  exact ⟨_, rfl, by decide +kernel⟩

/-- Single runs: what a bitmap that already holds `l` holds afterwards. -/
theorem C49_append_run (junk : Nat → Byte) {b : Bitmap} {l : List Bool} (h : b.Holds l) (v : Bool) (n : Nat) :
    ∃ b', b.append junk v n = some b' ∧ b'.Holds (l ++ List.replicate n v) :=
  b.append_spec junk h v n

example : Bitmap.init.Holds [] := ⟨rfl, rfl, Nat.le_refl _, by simp⟩

end Verif
