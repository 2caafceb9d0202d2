import Verif.Spec.WkbTokens
import Verif.Proof.Hoare
import Verif.Proof.WkbReader
/-! The C++ WKB parser on arbitrary bytes. -/
namespace Verif
open Spec

/-- Bytes consumed plus bytes remaining is the size given. -/
def CInv (size : Nat) (s : CppP) : Prop := s.pos + s.remaining = size
/-- Stride and dimensions agree. -/
def CShape (s : CppP) : Prop := ∃ d : Dims, s.dims = d.code ∧ s.stride = d.n
/-- Failures reported by the inner parsing functions. -/
def CErr (size : Nat) (rc : Code) (s : CppP) : Prop :=
  (rc = TOO_FEW_BYTES ∨ rc = INVALID_ENDIAN ∨ rc = INVALID_GEOMETRY_TYPE) ∧ CInv size s

theorem cppLoad_some {blob : List Byte} {pos n : Nat} (h : pos + n ≤ blob.length) :
    cppLoad blob pos n = some ((blob.drop pos).take n) := if_pos h

theorem cppCheck_post {size n : Nat} {s : CppP} (h : CInv size s) :
    (cppCheck n s).Post (fun _ s' => s = s' ∧ n ≤ s.remaining) (CErr size) := by
  unfold cppCheck
  split
  · rename_i hn; exact ⟨rfl, hn⟩
  · exact ⟨Or.inl rfl, h⟩

theorem cppAdvance_run {n : Nat} {s : CppP} (h : n ≤ s.remaining) :
    cppAdvance n s = .ok () { s with pos := s.pos + n, remaining := s.remaining - n } := by
  simp [cppAdvance, h]

theorem leVal_u32 {bs : List Byte} (h : bs.length = 4) (e : Bool) : leVal (if e then bs else bs.reverse) < 2 ^ 32 := by
  have := leVal_lt (if e then bs else bs.reverse)
  have hl : (if e then bs else bs.reverse).length = 4 := by cases e <;> simp [h]
  rw [hl] at this
  exact this

theorem cppLoadAs_some {blob : List Byte} {e : Byte} {pos : Nat} (h : pos + 4 ≤ blob.length) :
    ∃ v, cppLoadAs blob e pos 4 = some v ∧ v < 2 ^ 32 := by
  refine ⟨_, by rw [cppLoadAs, cppLoad_some h]; rfl, ?_⟩
  have := leVal_u32 (bs := (blob.drop pos).take 4) (by simp; omega) (decide (e = 1))
  simpa using this

theorem cppReadU32_post {blob : List Byte} {size : Nat} {s : CppP} (hs : size ≤ blob.length) (h : CInv size s)
    (h4 : 4 ≤ s.remaining) :
    (cppReadU32 blob s).Post (fun v s' => v < 2 ^ 32 ∧ s' = { s with pos := s.pos + 4, remaining := s.remaining - 4 })
      (CErr size) := by
  unfold CInv at h
  obtain ⟨v, hv, hlt⟩ := cppLoadAs_some (blob := blob) (e := s.endian) (pos := s.pos) (by omega)
  unfold cppReadU32
  rw [hv]
  simp only [M.bind_ok (cppAdvance_run h4)]
  exact ⟨hlt, rfl⟩

theorem cppReadEndian_post {blob : List Byte} {size : Nat} {s : CppP} (hs : size ≤ blob.length) (h : CInv size s)
    (h1 : 1 ≤ s.remaining) :
    (cppReadEndian blob s).Post
      (fun _ s' => ∃ e, s' = { s with pos := s.pos + 1, remaining := s.remaining - 1, endian := e }) (CErr size) := by
  have h' := h
  unfold CInv at h'
  have hlt : s.pos < blob.length := by omega
  unfold cppReadEndian
  rw [List.getElem?_eq_getElem hlt]
  simp only []
  split
  · rw [cppAdvance_run (by exact h1)]; exact ⟨_, rfl⟩
  · exact ⟨Or.inr (Or.inl rfl), h⟩

theorem cShape_of (z m : Bool) : ∃ d : Dims, cppDims z m = d.code ∧ 2 + z.toNat + m.toNat = d.n := by
  cases z <;> cases m
  · exact ⟨.xy, rfl, rfl⟩
  · exact ⟨.xym, rfl, rfl⟩
  · exact ⟨.xyz, rfl, rfl⟩
  · exact ⟨.xyzm, rfl, rfl⟩

theorem cppHeader_post {blob : List Byte} {size : Nat} {s : CppP} (hs : size ≤ blob.length) (h : CInv size s) :
    (cppHeader blob s).Post (fun _ s' => CInv size s' ∧ CShape s' ∧ s.pos + 5 ≤ s'.pos) (CErr size) := by
  unfold cppHeader
  refine post_bind (cppCheck_post h) ?_
  rintro _ _ ⟨rfl, h5⟩
  have h' := h
  unfold CInv at h'
  refine post_bind (cppReadEndian_post hs h (by omega)) ?_
  rintro _ _ ⟨e, rfl⟩
  refine post_bind (cppReadU32_post hs (by unfold CInv; simp only []; omega) (by simp only []; omega)) ?_
  rintro w _ ⟨_, rfl⟩
  have hopt : ∀ s2 : CppP, CInv size s2 → ((if w &&& 0x20000000 != 0 then (do cppCheck 4; cppReadU32 blob)
      else pure 0xffffffff : M CppP Nat) s2).Post (fun _ s' => CInv size s' ∧ s2.pos ≤ s'.pos) (CErr size) := by
    intro s2 hi
    split
    · refine post_bind (cppCheck_post hi) ?_
      rintro _ _ ⟨rfl, h4⟩
      refine (cppReadU32_post hs hi h4).imp ?_ (fun _ _ h => h)
      rintro _ _ ⟨_, rfl⟩
      unfold CInv at hi ⊢
      simp only []; omega
    · exact ⟨hi, Nat.le_refl _⟩
  refine post_bind (hopt _ (by unfold CInv; simp only []; omega)) ?_
  rintro srid s3 ⟨hi3, hp3⟩
  simp only [] at hp3
  exact ⟨hi3, cShape_of _ _, by show s.pos + 5 ≤ s3.pos; omega⟩

theorem dims_n_le (d : Dims) : d.n ≤ 4 := by cases d <;> decide

theorem cppParsePoint_post {size : Nat} {s : CppP} (h : CInv size s) (hsh : CShape s) :
    (cppParsePoint s).Post (fun q s' => CInv size s' ∧ SeqInside size q ∧ s.pos ≤ s'.pos) (CErr size) := by
  obtain ⟨d, hd, hst⟩ := hsh
  have hn := dims_n_le d
  have hb : u32 (s.stride * 8) = d.n * 8 := by rw [hst]; exact u32_of_lt (by omega)
  unfold cppParsePoint
  refine post_bind (Q := fun a s' => s = a ∧ s = s') ⟨rfl, rfl⟩ ?_
  rintro _ _ ⟨rfl, rfl⟩
  simp only [hb]
  refine post_bind (cppCheck_post h) ?_
  rintro _ _ ⟨rfl, hr⟩
  refine post_bind (Q := fun q s' => q = ⟨s.pos, 1, s.stride, s.dims, s.endian⟩ ∧ s = s') ⟨rfl, rfl⟩ ?_
  rintro _ _ ⟨rfl, rfl⟩
  rw [M.bind_ok (cppAdvance_run hr)]
  unfold CInv at h
  refine ⟨?_, ⟨d, hd, hst, ?_⟩, ?_⟩
  · unfold CInv; simp only []; omega
  · simp only []; omega
  · simp only []; omega

theorem cppParseSequence_post {blob : List Byte} {size : Nat} {s : CppP} (hs : size ≤ blob.length) (h : CInv size s)
    (hsh : CShape s) :
    (cppParseSequence blob s).Post (fun q s' => (CInv size s' ∧ CShape s') ∧ SeqInside size q ∧ s.pos ≤ s'.pos) (CErr size) := by
  obtain ⟨d, hd, hst⟩ := hsh
  have hn := dims_n_le d
  unfold cppParseSequence
  refine post_bind (cppCheck_post h) ?_
  rintro _ _ ⟨rfl, h4⟩
  have h' := h
  unfold CInv at h'
  refine post_bind (cppReadU32_post hs h h4) ?_
  rintro n _ ⟨hn32, rfl⟩
  have hb : 8 * n * s.stride % 2 ^ 64 = 8 * n * d.n := by
    rw [hst]
    refine Nat.mod_eq_of_lt ?_
    have : 8 * n * d.n ≤ 8 * n * 4 := Nat.mul_le_mul_left _ hn
    omega
  have hi2 : CInv size { s with pos := s.pos + 4, remaining := s.remaining - 4 } := by
    unfold CInv; simp only []; omega
  refine post_bind (Q := fun a s' => a = { s with pos := s.pos + 4, remaining := s.remaining - 4 } ∧ s' = a)
    ⟨rfl, rfl⟩ ?_
  rintro _ _ ⟨rfl, rfl⟩
  simp only [hb]
  refine post_bind (cppCheck_post hi2) ?_
  rintro _ _ ⟨rfl, hr⟩
  simp only [] at hr
  refine post_bind (Q := fun q s' => q = ⟨s.pos + 4, n, s.stride, s.dims, s.endian⟩ ∧
    s' = { s with pos := s.pos + 4, remaining := s.remaining - 4 }) ⟨rfl, rfl⟩ ?_
  rintro _ _ ⟨rfl, rfl⟩
  rw [M.bind_ok (cppAdvance_run hr)]
  refine ⟨⟨?_, ⟨d, hd, hst⟩⟩, ⟨d, hd, hst, ?_⟩, ?_⟩
  · unfold CInv; simp only []; omega
  · simp only []
    have : 8 * n * d.n = 8 * (d.n * n) := by rw [Nat.mul_assoc, Nat.mul_comm n]
    omega
  · simp only []; omega

theorem cppRepeat_post {α} {item : M CppP α} {P : CppP → Prop} {A : α → Prop} {E : Code → CppP → Prop}
    (hitem : ∀ s, P s → (item s).Post (fun a s' => P s' ∧ A a ∧ s.pos ≤ s'.pos) E) :
    ∀ k s, P s → (cppRepeat item k s).Post (fun as s' => P s' ∧ (∀ a ∈ as, A a) ∧ s.pos ≤ s'.pos) E
  | 0, s, h => ⟨h, by simp, Nat.le_refl _⟩
  | k + 1, s, h => by
    unfold cppRepeat
    refine post_bind (hitem s h) ?_
    rintro a s1 ⟨h1, ha, hp⟩
    refine post_bind (cppRepeat_post hitem k s1 h1) ?_
    rintro as s2 ⟨h2, has, hp2⟩
    refine ⟨h2, ?_, by omega⟩
    intro x hx
    rcases List.mem_cons.mp hx with rfl | hx
    · exact ha
    · exact has x hx

theorem insideL_of {size : Nat} : ∀ (gs : List CppGeom), (∀ g ∈ gs, Inside size g) → InsideL size gs
  | [], _ => trivial
  | g :: gs, h => ⟨h g (by simp), insideL_of gs (fun g hg => h g (by simp [hg]))⟩

theorem cppGeometry_post {blob : List Byte} {size : Nat} (hs : size ≤ blob.length) :
    ∀ (fuel : Nat) (s : CppP), CInv size s → s.remaining < fuel →
    (cppGeometry blob fuel s).Post (fun g s' => CInv size s' ∧ Inside size g ∧ s.pos ≤ s'.pos) (CErr size)
  | 0, s, _, hf => by omega
  | fuel + 1, s, h, hf => by
    rw [show cppGeometry blob (fuel + 1) = cppGeometryBody blob (cppGeometry blob fuel) from rfl, cppGeometryBody]
    refine post_bind (cppHeader_post hs h) ?_
    rintro ⟨srid, t⟩ s1 ⟨h1, hsh, hp⟩
    refine post_bind (Q := fun a s' => s1 = a ∧ s1 = s') ⟨rfl, rfl⟩ ?_
    rintro _ _ ⟨rfl, rfl⟩
    have hi := h
    have hi1 := h1
    unfold CInv at hi hi1
    simp only []
    split
    · refine post_bind (cppParsePoint_post h1 hsh) ?_
      rintro q s2 ⟨h2, hq, hp2⟩
      exact ⟨h2, ⟨by simpa using hq, trivial⟩, by omega⟩
    split
    · refine post_bind (cppParseSequence_post hs h1 hsh) ?_
      rintro q s2 ⟨⟨h2, _⟩, hq, hp2⟩
      exact ⟨h2, ⟨by simpa using hq, trivial⟩, by omega⟩
    split
    · refine post_bind (cppCheck_post h1) ?_
      rintro _ _ ⟨rfl, h4⟩
      refine post_bind (cppReadU32_post hs h1 h4) ?_
      rintro n _ ⟨_, rfl⟩
      refine post_bind (cppRepeat_post (P := fun s => CInv size s ∧ CShape s) (A := SeqInside size)
        (fun s hp => cppParseSequence_post hs hp.1 hp.2) n _ ⟨by unfold CInv; simp only []; omega, hsh⟩) ?_
      rintro qs s2 ⟨⟨h2, _⟩, hq, hp2⟩
      simp only [] at hp2
      exact ⟨h2, ⟨hq, trivial⟩, by omega⟩
    split
    · refine post_bind (cppCheck_post h1) ?_
      rintro _ _ ⟨rfl, h4⟩
      refine post_bind (cppReadU32_post hs h1 h4) ?_
      rintro n _ ⟨_, rfl⟩
      refine post_bind (cppRepeat_post (P := fun s => CInv size s ∧ s.remaining < fuel) (A := Inside size)
        (E := CErr size) ?_ n _ ⟨by unfold CInv; simp only []; omega, by simp only []; omega⟩) ?_
      · rintro s0 ⟨hp1, hp2⟩
        refine (cppGeometry_post hs fuel s0 hp1 hp2).imp ?_ (fun _ _ h => h)
        rintro g s' ⟨a, b, c⟩
        refine ⟨⟨a, ?_⟩, b, c⟩
        unfold CInv at a hp1
        omega
      rintro gs s2 ⟨⟨h2, _⟩, hg, hp2⟩
      simp only [] at hp2
      exact ⟨h2, ⟨by simp, insideL_of gs hg⟩, by omega⟩
    · exact ⟨Or.inr (Or.inr rfl), h1⟩

end Verif
