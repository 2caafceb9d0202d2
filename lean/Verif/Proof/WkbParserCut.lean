import Verif.Proof.WkbParserTree
/-! The C++ WKB parser on truncated input, and independence of the recursion bound. -/
namespace Verif
open Spec

theorem M.assoc {σ α β γ} (m : M σ α) (f : α → M σ β) (g : β → M σ γ) :
    (m >>= fun a => f a >>= g) = ((m >>= f) >>= g) := by
  funext s
  simp only [M.bind_run]
  cases m s <;> rfl

/-- The same state with `k` bytes fewer available. -/
def cutS (k : Nat) (s : CppP) : CppP := { s with remaining := s.remaining - k }

/-- `m'` behaves on the bytes `b` as `m` does on `b ++ c` when it succeeds within `b`, and reports too few bytes if `m`
goes beyond `b`. -/
structure Cut {α} (b c : List Byte) (m m' : M CppP α) : Prop where
  mono : ∀ s a s', CInv (b.length + c.length) s → m s = .ok a s' → s.pos ≤ s'.pos ∧ CInv (b.length + c.length) s'
  inb : ∀ s a s', CInv (b.length + c.length) s → s.pos ≤ b.length → m s = .ok a s' → s'.pos ≤ b.length →
    m' (cutS c.length s) = .ok a (cutS c.length s')
  out : ∀ s a s', CInv (b.length + c.length) s → s.pos ≤ b.length → m s = .ok a s' → b.length < s'.pos →
    ∃ s'', m' (cutS c.length s) = .err TOO_FEW_BYTES s''

theorem Cut.bind {α β} {b c : List Byte} {m m' : M CppP α} {f f' : α → M CppP β} (h : Cut b c m m')
    (hf : ∀ a, Cut b c (f a) (f' a)) : Cut b c (m >>= f) (m' >>= f') := by
  refine ⟨?_, ?_, ?_⟩
  · intro s x s' hi hr
    obtain ⟨a, s1, h1, h2⟩ := M.bind_eq_ok.mp hr
    have ⟨p1, i1⟩ := h.mono s a s1 hi h1
    have ⟨p2, i2⟩ := (hf a).mono s1 x s' i1 h2
    exact ⟨by omega, i2⟩
  · intro s x s' hi hp hr hb
    obtain ⟨a, s1, h1, h2⟩ := M.bind_eq_ok.mp hr
    have ⟨p1, i1⟩ := h.mono s a s1 hi h1
    have ⟨p2, i2⟩ := (hf a).mono s1 x s' i1 h2
    rw [M.bind_ok (h.inb s a s1 hi hp h1 (by omega))]
    exact (hf a).inb s1 x s' i1 (by omega) h2 hb
  · intro s x s' hi hp hr hb
    obtain ⟨a, s1, h1, h2⟩ := M.bind_eq_ok.mp hr
    have ⟨p1, i1⟩ := h.mono s a s1 hi h1
    by_cases hc : s1.pos ≤ b.length
    · rw [M.bind_ok (h.inb s a s1 hi hp h1 hc)]
      exact (hf a).out s1 x s' i1 hc h2 hb
    · obtain ⟨s'', he⟩ := h.out s a s1 hi hp h1 (by omega)
      exact ⟨s'', M.bind_err he⟩

theorem Cut.pure {α} {b c : List Byte} (a : α) : Cut b c (pure a) (pure a) := by
  refine ⟨?_, ?_, ?_⟩
  · intro s x s' hi hr; cases hr; exact ⟨Nat.le_refl _, hi⟩
  · intro s x s' hi hp hr hb; cases hr; rfl
  · intro s x s' hi hp hr hb; cases hr; omega

theorem Cut.fail {α} {b c : List Byte} (rc : Code) : Cut b c (M.fail rc : M CppP α) (M.fail rc) := by
  refine ⟨?_, ?_, ?_⟩
  · intro s x s' hi hr; cases hr
  · intro s x s' hi hp hr hb; cases hr
  · intro s x s' hi hp hr hb; cases hr

theorem Cut.undef {α} {b c : List Byte} : Cut b c (M.undef : M CppP α) M.undef := by
  refine ⟨?_, ?_, ?_⟩
  · intro s x s' hi hr; cases hr
  · intro s x s' hi hp hr hb; cases hr
  · intro s x s' hi hp hr hb; cases hr

/-- Steps that do not look at the number of bytes left and do not move. -/
theorem Cut.still {α} {b c : List Byte} {m : M CppP α} (f : CppP → α) (g : CppP → CppP)
    (h : ∀ s, m s = .ok (f s) (g s)) (hf : ∀ s k, f (cutS k s) = f s) (hg : ∀ s k, g (cutS k s) = cutS k (g s))
    (hp : ∀ s, (g s).pos = s.pos ∧ (g s).remaining = s.remaining) : Cut b c m m := by
  refine ⟨?_, ?_, ?_⟩
  · intro s x s' hi hr
    rw [h] at hr; cases hr
    have := hp s
    unfold CInv at *
    omega
  · intro s x s' hi hpos hr hb
    rw [h] at hr; cases hr
    rw [h, hf, hg]
  · intro s x s' hi hpos hr hb
    rw [h] at hr; cases hr
    have := hp s
    omega

/-- A checked step over `n` bytes. -/
theorem Cut.step {α} {b c : List Byte} {m m' : M CppP α} {n : Nat} (e e' : CppP → Res CppP α)
    (hm : ∀ s, m s = if n ≤ s.remaining then e s else .err TOO_FEW_BYTES s)
    (hm' : ∀ s, m' s = if n ≤ s.remaining then e' s else .err TOO_FEW_BYTES s)
    (he : ∀ s a s', CInv (b.length + c.length) s → n ≤ s.remaining → e s = .ok a s' →
      s'.pos = s.pos + n ∧ s'.remaining = s.remaining - n ∧
      (s.pos + n ≤ b.length → e' (cutS c.length s) = .ok a (cutS c.length s'))) : Cut b c m m' := by
  have key : ∀ s a s', CInv (b.length + c.length) s → m s = .ok a s' → n ≤ s.remaining ∧ e s = .ok a s' := by
    intro s a s' hi hr
    rw [hm] at hr
    split at hr
    · rename_i hn; exact ⟨hn, hr⟩
    · cases hr
  refine ⟨?_, ?_, ?_⟩
  · intro s a s' hi hr
    obtain ⟨hn, hr⟩ := key s a s' hi hr
    obtain ⟨h1, h2, _⟩ := he s a s' hi hn hr
    unfold CInv at *
    omega
  · intro s a s' hi hp hr hb
    obtain ⟨hn, hr⟩ := key s a s' hi hr
    obtain ⟨h1, h2, h3⟩ := he s a s' hi hn hr
    unfold CInv at hi
    rw [hm', if_pos (by simp only [cutS]; omega)]
    exact h3 (by omega)
  · intro s a s' hi hp hr hb
    obtain ⟨hn, hr⟩ := key s a s' hi hr
    obtain ⟨h1, h2, h3⟩ := he s a s' hi hn hr
    unfold CInv at hi
    rw [hm', if_neg (by simp only [cutS]; omega)]
    exact ⟨_, rfl⟩

theorem cppLoad_prefix {b c : List Byte} {pos n : Nat} (h : pos + n ≤ b.length) :
    cppLoad (b ++ c) pos n = cppLoad b pos n := by
  rw [cppLoad_some h, cppLoad_some (by rw [List.length_append]; omega), List.drop_append_of_le_length (by omega),
    List.take_append_of_le_length (by simp; omega)]

theorem check_bind {α} (n : Nat) (f : Unit → M CppP α) (s : CppP) :
    (cppCheck n >>= f) s = if n ≤ s.remaining then f () s else .err TOO_FEW_BYTES s := by
  rw [M.bind_run]
  unfold cppCheck
  by_cases h : n ≤ s.remaining
  · rw [if_pos h, if_pos h]
  · rw [if_neg h, if_neg h]

theorem Cut.u32 (b c : List Byte) : Cut b c (cppCheck 4 >>= fun _ => cppReadU32 (b ++ c)) (cppCheck 4 >>= fun _ => cppReadU32 b) := by
  refine Cut.step _ _ (check_bind 4 _) (check_bind 4 _) ?_
  intro s a s' hi hn hr
  unfold CInv at hi
  simp only [cppReadU32] at hr ⊢
  obtain ⟨v, hv, _⟩ := cppLoadAs_some (blob := b ++ c) (e := s.endian) (pos := s.pos) (by rw [List.length_append]; omega)
  rw [hv] at hr
  simp only [M.bind_ok (cppAdvance_run hn)] at hr
  simp only [M.pure_run, Res.ok.injEq] at hr
  obtain ⟨rfl, rfl⟩ := hr
  refine ⟨rfl, rfl, ?_⟩
  intro hb
  have hv' : cppLoadAs b s.endian s.pos 4 = some v := by
    rw [← hv]; simp only [cppLoadAs]; rw [cppLoad_prefix hb]
  simp only [cutS, hv']
  rw [M.bind_ok (cppAdvance_run (s := ⟨s.pos, s.remaining - c.length, s.endian, s.dims, s.stride⟩)
    (by simp only []; omega))]
  simp only [M.pure_run, Res.ok.injEq, CppP.mk.injEq, true_and, and_true]
  omega

theorem Cut.hdr (b c : List Byte) :
    Cut b c (cppCheck 5 >>= fun _ => cppReadEndian (b ++ c) >>= fun _ => cppReadU32 (b ++ c))
      (cppCheck 5 >>= fun _ => cppReadEndian b >>= fun _ => cppReadU32 b) := by
  refine Cut.step _ _ (check_bind 5 _) (check_bind 5 _) ?_
  intro s a s' hi hn hr
  unfold CInv at hi
  obtain ⟨u, s1, h1, h2⟩ := M.bind_eq_ok.mp hr
  have hlt : s.pos < (b ++ c).length := by rw [List.length_append]; omega
  simp only [cppReadEndian, List.getElem?_eq_getElem hlt] at h1
  by_cases hx : (b ++ c)[s.pos] = 1 ∨ (b ++ c)[s.pos] = 0
  · simp only [if_pos hx] at h1
    rw [cppAdvance_run (by show 1 ≤ s.remaining; omega)] at h1
    cases h1
    simp only [cppReadU32] at h2
    obtain ⟨v, hv, _⟩ := cppLoadAs_some (blob := b ++ c) (e := (b ++ c)[s.pos]) (pos := s.pos + 1)
      (by rw [List.length_append]; omega)
    rw [hv] at h2
    simp only [M.bind_ok (cppAdvance_run (n := 4)
      (s := ⟨s.pos + 1, s.remaining - 1, (b ++ c)[s.pos], s.dims, s.stride⟩) (by simp only []; omega))] at h2
    simp only [M.pure_run, Res.ok.injEq] at h2
    obtain ⟨rfl, rfl⟩ := h2
    refine ⟨rfl, by simp only []; omega, ?_⟩
    intro hb
    have hg : (b ++ c)[s.pos] = b[s.pos]'(by omega) := List.getElem_append_left (by omega)
    rw [hg] at hx hv ⊢
    have hv' : cppLoadAs b (b[s.pos]'(by omega)) (s.pos + 1) 4 = some v := by
      rw [← hv]; simp only [cppLoadAs]; rw [cppLoad_prefix (by omega)]
    rw [M.bind_ok (s' := ⟨s.pos + 1, s.remaining - c.length - 1, b[s.pos]'(by omega), s.dims, s.stride⟩) (a := ())]
    · simp only [cppReadU32, hv']
      rw [M.bind_ok (cppAdvance_run (by simp only []; omega))]
      simp only [M.pure_run, Res.ok.injEq, CppP.mk.injEq, true_and, and_true, cutS]
      omega
    · simp only [cppReadEndian, cutS, List.getElem?_eq_getElem (show s.pos < b.length by omega), if_pos hx]
      rw [cppAdvance_run (by simp only []; omega)]
  · simp only [if_neg hx] at h1
    cases h1

theorem Cut.header (b c : List Byte) : Cut b c (cppHeader (b ++ c)) (cppHeader b) := by
  have e : ∀ blob, cppHeader blob = ((cppCheck 5 >>= fun _ => cppReadEndian blob >>= fun _ => cppReadU32 blob) >>= fun w =>
      (if w &&& 0x20000000 != 0 then (cppCheck 4 >>= fun _ => cppReadU32 blob) else (Pure.pure 0xffffffff : M CppP Nat)) >>= fun srid =>
      (M.modify fun s : CppP => (⟨s.pos, s.remaining, s.endian, cppDims (cppTypeWord w).2.1 (cppTypeWord w).2.2,
        2 + (cppTypeWord w).2.1.toNat + (cppTypeWord w).2.2.toNat⟩ : CppP)) >>= fun _ =>
      Pure.pure (srid, (cppTypeWord w).1)) := by
    intro blob
    simp only [← M.assoc]
    rfl
  rw [e, e]
  refine (Cut.hdr b c).bind fun w => Cut.bind ?_ fun srid => Cut.bind ?_ fun _ => Cut.pure _
  · split
    · exact Cut.u32 b c
    · exact Cut.pure _
  · exact Cut.still (fun _ => ()) _ (fun s => rfl) (fun _ _ => rfl) (fun _ _ => rfl) (fun _ => ⟨rfl, rfl⟩)

/-- Check `n` bytes, report a sequence there and step over it. -/
theorem Cut.seq (b c : List Byte) (size n : Nat) :
    Cut b c (cppCheck n >>= fun _ => cppNewSequence size >>= fun q => cppAdvance n >>= fun _ => Pure.pure q)
      (cppCheck n >>= fun _ => cppNewSequence size >>= fun q => cppAdvance n >>= fun _ => Pure.pure q) := by
  refine Cut.step _ _ (check_bind n _) (check_bind n _) ?_
  intro s a s' hi hn hr
  rw [M.bind_ok (m := cppNewSequence size) (a := ⟨s.pos, size, s.stride, s.dims, s.endian⟩) (s' := s) rfl, M.bind_ok (cppAdvance_run hn)] at hr
  cases hr
  refine ⟨rfl, rfl, ?_⟩
  intro hb
  unfold CInv at hi
  rw [M.bind_ok (m := cppNewSequence size) (a := ⟨s.pos, size, s.stride, s.dims, s.endian⟩)
    (s' := cutS c.length s) rfl,
    M.bind_ok (cppAdvance_run (by simp only [cutS]; omega))]
  simp only [M.pure_run, Res.ok.injEq, CppP.mk.injEq, true_and, and_true, cutS]
  omega

/-- Reading the stride, then continuing in a way that depends on it only. -/
theorem Cut.getStride {α} {b c : List Byte} (f f' : Nat → M CppP α) (h : ∀ n, Cut b c (f n) (f' n)) :
    Cut b c (M.get >>= fun s => f s.stride) (M.get >>= fun s => f' s.stride) := by
  refine ⟨?_, ?_, ?_⟩
  · intro s a s' hi hr
    exact (h s.stride).mono s a s' hi hr
  · intro s a s' hi hp hr hb
    exact (h s.stride).inb s a s' hi hp hr hb
  · intro s a s' hi hp hr hb
    exact (h s.stride).out s a s' hi hp hr hb

theorem Cut.getDims {α} {b c : List Byte} (f f' : Nat → M CppP α) (h : ∀ n, Cut b c (f n) (f' n)) :
    Cut b c (M.get >>= fun s => f s.dims) (M.get >>= fun s => f' s.dims) := by
  refine ⟨?_, ?_, ?_⟩
  · intro s a s' hi hr
    exact (h s.dims).mono s a s' hi hr
  · intro s a s' hi hp hr hb
    exact (h s.dims).inb s a s' hi hp hr hb
  · intro s a s' hi hp hr hb
    exact (h s.dims).out s a s' hi hp hr hb

theorem Cut.point (b c : List Byte) : Cut b c cppParsePoint cppParsePoint :=
  let f : Nat → M CppP CppSeq := fun n => cppCheck (Verif.u32 (n * 8)) >>= fun _ => cppNewSequence 1 >>= fun q =>
    cppAdvance (Verif.u32 (n * 8)) >>= fun _ => Pure.pure q
  Cut.getStride f f (fun n => Cut.seq b c 1 _)

theorem Cut.sequence (b c : List Byte) : Cut b c (cppParseSequence (b ++ c)) (cppParseSequence b) := by
  have e : ∀ blob, cppParseSequence blob = ((cppCheck 4 >>= fun _ => cppReadU32 blob) >>= fun size =>
      M.get >>= fun s => (fun n => cppCheck (8 * size * n % 2 ^ 64) >>= fun _ => cppNewSequence size >>= fun q =>
        cppAdvance (8 * size * n % 2 ^ 64) >>= fun _ => Pure.pure q) s.stride) := by
    intro blob
    rw [← M.assoc]; rfl
  rw [e, e]
  refine (Cut.u32 b c).bind fun size => ?_
  let f : Nat → M CppP CppSeq := fun n => cppCheck (8 * size * n % 2 ^ 64) >>= fun _ => cppNewSequence size >>= fun q =>
        cppAdvance (8 * size * n % 2 ^ 64) >>= fun _ => Pure.pure q
  exact Cut.getStride f f (fun n => Cut.seq b c size _)

theorem Cut.rep {α} {b c : List Byte} {m m' : M CppP α} (h : Cut b c m m') : ∀ k, Cut b c (cppRepeat m k) (cppRepeat m' k)
  | 0 => Cut.pure _
  | k + 1 => h.bind fun x => (Cut.rep h k).bind fun xs => Cut.pure _

theorem Cut.geometry (b c : List Byte) : ∀ fuel, Cut b c (cppGeometry (b ++ c) fuel) (cppGeometry b fuel)
  | 0 => Cut.undef
  | fuel + 1 => by
    have ih := Cut.geometry b c fuel
    show Cut b c (cppGeometryBody _ _) (cppGeometryBody _ _)
    let F : List Byte → M CppP CppGeom → Nat × Nat → Nat → M CppP CppGeom := fun blob child h dims =>
      (if h.2 = 1 then cppParsePoint >>= fun q => (Pure.pure (.mk 1 dims h.1 [q] []) : M CppP CppGeom)
       else if h.2 = 2 then cppParseSequence blob >>= fun q => Pure.pure (.mk 2 dims h.1 [q] [])
       else if h.2 = 3 then (cppCheck 4 >>= fun _ => cppReadU32 blob) >>= fun size =>
         cppRepeat (cppParseSequence blob) size >>= fun qs => Pure.pure (.mk 3 dims h.1 qs [])
       else if h.2 = 4 ∨ h.2 = 5 ∨ h.2 = 6 ∨ h.2 = 7 then (cppCheck 4 >>= fun _ => cppReadU32 blob) >>= fun size =>
         cppRepeat child size >>= fun gs => Pure.pure (.mk h.2 dims h.1 [] gs)
       else M.fail INVALID_GEOMETRY_TYPE)
    have e : ∀ blob child, cppGeometryBody blob child =
        (cppHeader blob >>= fun h => M.get >>= fun s => F blob child h s.dims) := by
      intro blob child
      simp only [F, ← M.assoc]
      rfl
    rw [e, e]
    refine (Cut.header b c).bind fun h => Cut.getDims (F _ _ h) (F _ _ h) fun dims => ?_
    simp only [F]
    split
    · exact (Cut.point b c).bind fun q => Cut.pure _
    split
    · exact (Cut.sequence b c).bind fun q => Cut.pure _
    split
    · exact (Cut.u32 b c).bind fun size => ((Cut.sequence b c).rep size).bind fun qs => Cut.pure _
    split
    · exact (Cut.u32 b c).bind fun size => (ih.rep size).bind fun qs => Cut.pure _
    · exact Cut.fail _

/-- More room for recursion changes nothing once the result is defined. -/
def Refine {α} (m m' : M CppP α) : Prop := ∀ s, m s = .ub ∨ m s = m' s

theorem Refine.refl {α} (m : M CppP α) : Refine m m := fun _ => Or.inr rfl
theorem Refine.bind {α β} {m m' : M CppP α} {f f' : α → M CppP β} (h : Refine m m') (hf : ∀ a, Refine (f a) (f' a)) :
    Refine (m >>= f) (m' >>= f') := by
  intro s
  simp only [M.bind_run]
  rcases h s with h | h
  · left; rw [h]
  · rw [← h]
    cases m s with
    | ok a s' => exact hf a s'
    | err rc s' => right; rfl
    | ub => left; rfl
theorem Refine.rep {α} {m m' : M CppP α} (h : Refine m m') : ∀ k, Refine (cppRepeat m k) (cppRepeat m' k)
  | 0 => Refine.refl _
  | k + 1 => h.bind fun x => (Refine.rep h k).bind fun xs => Refine.refl _
theorem Refine.body {blob : List Byte} {m m' : M CppP CppGeom} (h : Refine m m') :
    Refine (cppGeometryBody blob m) (cppGeometryBody blob m') := by
  unfold cppGeometryBody
  refine (Refine.refl _).bind fun h' => (Refine.refl _).bind fun s => ?_
  split
  · exact Refine.refl _
  split
  · exact Refine.refl _
  split
  · exact Refine.refl _
  split
  · exact (Refine.refl _).bind fun _ => (Refine.refl _).bind fun size => (h.rep size).bind fun _ => Refine.refl _
  · exact Refine.refl _
theorem Refine.fuel (blob : List Byte) : ∀ f k, Refine (cppGeometry blob f) (cppGeometry blob (f + k))
  | 0, k => fun s => Or.inl rfl
  | f + 1, k => by
    rw [show f + 1 + k = (f + k) + 1 by omega]
    exact Refine.body (Refine.fuel blob f k)

end Verif
