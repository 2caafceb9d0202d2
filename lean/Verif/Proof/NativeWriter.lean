import Verif.Spec.NativeWriter
import Verif.Proof.Bitmap
import Verif.Proof.BuilderRead
/-! # Native writer: what single steps do to the data written so far -/
namespace Verif
open Spec

/-! ## Offsets -/

/-- The offsets of lists of these lengths. -/
def sums (ns : List Nat) : List Int := (List.range (ns.length + 1)).map fun i => (((ns.take i).sum : Nat) : Int)

theorem length_sums (ns : List Nat) : (sums ns).length = ns.length + 1 := by
  unfold sums
  rw [List.length_map, List.length_range]

theorem getElem_sums (ns : List Nat) {i : Nat} (h : i ≤ ns.length) : (sums ns)[i]? = some (((ns.take i).sum : Nat) : Int) := by
  unfold sums
  rw [List.getElem?_map, List.getElem?_range (by omega)]
  rfl

theorem sums_append (ns : List Nat) (n : Nat) : sums (ns ++ [n]) = sums ns ++ [((ns.sum + n : Nat) : Int)] := by
  unfold sums
  rw [List.length_append, List.length_singleton, List.range_succ, List.map_append]
  congr 1
  · apply List.map_congr_left
    intro i hi
    rw [List.take_append_of_le_length (by have := List.mem_range.mp hi; omega)]
  · show [(((ns ++ [n]).take (ns.length + 1)).sum : Int)] = [_]
    rw [List.take_of_length_le (by rw [List.length_append, List.length_singleton]; omega), List.sum_append, List.sum_singleton]

theorem take_sum_le (ns : List Nat) (i : Nat) : (ns.take i).sum ≤ ns.sum := by
  have h := congrArg List.sum (List.take_append_drop i ns)
  rw [List.sum_append] at h
  omega

theorem i32Bytes_append (vs ws : List Int) : i32Bytes (vs ++ ws) = i32Bytes vs ++ i32Bytes ws := by
  unfold i32Bytes
  rw [List.flatMap_append]

/-! ## Validity -/

/-- The validity bitmap stands for these flags. -/
def VOk (v : Bitmap) (fl : List Bool) : Prop :=
  (v.buf = [] ∧ v.bits = 0 ∧ v.sizeBytes = 0 ∧ fl = List.replicate fl.length true) ∨ (v.buf ≠ [] ∧ v.Holds fl)

theorem VOk.nil {v : Bitmap} (hb : v.bits = 0) (hs : v.sizeBytes = 0) : VOk v [] := by
  by_cases h : v.buf = []
  · exact .inl ⟨h, hb, hs, rfl⟩
  · refine .inr ⟨h, hb, hs, by rw [hs]; omega, ?_⟩
    intro i w hw
    cases hw

theorem Bitmap.holds_init {v : Bitmap} (hb : v.bits = 0) (hs : v.sizeBytes = 0) : v.Holds [] :=
  ⟨hb, hs, by rw [hs]; omega, by intro i w hw; cases hw⟩

theorem Bitmap.holds_ne {v : Bitmap} {l : List Bool} (h : v.Holds l) (hl : l ≠ []) : v.buf ≠ [] := by
  intro hc
  have h1 := h.2.1
  have h2 := h.2.2.1
  have h3 := bytesForBits_spec l.length
  have h4 := List.length_pos_iff.mpr hl
  rw [hc] at h2
  simp only [List.length_nil] at h2
  omega

/-! ## States -/

/-- What a writer holds: lists of lengths `ns i` at level `i`, coordinates, and a flag for every finished feature. -/
structure NW (g : Int) (d : Dims) (k : CoordKind) (w : NWriter) (ns : Nat → List Nat) (cs : List Coord) (fl : List Bool) : Prop where
  built : Built g d k w.builder (fun i => sums (ns i)) cs
  blank : (w.builder.bufs 0).mem = [] ∧ (w.builder.bufs 0).size = 0 ∧ (w.builder.bufs 0).owned = false
  bits : VOk w.validity fl
  nulls : w.nullCount = (fl.filter (!·)).length

section
variable {g : Int} {d : Dims} {k : CoordKind} {w : NWriter} {ns : Nat → List Nat} {cs : List Coord} {fl : List Bool}

theorem NW.sizeCoords (h : NW g d k w ns cs fl) : w.builder.sizeCoords = cs.length := h.built.coords.size

/-- Other fields do not matter. -/
theorem NW.congr (h : NW g d k w ns cs fl) {w' : NWriter} (hb : w'.builder = w.builder) (hv : w'.validity = w.validity)
    (hn : w'.nullCount = w.nullCount) : NW g d k w' ns cs fl := by
  obtain ⟨h1, h2, h3, h4⟩ := h
  exact ⟨hb ▸ h1, hb ▸ h2, hv ▸ h3, hn ▸ h4⟩

theorem nwB_ok {α : Type} {x : M Builder α} {w : NWriter} {a : α} {b : Builder} (h : x w.builder = .ok a b) :
    nwB x w = .ok a { w with builder := b } := by
  unfold nwB
  rw [h]

theorem nwV_ok {x : Bitmap → Option Bitmap} {w : NWriter} {v : Bitmap} (h : x w.validity = some v) :
    nwV x w = .ok () { w with validity := v } := by
  unfold nwV
  rw [h]

theorem built_append (h : Built g d k w.builder (fun i => sums (ns i)) cs) (junk : Nat → Byte) {i : Nat} (hi : i < listDepth g) (n : Nat) :
    ∃ b', bOffsetAppend junk i [(((ns i).sum + n : Nat) : Int)] w.builder = .ok () b' ∧ SameType w.builder b' ∧ b'.bufs 0 = w.builder.bufs 0 ∧
      Built g d k b' (fun j => sums (setAt ns i (ns i ++ [n]) j)) cs := by
  have hlt := numBuffers_pos (listDepth g) d k
  rw [← h.native.nBuffers] at hlt
  obtain ⟨x, h1, h2⟩ := offsetAppend_run junk [(((ns i).sum + n : Nat) : Int)] (b := w.builder) (i := i) (by omega) (h.offsets i hi)
    (by rw [length_i32Bytes]; omega)
  refine ⟨_, h1, ⟨rfl, rfl, rfl, rfl, rfl, rfl⟩, setAt_ne w.builder.bufs x (Nat.succ_ne_zero i).symm, ?_⟩
  refine ⟨h.native.of_same ⟨rfl, rfl, rfl, rfl, rfl, rfl⟩, ?_, coordsOk_setAt h.native h.coords (by omega) x⟩
  intro j hj
  show Has (setAt w.builder.bufs (i + 1) x (j + 1)) _
  by_cases he : j = i
  · subst he
    rw [setAt_get, setAt_get, sums_append, i32Bytes_append]
    exact h2
  · rw [setAt_ne _ _ (by omega), setAt_ne _ _ he]
    exact h.offsets j hj

/-- Coordinates are appended. -/
theorem coords_nw (h : NW g d k w ns cs fl) (junk : Nat → Byte) (i nv : Nat) {s : Dims} (hs : w.lastDims = s.code) {rows : List (List Dbl)}
    (hr : ∀ c ∈ rows, c.length = s.n) :
    ∃ b', nwCoords junk i nv rows w = .ok () { w with size := setAt w.size i (w.size i + rows.length), builder := b' } ∧
      SameType w.builder b' ∧
      NW g d k { w with size := setAt w.size i (w.size i + rows.length), builder := b' } ns (cs ++ rows.map (mapCoord s d)) fl := by
  have hh : Holds (rowsMem rows) (rowsView nv) 0 s rows := by
    intro t c hc
    have hl := hr c (List.mem_of_getElem? hc)
    refine ⟨hl, fun j x hx => ?_⟩
    have hj : j < 4 := by
      have := (List.getElem?_eq_some_iff.mp hx).1
      have := Dims.n_le s
      omega
    have : (rowsView nv).get (rowsMem rows) (0 + t) j = rowsMem rows j t := by
      have h4 : j = 0 ∨ j = 1 ∨ j = 2 ∨ j = 3 := by omega
      unfold CoordView.get CoordView.cell rowsView
      rcases h4 with rfl | rfl | rfl | rfl <;> simp [Quad.get]
    rw [this]
    unfold rowsMem
    rw [hc]
    exact hx
  obtain ⟨b', h1, h2, h3, h4⟩ := coordsAppend_run junk h.built.native h.built.coords hh
  refine ⟨b', ?_, h2, ?_⟩
  · unfold nwCoords
    rw [M.bind_run, M.modify_run]
    dsimp only
    rw [M.bind_run, M.get_run]
    dsimp only
    rw [← hs] at h1
    exact nwB_ok (w := { w with size := setAt w.size i (w.size i + rows.length) }) h1
  · refine ⟨⟨h.built.native.of_same h2, fun j hj => ?_, h4⟩, ?_, h.bits, h.nulls⟩
    · show Has (b'.bufs (j + 1)) _
      rw [h3 _ (by omega)]
      exact h.built.offsets j hj
    · show (b'.bufs 0).mem = [] ∧ _
      rw [h3 0 (by omega)]
      exact h.blank

/-- An offset after the last coordinate. -/
theorem closeCoords_nw (h : NW g d k w ns cs fl) (junk : Nat → Byte) {i : Nat} (hi : i < listDepth g) (hs : (ns i).sum ≤ cs.length) :
    (2147483647 < cs.length ∧ nwCloseCoords junk i w = .err EOVERFLOW w) ∨
    (cs.length ≤ 2147483647 ∧ ∃ b', nwCloseCoords junk i w = .ok () { w with builder := b' } ∧ SameType w.builder b' ∧
      NW g d k { w with builder := b' } (setAt ns i (ns i ++ [cs.length - (ns i).sum])) cs fl) := by
  unfold nwCloseCoords
  rw [M.bind_run, M.get_run]
  dsimp only
  rw [h.sizeCoords]
  by_cases hc : 2147483647 < cs.length
  · rw [if_pos hc]
    exact .inl ⟨hc, rfl⟩
  · rw [if_neg hc]
    obtain ⟨b', h1, h2, h3, h4⟩ := built_append h.built junk hi (cs.length - (ns i).sum)
    rw [show (ns i).sum + (cs.length - (ns i).sum) = cs.length by omega] at h1
    exact .inr ⟨by omega, b', nwB_ok h1, h2, h4, by show (b'.bufs 0).mem = [] ∧ _; rw [h3]; exact h.blank, h.bits, h.nulls⟩

theorem count_nw (h : NW g d k w ns cs fl) {i : Nat} (hi : i < listDepth g) : nwCount i w = .ok ((ns i).length : Int) w := by
  have hlt := numBuffers_pos (listDepth g) d k
  rw [← h.built.native.nBuffers] at hlt
  unfold nwCount
  have h1 : (do let x ← bBuf (i + 1); pure ((x.size / 4 : Nat) - 1 : Int) : M Builder Int) w.builder = .ok ((ns i).length : Int) w.builder := by
    rw [M.bind_ok (bBuf_run (by omega : i + 1 < w.builder.nBuffers)), M.pure_run]
    have := (h.built.offsets i hi).1
    rw [length_i32Bytes, length_sums] at this
    rw [this, show 4 * ((ns i).length + 1) / 4 = (ns i).length + 1 by omega]
    congr 1
    omega
  exact nwB_ok h1

/-- An offset after the last list of the next level. -/
theorem closeLists_nw (h : NW g d k w ns cs fl) (junk : Nat → Byte) {i : Nat} (hi : i + 1 < listDepth g) (hs : (ns i).sum ≤ (ns (i + 1)).length)
    (hm : (ns (i + 1)).length ≤ 2147483647) :
    ∃ b', nwCloseLists junk i w = .ok () { w with builder := b' } ∧ SameType w.builder b' ∧
      NW g d k { w with builder := b' } (setAt ns i (ns i ++ [(ns (i + 1)).length - (ns i).sum])) cs fl := by
  unfold nwCloseLists
  rw [M.bind_ok (count_nw h hi)]
  obtain ⟨b', h1, h2, h3, h4⟩ := built_append h.built junk (by omega : i < listDepth g) ((ns (i + 1)).length - (ns i).sum)
  rw [show (ns i).sum + ((ns (i + 1)).length - (ns i).sum) = (ns (i + 1)).length by omega] at h1
  have e : (BitVec.ofInt 32 ((ns (i + 1)).length : Int)).toInt = ((ns (i + 1)).length : Int) := by
    rw [BitVec.toInt_ofInt, Int.bmod_eq_of_le] <;> omega
  rw [e]
  exact ⟨b', nwB_ok h1, h2, h4, by show (b'.bufs 0).mem = [] ∧ _; rw [h3]; exact h.blank, h.bits, h.nulls⟩

theorem filter_not_append (fl : List Bool) (b : Bool) :
    ((fl ++ [b]).filter (!·)).length = (fl.filter (!·)).length + (if b then 0 else 1) := by
  rw [List.filter_append, List.length_append]
  cases b <;> rfl

/-- The flag of a feature. -/
theorem mark_nw (h : NW g d k w ns cs fl) (junk : Nat → Byte) (isNull : Bool) {len : Int} (hlen : len = fl.length + 1) :
    ∃ v n, nwMark junk isNull len w = .ok () { w with validity := v, nullCount := n } ∧
      NW g d k { w with validity := v, nullCount := n } ns cs (fl ++ [!isNull]) := by
  unfold nwMark
  rw [M.bind_run, M.get_run]
  dsimp only
  cases isNull with
  | false =>
    rw [if_neg Bool.false_ne_true]
    by_cases hb : w.validity.buf = []
    · rw [if_neg (by simp [hb])]
      refine ⟨w.validity, w.nullCount, rfl, h.built, h.blank, ?_, ?_⟩
      · rcases h.bits with ⟨h1, h2, h3, h4⟩ | ⟨h1, -⟩
        · refine .inl ⟨h1, h2, h3, ?_⟩
          rw [List.length_append, List.length_singleton, List.replicate_succ', ← h4]
          rfl
        · exact absurd hb h1
      · show w.nullCount = _
        rw [filter_not_append, h.nulls]
        rfl
    · rw [if_pos hb]
      rcases h.bits with ⟨h1, -⟩ | ⟨-, h2⟩
      · exact absurd h1 hb
      · obtain ⟨v, e1, e2⟩ := Bitmap.append_spec junk h2 true 1
        refine ⟨v, w.nullCount, ?_, h.built, h.blank, .inr ⟨Bitmap.holds_ne e2 (by simp), e2⟩, ?_⟩
        · exact nwV_ok e1
        · show w.nullCount = _
          rw [filter_not_append, h.nulls]
          rfl
  | true =>
    rw [if_pos rfl]
    have key : ∃ v, (if w.validity.buf = [] then (if len < 1 then M.undef else nwV fun v => (v.reserve junk len.toNat).appendUnsafe true (len - 1).toNat)
        else pure () : M NWriter Unit) w = .ok () { w with validity := v } ∧ v.Holds fl := by
      by_cases hb : w.validity.buf = []
      · rcases h.bits with ⟨h1, h2, h3, h4⟩ | ⟨h1, -⟩
        · rw [if_pos hb, if_neg (by omega)]
          obtain ⟨r1, r2⟩ := Bitmap.reserve_spec junk (Bitmap.holds_init h2 h3) len.toNat
          obtain ⟨v, e1, e2⟩ := Bitmap.appendUnsafe_spec r1 true fl.length (by rw [r1.1]; simp only [List.length_nil]; omega)
          refine ⟨v, ?_, ?_⟩
          · rw [show (len - 1).toNat = fl.length by omega]
            exact nwV_ok e1
          · rw [List.nil_append, ← h4] at e2
            exact e2
        · exact absurd hb h1
      · rw [if_neg hb]
        rcases h.bits with ⟨h1, -⟩ | ⟨-, h2⟩
        · exact absurd h1 hb
        · exact ⟨w.validity, rfl, h2⟩
    obtain ⟨v0, e0, hv0⟩ := key
    obtain ⟨v, e1, e2⟩ := Bitmap.append_spec junk hv0 false 1
    refine ⟨v, w.nullCount + 1, ?_, h.built, h.blank, .inr ⟨Bitmap.holds_ne e2 (by simp), e2⟩, ?_⟩
    · rw [M.bind_ok e0, M.bind_run, M.modify_run]
      exact nwV_ok (w := { w with validity := v0, nullCount := w.nullCount + 1 }) e1
    · show w.nullCount + 1 = _
      rw [filter_not_append, h.nulls]
      rfl

end

/-! ## Starting -/

theorem zeros_run (junk : Nat → Byte) : ∀ (k i : Nat) (w : NWriter), i + k < w.builder.nBuffers →
    (∀ j, Has (w.builder.bufs (j + 1)) (if j < i then i32Bytes [0] else [])) →
    ∃ b', nwZeros junk k i w = .ok () { w with builder := b' } ∧ SameType w.builder b' ∧ b'.bufs 0 = w.builder.bufs 0 ∧
      (∀ j, Has (b'.bufs (j + 1)) (if j < i + k then i32Bytes [0] else [])) ∧ (∀ j, i + k ≤ j → b'.bufs (j + 1) = w.builder.bufs (j + 1)) ∧
      b'.sizeCoords = w.builder.sizeCoords ∧ b'.capCoords = w.builder.capCoords ∧ b'.values = w.builder.values
  | 0, i, w, _, h => ⟨w.builder, rfl, .rfl' _, rfl, h, fun _ _ => rfl, rfl, rfl, rfl⟩
  | k + 1, i, w, hi, h => by
    have h0 := h i
    rw [if_neg (by omega)] at h0
    obtain ⟨x, h1, h2⟩ := offsetAppend_run junk [0] (b := w.builder) (i := i) (by omega) h0 rfl
    obtain ⟨b', e1, e2, e3, e4, e5, e6⟩ := zeros_run junk k (i + 1) { w with builder := { w.builder with bufs := setAt w.builder.bufs (i + 1) x } }
      (by show i + 1 + k < w.builder.nBuffers; omega) (by
        intro j
        show Has (setAt w.builder.bufs (i + 1) x (j + 1)) _
        by_cases he : j = i
        · subst he
          rw [setAt_get, if_pos (by omega)]
          exact h2
        · rw [setAt_ne _ _ (by omega)]
          have := h j
          by_cases hj : j < i
          · rw [if_pos hj] at this
            rw [if_pos (by omega)]
            exact this
          · rw [if_neg hj] at this
            rw [if_neg (by omega)]
            exact this)
    refine ⟨b', ?_, ⟨e2.1, e2.2, e2.3, e2.4, e2.5, e2.6⟩, e3.trans (setAt_ne w.builder.bufs x (Nat.succ_ne_zero i).symm), ?_, ?_, e6⟩
    · show (nwB (bOffsetAppend junk i [0]) >>= fun _ => nwZeros junk k (i + 1)) w = _
      rw [M.bind_ok (nwB_ok h1), e1]
    · intro j
      rw [show i + (k + 1) = i + 1 + k by omega]
      exact e4 j
    · intro j hj
      rw [e5 j (by omega)]
      exact setAt_ne _ _ (by omega)

theorem ensure_run (junk : Nat → Byte) {g : Int} {d : Dims} {k : CoordKind} {w : NWriter} (hb : NativeB g d k w.builder) (hbl : Blank w.builder) :
    ∃ w', nwEnsureInitialized junk w = .ok () w' ∧ NW g d k w' (fun _ => []) [] [] ∧ SameType w.builder w'.builder ∧ w'.currentLength = 0 ∧
      (∀ i, w'.lastOffset i = 0) := by
  have hlt := numBuffers_pos (listDepth g) d k
  rw [← hb.nBuffers] at hlt
  obtain ⟨b', e1, e2, e3, e4, e5, e6, e7, e8⟩ := zeros_run junk w.builder.nOffsets 0 w (by rw [hb.nOffsets]; omega) (by
    intro j
    rw [if_neg (by omega)]
    exact has_blank hbl _)
  have hco : CoordsOk g d k b' [] := by
    have h0 := coordsOk_blank (g := g) (d := d) (k := k) hbl
    have hbuf : ∀ i, listDepth g < i → b'.bufs i = w.builder.bufs i := by
      intro i hi
      have := e5 (i - 1) (by rw [hb.nOffsets]; omega)
      rwa [show i - 1 + 1 = i by omega] at this
    refine ⟨e6.trans h0.size, by rw [e6, e7]; exact h0.le, ?_, ?_, ?_, ?_, ?_, by intro t c hc; cases hc⟩
    · intro i h1 h2
      rw [hbuf i h1]
      exact h0.owned i h1 (by rw [← e2.nBuffers]; exact h2)
    · intro i h1 h2
      rw [e2.nBuffers, hbuf i h1, hbuf _ (by omega)]
      exact h0.len i h1 (by rw [← e2.nBuffers]; exact h2)
    · rw [e2.nBuffers, hbuf _ (by omega), e7]
      exact h0.cap
    · intro i h1 h2
      rw [hbuf i h1]
      exact h0.fits i h1 (by rw [← e2.nBuffers]; exact h2)
    · exact .inl (e7.trans hbl.coords.2)
  refine ⟨{ w with builder := { b' with sizeCoords := 0, capCoords := 0 }, nullCount := 0, currentLength := 0, validity := { w.validity with sizeBytes := 0, bits := 0 }, lastOffset := fun _ => 0 }, ?_, ?_, ?_, ?_, ?_⟩
  · unfold nwEnsureInitialized
    rw [M.bind_run, M.get_run]
    dsimp only
    rw [M.bind_ok e1]
    rfl
  · have hcc : ({ b' with sizeCoords := 0, capCoords := 0 } : Builder) = b' := by
      have h1 := e6.trans hbl.coords.1
      have h2 := e7.trans hbl.coords.2
      cases b'
      dsimp only at h1 h2
      subst h1 h2
      rfl
    refine ⟨?_, ?_, VOk.nil rfl rfl, rfl⟩
    · dsimp only
      rw [hcc]
      refine ⟨hb.of_same e2, fun i hi => ?_, hco⟩
      have := e4 i
      rw [if_pos (by rw [hb.nOffsets]; omega)] at this
      exact this
    · show (b'.bufs 0).mem = [] ∧ (b'.bufs 0).size = 0 ∧ (b'.bufs 0).owned = false
      rw [e3]
      exact ⟨hbl.mem 0, hbl.size 0, hbl.owned 0⟩
  · exact SameType.trans e2 ⟨rfl, rfl, rfl, rfl, rfl, rfl⟩
  · rfl
  · intro i
    rfl

end Verif
