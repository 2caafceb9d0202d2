import Verif.Proof.WkbAny
import Verif.Proof.LayoutVisit
import Verif.Props.Visit
/-!
# C12, C13, C14 (and C11 for the WKB reader)
-/
namespace Verif
open Spec

theorem readNode_succ (blob : List Byte) (r level : Nat) :
    wkbReadNode blob (r + 1) level = wkbNodeBody blob level (some (wkbReadNode blob r (level + 1))) := rfl

theorem readNode_root (blob : List Byte) :
    wkbReadNode blob 255 0 = wkbNodeBody blob 0 (some (wkbReadNode blob 254 1)) := readNode_succ blob 254 0

theorem wkbRead_state_irrelevant (r r' : WkbR) (blob : List Byte) (hne : blob ≠ []) : wkbRead blob r = wkbRead blob r' := by
  obtain ⟨b, bs, rfl⟩ := List.exists_cons_of_ne_nil hne
  have he : ∀ q : WkbR, wkbReadEndian (b :: bs) { q with pos := 0, left := (b :: bs).length, nodes := [] } =
      .ok () { pos := 1, left := (b :: bs).length - 1, swap := b != 1, nodes := [] } := by
    intro q
    simp [wkbReadEndian]
  have hn : wkbRead (b :: bs) r = wkbRead (b :: bs) r' := by
    simp only [wkbRead]
    rw [M.bind_ok (M.modify_run _ _), M.bind_ok (M.modify_run _ _), M.bind_run, M.bind_run]
    have : ∀ q : WkbR, wkbReadNode (b :: bs) 255 0 { q with pos := 0, left := (b :: bs).length, nodes := [] } =
        wkbReadNode (b :: bs) 255 0 { r' with pos := 0, left := (b :: bs).length, nodes := [] } := by
      intro q
      rw [readNode_root]
      simp only [wkbNodeBody]
      rw [M.bind_run, M.bind_run]
      have hh : wkbReadHeader (b :: bs) { q with pos := 0, left := (b :: bs).length, nodes := [] } =
          wkbReadHeader (b :: bs) { r' with pos := 0, left := (b :: bs).length, nodes := [] } := by
        simp only [wkbReadHeader]
        rw [M.bind_ok (he q), M.bind_ok (he r')]
      rw [hh]
    rw [this r]
  exact hn

/-! ## C12 -/

/-- Reading a valid encoding (any mixture of ISO/EWKB headers, SRIDs and byte orders over the parts), followed by
arbitrary further bytes, with a reader in any earlier state, succeeds and visiting the result delivers exactly the
encoded geometry to every visitor.

Partial: the input must be shorter than 2^35 bytes (`C12_long_ring_misread` shows why). -/
theorem C12_read_valid_partial {g : Geom} {b rest : List Byte} (he : WkbEnc g b) (hh : g.height ≤ 255)
    (hb : (b ++ rest).length < 2 ^ 35) (r : WkbR) :
    (∃ v s', wkbRead (b ++ rest) r = .ok v s' ∧ ViewDenotes (wkbMem (b ++ rest)) v g) ∧
    ∃ t, FeatureTrace g t ∧ Behaves (fun _ h => wkbVisit r (b ++ rest) h) t (.done ()) := by
  obtain ⟨v, s', h1, h2⟩ := wkbRead_spec he hh hb r
  refine ⟨⟨v, s', h1, h2⟩, ?_⟩
  obtain ⟨t, ht, hbeh⟩ := behaves_view h2
  refine ⟨t, ht, ?_⟩
  intro σ h s
  simp only [wkbVisit, h1]
  exact hbeh σ h s

/-- Big-endian EWKB MULTIPOINT Z with SRID 4326, whose first member is little-endian ISO POINT (1 2) and whose second is
big-endian ISO POINT M (3 4 1). -/
def exBlob : List Byte :=
  [0, 0xa0, 0, 0, 4, 0, 0, 0x10, 0xe6, 0, 0, 0, 2] ++
  [1, 1, 0, 0, 0, 0, 0, 0, 0, 0, 0, 0xf0, 0x3f, 0, 0, 0, 0, 0, 0, 0, 0x40] ++
  [0, 0, 0, 0x07, 0xd1, 0x40, 0x08, 0, 0, 0, 0, 0, 0, 0x40, 0x10, 0, 0, 0, 0, 0, 0,
   0x3f, 0xf0, 0, 0, 0, 0, 0, 0]
def exBlobGeom : Geom :=
  .multi .multipoint .xyz [.point .xy [[dbl1, dbl2]], .point .xym [[dbl3, dbl4, dbl1]]]

theorem exBlob_enc : WkbEnc exBlobGeom exBlob := by
  refine ⟨true, [0, 0xa0, 0, 0, 4, 0, 0, 0x10, 0xe6], _, by decide, Or.inr (Or.inr ⟨4326, by decide, by decide +kernel⟩),
    ⟨_, _, ⟨false, [1, 1, 0, 0, 0], [dbl1, dbl2], rfl, rfl, Or.inl (by decide +kernel), rfl⟩,
      ⟨_, [], ⟨true, [0, 0, 0, 0x07, 0xd1], [dbl3, dbl4, dbl1], rfl, rfl, Or.inl (by decide +kernel), rfl⟩, rfl, rfl⟩,
      rfl⟩, by decide +kernel⟩

example (r : WkbR) : ∃ t, FeatureTrace exBlobGeom t ∧
    Behaves (fun _ h => wkbVisit r (exBlob ++ [1, 2, 3]) h) t (.done ()) :=
  (C12_read_valid_partial exBlob_enc (by decide) (by decide) r).2

/-- The little-endian ISO encoding of a polygon whose first ring has 2^31 coordinates (0 0) and whose second ring is
`r2`. -/
def longRingGeom (r2 : List Coord) : Geom := .polygon .xy [List.replicate (2 ^ 31) [0, 0], r2]
def longRingBlob (r2 : List Coord) : List Byte :=
  [1, 3, 0, 0, 0] ++ wkbU32 false 2 ++ wkbRings false [List.replicate (2 ^ 31) [0, 0], r2]

theorem longRing_enc (r2 : List Coord) (h1 : r2.length < 2 ^ 32) (h2 : ∀ c ∈ r2, c.length = 2) :
    WkbEnc (longRingGeom r2) (longRingBlob r2) := by
  refine ⟨false, [1, 3, 0, 0, 0], by show 2 < 2 ^ 32; decide, ?_, Or.inl (by decide +kernel), rfl⟩
  intro r hr
  simp only [List.mem_cons, List.not_mem_nil, or_false] at hr
  rcases hr with rfl | rfl
  · refine ⟨by rw [List.length_replicate]; decide, ?_⟩
    intro c hc
    rw [(List.mem_replicate.mp hc).2]; rfl
  · exact ⟨h1, h2⟩

/-- Defect: the byte length of a coordinate run is computed from a 32-bit product, so after a ring of 2^31 XY
coordinates the cursor does not move and the second ring's size is read out of the first ring's coordinates: here the
second ring, whatever it is, comes back empty. -/
theorem C12_long_ring_misread (r2 : List Coord) (h1 : r2.length < 2 ^ 32) (h2 : ∀ c ∈ r2, c.length = 2) (r : WkbR) :
    WkbEnc (longRingGeom r2) (longRingBlob r2) ∧
    ∃ v s' n, wkbRead (longRingBlob r2) r = .ok v s' ∧ v.nodes[2]? = some n ∧ n.size = 0 := by
  refine ⟨longRing_enc r2 h1 h2, ?_⟩
  generalize hblob : longRingBlob r2 = blob
  let s0 : WkbR := { r with pos := 0, left := blob.length, nodes := [] }
  have hd0 : blob.drop s0.pos = [1, 3, 0, 0, 0] ++ (wkbU32 false 2 ++ (wkbU32 false (2 ^ 31) ++
      (wkbCoords false (List.replicate (2 ^ 31) [0, 0]) ++ wkbRings false [r2]))) := by
    show blob.drop 0 = _
    rw [List.drop_zero, ← hblob]
    simp only [longRingBlob, wkbRings, List.length_replicate, List.append_assoc]
  have hi0 : WkbInv blob s0 := ⟨Nat.zero_le _, by show blob.length ≤ 0 + blob.length; omega⟩
  have hh := readHeader_spec (big := false) (base := 3) (d := .xy) hi0 (by omega) (Or.inl (by decide +kernel)) hd0
  have hl0 := len_of_drop hd0 hi0.1
  have hd1 := drop_add hd0
  have hi1 := inv_step (sw := false) (ns := []) hi0 hl0
  have hl1 := len_of_drop hd1 hi1.1
  have hd2 := drop_add hd1
  rw [length_wkbU32] at hl1 hd2
  have hi2 := inv_step (sw := false) (ns := []) hi1 hl1
  have hl2 := len_of_drop hd2 hi2.1
  have hd3 := drop_add hd2
  rw [length_wkbU32] at hl2 hd3
  let node : Node := { blankNode with gt := 3, dims := 1, size := 2, swap := false, level := 0 }
  have hi3 := inv_step (sw := false) (ns := [node]) hi2 hl2
  have hz : ∀ n, 0 < n → ∃ rest, wkbCoords false (List.replicate n [0, 0]) = wkbU32 false 0 ++ rest := by
    intro n hn
    obtain ⟨k, rfl⟩ : ∃ k, n = k + 1 := ⟨n - 1, by omega⟩
    refine ⟨(wkbDbl false 0).drop 4 ++ wkbDbl false 0 ++ wkbCoords false (List.replicate k [0, 0]), ?_⟩
    simp only [wkbCoords, List.replicate_succ, List.flatMap_cons, List.flatMap_nil, List.append_nil]
    rw [← List.append_assoc, ← List.append_assoc]
    rfl
  obtain ⟨zr, hzr⟩ := hz (2 ^ 31) (by decide)
  rw [hzr, List.append_assoc] at hd3
  have hlen : ([1, 3, 0, 0, 0] : List Byte).length = 5 := rfl
  rw [hlen] at hh hd1 hi1 hl0 hl1 hd2 hi2 hl2 hd3 hi3
  have hl3 : 4 ≤ blob.length - (0 + 5 + 4 + 4) := by
    have := len_of_drop hd3 (by show 0 + 5 + 4 + 4 ≤ _; exact hi3.1)
    rw [length_wkbU32] at this
    have h : s0.pos = 0 := rfl
    omega
  have hrd := readSize_spec (blob := blob) (g := 3) (by decide) hi1 hd1 (by decide)
  have hr1 := readU32_spec (n := 2 ^ 31) (s := ⟨0 + 5 + 4, blob.length - 5 - 4, false, [node]⟩) hi2 hd2 (by decide)
  have hc1 : ∀ nd st, wkbReadCoords (2 ^ 31) 2 nd st = .ok
      { nd with
        stride := Quad.ofFn fun i => if i < 2 then (2 : Int) * 8 else nd.stride.get i
        coords := Quad.ofFn fun i => if i < 2 then ⟨1, st.pos + i * 8⟩ else nd.coords.get i }
      { st with pos := st.pos + 0 } := by
    intro nd st
    unfold wkbReadCoords
    have h0 : u32 (2 ^ 31 * 2) * 8 = 0 := by decide
    simp only [h0]
    rw [if_neg (by omega), if_pos (by decide)]
    rfl
  have hc2 : ∀ nd st, wkbReadCoords 0 2 nd st = .ok nd { st with pos := st.pos + 0 } := by
    intro nd st
    unfold wkbReadCoords
    have h0 : u32 (0 * 2) * 8 = 0 := by decide
    simp only [h0]
    rw [if_neg (by omega), if_neg (by decide)]
  have hr2 : ∀ ns, wkbReadU32 blob { pos := 0 + 5 + 4 + 4, left := blob.length - 5 - 4 - 4, swap := false, nodes := ns } =
      .ok 0 { pos := 0 + 5 + 4 + 4 + 4, left := blob.length - 5 - 4 - 4 - 4, swap := false, nodes := ns } := by
    intro ns
    refine readU32_spec (n := 0) (s := ⟨0 + 5 + 4 + 4, blob.length - 5 - 4 - 4, false, ns⟩) ⟨by simp only []; omega, by simp only []; omega⟩ hd3 (by decide)
  have hmain : ∃ ring1 s', wkbReadNode blob 255 0 s0 = .ok () s' ∧
      s'.nodes = [node, ring1, { node with gt := 2, level := 1, size := 0 }] := by
    let tmpl : Node := { node with gt := 2, level := 1, size := 2 ^ 31 }
    let ring1 : Node :=
      { tmpl with
        stride := Quad.ofFn fun i => if i < 2 then (2 : Int) * 8 else tmpl.stride.get i
        coords := Quad.ofFn fun i => if i < 2 then ⟨1, ((0 + 5 + 4 + 4 : Nat) : Int) + i * 8⟩ else tmpl.coords.get i }
    let ring2 : Node := { node with gt := 2, level := 1, size := 0 }
    refine ⟨ring1, ⟨0 + 5 + 4 + 4 + 0 + 4 + 0, blob.length - 5 - 4 - 4 - 4, false, [node, ring1, ring2]⟩, ?_, rfl⟩
    · have hrings : wkbReadRings blob 2 { node with gt := 2, level := 1 } (0 + 1 + 1)
          ⟨0 + 5 + 4, blob.length - 5 - 4, false, [node]⟩ =
          .ok () ⟨0 + 5 + 4 + 4 + 0 + 4 + 0, blob.length - 5 - 4 - 4 - 4, false, [node, ring1, ring2]⟩ := by
        simp only [wkbReadRings]
        rw [M.bind_ok hr1, M.bind_ok (hc1 _ _), M.bind_ok (push_run _ _)]
        refine (M.bind_ok (hr2 _)).trans ?_
        rw [M.bind_ok (hc2 _ _), M.bind_ok (push_run _ _)]
        rfl
      rw [readNode_root]
      simp only [wkbNodeBody]
      rw [M.bind_ok hh, M.bind_ok hrd, M.bind_ok (M.get_run _)]
      simp only [Nat.reduceEqDiff, or_self, if_false, if_true]
      rw [M.bind_ok (push_run _ _)]
      exact hrings
  obtain ⟨ring1, s', hm1, hm2⟩ := hmain
  refine ⟨⟨s'.nodes⟩, s', _, ?_, by rw [hm2]; rfl, rfl⟩
  simp only [wkbRead]
  rw [M.bind_ok (M.modify_run _ _)]
  rw [M.bind_ok hm1]
  rfl

example (r : WkbR) : ∃ v s' n, wkbRead (longRingBlob [[dbl1, dbl2]]) r = .ok v s' ∧ v.nodes[2]? = some n ∧ n.size = 0 :=
  (C12_long_ring_misread [[dbl1, dbl2]] (by decide) (by simp) r).2

/-! ## C13 -/

/-- Reading arbitrary bytes: if the read succeeds with its cursor still inside the input and no announced coordinate
count times dimension reaches 2^32, then every node's coordinates lie inside the input: the view denotes some geometry
and visiting it delivers that geometry without touching anything outside.

Partial: the reader does not itself guarantee the two side conditions; see `C13_count_overflow_reads_outside` and
`C13_truncated_reads_outside`. -/
theorem C13_consumed_inside_partial {blob : List Byte} {r s' : WkbR} {v : View} (h : wkbRead blob r = .ok v s')
    (hpos : s'.pos ≤ blob.length)
    (hw : ∀ n ∈ v.nodes, (n.gt = 1 ∨ n.gt = 2) → ∀ d : Dims, n.dims = d.code → n.size * d.n < 2 ^ 32) :
    ∃ g t, ViewDenotes (wkbMem blob) v g ∧ FeatureTrace g t ∧
      Behaves (fun _ h => wkbVisit r blob h) t (.done ()) := by
  obtain ⟨g, hg⟩ := (wkbRead_ok h).2.2.2 hpos hw
  obtain ⟨t, ht, hb⟩ := behaves_view hg
  refine ⟨g, t, hg, ht, ?_⟩
  intro σ hd s
  simp only [wkbVisit, h]
  exact hb σ hd s

/-- Bytes that are not a valid encoding of anything specified (unknown byte order mark 7), accepted and visited within
bounds. -/
def exOddBlob : List Byte := [7, 0, 0, 0, 2, 0, 0, 0, 1] ++ List.replicate 16 5
example : ∃ v s', wkbRead exOddBlob ⟨0, 0, false, []⟩ = .ok v s' ∧ s'.pos ≤ exOddBlob.length ∧
    ∀ n ∈ v.nodes, (n.gt = 1 ∨ n.gt = 2) → ∀ d : Dims, n.dims = d.code → n.size * d.n < 2 ^ 32 := by
  refine ⟨_, _, rfl, by decide +kernel, ?_⟩
  intro n hn _ d _
  have hsz : ∀ n ∈ (match wkbRead exOddBlob ⟨0, 0, false, []⟩ with | .ok v _ => v.nodes | _ => []), n.size < 100 := by
    decide +kernel
  have := hsz n hn
  have := Dims.n_pos d
  have : n.size * d.n ≤ 100 * 4 := Nat.mul_le_mul (by omega) (by omega)
  omega

/-- Reading never touches anything outside the input, whatever follows the header, if the input starts with the header of
a point or a linestring (ISO, EWKB or EWKB with SRID, either byte order) or is shorter than 9 bytes; and if such a read
succeeds its cursor is inside the input, so `C13_consumed_inside_partial` applies.

Partial: inputs starting with other headers (see `C13_truncated_reads_outside`). -/
theorem C13_point_linestring_reads_inside_partial {blob : List Byte}
    (h : blob.length < 9 ∨ ∃ big base d hdr rest, (base = 1 ∨ base = 2) ∧ IsHeader big base d hdr ∧ blob = hdr ++ rest)
    (r : WkbR) : (wkbRead blob r).Safe ∧ ∀ v s', wkbRead blob r = .ok v s' → s'.pos ≤ blob.length := by
  refine root_safe ?_
  rcases h with h | ⟨big, base, d, hdr, rest, hb, hh, rfl⟩
  · exact Or.inl h
  · right
    intro s t s' h0 he hr
    have := readHeader_spec (blob := hdr ++ rest) (s := s) (big := big) (base := base) (d := d) (rest := rest)
      ⟨by rw [h0]; exact Nat.zero_le _, by unfold Exact at he; omega⟩ (by omega) hh (by rw [h0]; rfl)
    rw [this] at hr
    simp only [Res.ok.injEq] at hr
    rw [← hr.1]; exact hb

/-- A big-endian linestring header announcing 5 coordinates, followed by only 3 bytes of them. -/
example (r : WkbR) : (wkbRead [0, 0, 0, 0, 2, 0, 0, 0, 5, 1, 1, 1] r).Safe :=
  (C13_point_linestring_reads_inside_partial (Or.inr ⟨true, 2, .xy, [0, 0, 0, 0, 2], [0, 0, 0, 5, 1, 1, 1], Or.inr rfl,
    Or.inl (by decide +kernel), rfl⟩) r).1

/-- Defect: a 9-byte LINESTRING header announcing 2^31 XY coordinates is accepted (the byte count wraps to 0), and
visiting it reads past the end of the 9 bytes. -/
theorem C13_count_overflow_reads_outside :
    wkbVisit ⟨0, 0, false, []⟩ [1, 2, 0, 0, 0, 0, 0, 0, 0x80] recorder [] = .ub ∧
    ∃ v s', wkbRead [1, 2, 0, 0, 0, 0, 0, 0, 0x80] ⟨0, 0, false, []⟩ = .ok v s' ∧ v.nodes.length = 1 := by
  refine ⟨?_, ⟨_, _, rfl, by decide +kernel⟩⟩
  decide +kernel

/-- Defect: the bytes of coordinates are never deducted from the count of bytes left, so reading a MULTIPOINT that
announces two points but holds only the first reads past the end of the 30 bytes. -/
theorem C13_truncated_reads_outside (r : WkbR) :
    wkbRead ([1, 4, 0, 0, 0, 2, 0, 0, 0] ++ [1, 1, 0, 0, 0] ++ List.replicate 16 0) r = .ub := by
  rw [wkbRead_state_irrelevant r ⟨0, 0, false, []⟩ _ (by simp)]
  decide +kernel

/-! ## C14 -/

/-- Whatever bytes the reader accepts, the view is exactly one well-formed tree with consistent levels starting at 0
and valid dimensions. -/
theorem C14_accepted_is_tree {blob : List Byte} {r s' : WkbR} {v : View} (h : wkbRead blob r = .ok v s') :
    LayoutAt 0 v.nodes ∧ DimsOk v.nodes :=
  ⟨(wkbRead_ok h).1, (wkbRead_ok h).2.1⟩

/-- Consequently visiting what was read never fails with a code of its own (such as "too few/too many nodes"): for every
visitor, either all callbacks are made and the visit succeeds, or the visitor's own code comes back, or (see C13) it
touches memory outside the input. -/
theorem C14_visit_never_rejects {blob : List Byte} {r s' : WkbR} {v : View} (h : wkbRead blob r = .ok v s') :
    ∃ t o, Behaves (fun _ hd => viewVisit (wkbMem blob) hd v) t o ∧ ∀ rc, o ≠ .fail rc := by
  obtain ⟨t, h1 | h1⟩ := fine_view (wkbMem blob) v (wkbRead_ok h).1
  · exact ⟨t, _, h1, by intro rc hh; cases hh⟩
  · exact ⟨t, _, h1, by intro rc hh; cases hh⟩

example : ∃ v s', wkbRead exOddBlob ⟨0, 0, false, []⟩ = .ok v s' ∧ v.nodes.length = 1 :=
  ⟨_, _, rfl, by decide +kernel⟩
example : (match wkbRead exBlob ⟨0, 0, false, []⟩ with | .ok v _ => v.nodes.map (·.level) | _ => []) = [0, 1, 1] := by
  decide +kernel

/-! ## C11 for the WKB reader -/

/-- For every input the WKB reader's callbacks and outcome are fixed; a failing callback's code is returned as is. -/
theorem C11_wkb_visit (r : WkbR) (blob : List Byte) : ∃ t o, Behaves (fun _ h => wkbVisit r blob h) t o := by
  cases h : wkbRead blob r with
  | ok v s' => simp only [wkbVisit, h]; exact regular_view _ _
  | err rc s' => simp only [wkbVisit, h]; exact Regular.fail rc
  | ub => simp only [wkbVisit, h]; exact Regular.undef

/-- The result does not depend on what the reader was used for before. -/
theorem C11_wkb_reader_reusable (r r' : WkbR) (blob : List Byte) (hne : blob ≠ []) :
    (∀ v s', wkbRead blob r = .ok v s' → ∃ s'', wkbRead blob r' = .ok v s'') ∧
    (∀ rc s', wkbRead blob r = .err rc s' → ∃ s'', wkbRead blob r' = .err rc s'') := by
  rw [wkbRead_state_irrelevant r r' blob hne]
  exact ⟨fun v s' h => ⟨s', h⟩, fun rc s' h => ⟨s', h⟩⟩

end Verif
