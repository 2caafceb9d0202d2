import Verif.Proof.NativeHistory
import Verif.Props.ArrayReader
import Verif.Props.Builder
/-!
# Properties of the writer of native arrays: C34, C36, C37
-/
namespace Verif
open Spec

/-! ## Writers exist -/

/-- A writer can be made for every native type, and it has a visitor. -/
theorem nwriter_exists {g : Int} (hg : 1 ≤ g ∧ g ≤ 6) (d : Dims) (k : CoordKind) (junk : Nat → Byte) :
    ∃ w, NWriterStart (nativeId g d k) w ∧ ∃ h, nwInitVisitor junk w = .ok h := by
  have hm : nativeId g d k ∈ nativeTypes ++ serializedTypes ∧ nativeId g d k ≠ 100005 ∧ nativeId g d k ≠ 100006 := by
    have : g = 1 ∨ g = 2 ∨ g = 3 ∨ g = 4 ∨ g = 5 ∨ g = 6 := by omega
    rcases this with rfl | rfl | rfl | rfl | rfl | rfl <;> cases d <;> cases k <;> decide +kernel
  obtain ⟨b, hb⟩ := (C56_types _).mpr hm
  have hinit : ∃ w, nwInit junk (nativeId g d k) = .ok w := by
    unfold nwInit
    rw [hb]
    dsimp only
    obtain ⟨w', h1, -⟩ := ensure_run junk (w := ⟨b, Bitmap.init, 0, 0, fun _ => 0, false, 0, 0, fun _ => 0, 0⟩) (init_native hg hb) (blank_init hb)
    rw [h1]
    exact ⟨w', rfl⟩
  obtain ⟨w, hw⟩ := hinit
  have hgt : w.builder.schema.geometryType = g := (start_nw hg (.init hw)).1.built.native.geometry
  refine ⟨w, .init hw, ?_⟩
  unfold nwInitVisitor
  dsimp only
  rw [hgt]
  have : g = 1 ∨ g = 2 ∨ g = 3 ∨ g = 4 ∨ g = 5 ∨ g = 6 := by omega
  rcases this with rfl | rfl | rfl | rfl | rfl | rfl <;> exact ⟨_, rfl⟩

theorem hasType_typedL {kd : MultiKind} {ps : List Geom} (h : ∀ p ∈ ps, match kd with
    | .multipoint => ∃ s cs, p = .point s cs
    | .multilinestring => ∃ s cs, p = .linestring s cs
    | .multipolygon => ∃ s rs, p = .polygon s rs
    | .collection => False) : Geom.TypedL kd ps := by
  induction ps with
  | nil => trivial
  | cons p ps ih =>
    have hp := h p (by simp)
    refine ⟨?_, ?_, ih fun q hq => h q (by simp [hq])⟩
    · cases kd <;> first | (obtain ⟨_, _, rfl⟩ := hp; trivial) | exact hp.elim
    · cases kd <;> first | (obtain ⟨_, _, rfl⟩ := hp; trivial) | exact hp.elim

theorem hasType_fits {g : Int} {x : Geom} (h : HasType g x) : Fits g x ∧ (g = 4 ∨ g = 2 → Simple x) := by
  unfold HasType at h
  split at h
  · refine ⟨⟨fun _ => ?_, fun h => by omega⟩, fun h => by omega⟩
    unfold Geom.allCoords
    rwa [List.length_map]
  · exact ⟨⟨fun h => by omega, fun _ => Nat.le_refl _⟩, fun _ => trivial⟩
  · exact ⟨⟨fun h => by omega, fun h => by omega⟩, fun h => by omega⟩
  · exact ⟨⟨fun h => by omega, fun _ => Nat.le_refl _⟩, fun _ => hasType_typedL (kd := .multipoint) fun p hp => by
      obtain ⟨s, cs, rfl, -⟩ := h p hp
      exact ⟨s, cs, rfl⟩⟩
  · exact ⟨⟨fun h => by omega, fun h => by omega⟩, fun h => by omega⟩
  · exact ⟨⟨fun h => by omega, fun h => by omega⟩, fun h => by omega⟩
  · exact h.elim

theorem numNulls_eq (fs : List (Option Geom)) : ((fs.map Option.isSome).filter (!·)).length = numNulls fs := by
  unfold numNulls
  rw [List.filter_map, List.length_map]
  congr 2
  funext f
  cases f <;> rfl

theorem map_mapCoord_self {d : Dims} {cs : List Coord} (h : ∀ c ∈ cs, c.length = d.n) : cs.map (mapCoord d d) = cs := by
  have key : ∀ c : Coord, c.length = d.n → mapCoord d d c = c := by
    intro c hc
    cases d with
    | xy => match c, hc with | [_, _], _ => rfl
    | xyz => match c, hc with | [_, _, _], _ => rfl
    | xym => match c, hc with | [_, _, _], _ => rfl
    | xyzm => match c, hc with | [_, _, _, _], _ => rfl
  induction cs with
  | nil => rfl
  | cons c cs ih => rw [List.map_cons, key c (h c (by simp)), ih fun c' hc => h c' (by simp [hc])]

theorem rings_self {d : Dims} {rs : List (List Coord)} (h : ∀ r ∈ rs, ∀ c ∈ r, c.length = d.n) (hne : ∀ r ∈ rs, r ≠ []) :
    (rs.filter fun r => !r.isEmpty).map (·.map (mapCoord d d)) = rs := by
  induction rs with
  | nil => rfl
  | cons r rs ih =>
    have h1 : (!r.isEmpty) = true := by simpa using hne r (by simp)
    rw [List.filter_cons, if_pos h1, List.map_cons, map_mapCoord_self (h r (by simp)), ih (fun r' hr => h r' (by simp [hr])) fun r' hr => hne r' (by simp [hr])]

theorem stored_multi {d s : Dims} {kd : MultiKind} {ps : List Geom} (hw : (Geom.multi kd s ps).WF) (hx : (Geom.multi kd s ps).NoEmptyParts d)
    (hp : ∀ p ∈ ps, ∃ s, (∃ cs, p = .point s cs) ∨ (∃ cs, p = .linestring s cs) ∨ ∃ rs, p = .polygon s rs) :
    (Geom.multi kd s ps).stored d = Geom.multi kd s ps := by
  obtain ⟨rfl, hx⟩ := hx
  refine congrArg (Geom.multi kd s) ?_
  replace hw : Geom.WFL ps := hw
  induction ps with
  | nil => rfl
  | cons p ps ih =>
    obtain ⟨h1, h2, h3⟩ := hx
    have e : p.stored s = p := by
      obtain ⟨s', ⟨cs, rfl⟩ | ⟨cs, rfl⟩ | ⟨rs, rfl⟩⟩ := hp p (by simp)
      · obtain ⟨rfl, hne⟩ := h2
        show Geom.point _ (if _ then _ else _) = _
        rw [if_neg hne, map_mapCoord_self hw.1]
      · obtain rfl : _ = s := h2
        exact congrArg _ (map_mapCoord_self hw.1)
      · obtain ⟨rfl, hne⟩ := h2
        exact congrArg _ (rings_self hw.1 hne)
    show (if p.allCoords.isEmpty = true then _ else _) = _
    rw [if_neg (by rw [List.isEmpty_iff]; exact h1), e, ih (fun q hq => hp q (by simp [hq])) h3 hw.2]

/-- Reading what was written. -/
theorem finished_read {g : Int} (hg : 1 ≤ g ∧ g ≤ 6) {d : Dims} {k : CoordKind} {fl : List Bool} {a : AArray} (hf : Finished g d k fl a)
    {r0 : AReader} (hr : ReaderOf (nativeId g d k) r0) : ∃ r, arrayReaderSetArray a r0 = .ok () r := by
  have hd1 : 1 ≤ d.code ∧ d.code ≤ 4 := by cases d <;> decide
  have hk1 : k.code = 1 ∨ k.code = 2 := by cases k <;> decide
  have hn : nativeId g d k < 100000 := by unfold nativeId; omega
  have hA : isArrowType (nativeId g d k) = false := by
    have : ∀ t : Int, t < 100000 → ¬ (t = 100002 ∨ t = 100005 ∨ t = 100004 ∨ t = 100006) := by omega
    exact decide_eq_false (this _ hn)
  obtain ⟨h1, h2, -⟩ := readerOf_inv hr
  rcases C55_native_exact_partial g d k hg r0.av (h2 hA) a hf.readable hf.buffers with ⟨-, v, hset⟩ | ⟨hc, -⟩
  · unfold arrayReaderSetArray
    rw [h1, hA, if_neg (by decide), hset]
    exact ⟨_, rfl⟩
  · exact absurd hf.shape hc

/-! ## C34 -/

theorem typed_history {g : Int} (hg : 1 ≤ g ∧ g ≤ 6) {d : Dims} {k : CoordKind} {w0 : NWriter} (h0 : NWriterStart (nativeId g d k) w0)
    {junk : Nat → Byte} {h : Handler NWriter} (hv : nwInitVisitor junk w0 = .ok h) {fs : List (Option Geom)}
    (hfs : ∀ x, some x ∈ fs → HasType g x ∧ x.WF) {t : List Event} (ht : FeaturesTrace fs t) (junk' : Nat → Byte) :
    (feed h t w0).Post (fun _ w => ∃ a w', nwFinish junk' w = .ok a w' ∧ Finished g d k (fs.map Option.isSome) a ∧
        (g ≠ 1 → numCoords fs ≤ 2147483647) ∧ ∀ (i : Nat) (f : Option Geom), fs[i]? = some f → FeatureAt g d k a i (f.map (Geom.stored d)))
      (fun rc _ => rc = EOVERFLOW ∧ 2147483647 < numCoords fs ∧ g ≠ 1) := by
  refine (history hg (start_nw hg h0).1 hv (fun x hx => ⟨(hfs x hx).2, (hasType_fits (hfs x hx).1).2⟩) ht junk').imp ?_ ?_
  · rintro _ w ⟨a, w', h1, h2, hmax, h3⟩
    refine ⟨a, w', h1, h2, hmax, ?_⟩
    intro i f hf
    have := h3 i f hf
    cases f with
    | none => exact this
    | some x =>
      obtain ⟨-, hva, y, hy, -, he⟩ := this
      rw [he (hfs x (List.mem_of_getElem? hf)).1] at hy
      exact ⟨hva, hy⟩
  · rintro rc _ (⟨-, x, hx, hf⟩ | ⟨⟨h1, h2⟩, h3⟩)
    · exact absurd (hasType_fits (hfs x hx).1).1 hf
    · exact ⟨h1, h2, h3⟩

/-- C34, the array: features of the type of the writer, nulls among them, delivered to its visitor in any chunks and finished, give
an array with one slot for each, the nulls counted, slot `i` holding what is to be stored of feature `i` (`Geom.stored`: rings
and members without coordinates dropped). The writer may have been used for other arrays before. Offsets are 32-bit, so this
is for up to 2^31 - 1 coordinates (any number for points); `C34_too_many` is about the others. -/
theorem C34_array (g : Int) (hg : 1 ≤ g ∧ g ≤ 6) (d : Dims) (k : CoordKind) (w0 : NWriter) (h0 : NWriterStart (nativeId g d k) w0)
    (junk : Nat → Byte) (h : Handler NWriter) (hv : nwInitVisitor junk w0 = .ok h) (fs : List (Option Geom))
    (hfs : ∀ x, some x ∈ fs → HasType g x ∧ x.WF) (hn : g = 1 ∨ numCoords fs ≤ 2147483647) (t : List Event) (ht : FeaturesTrace fs t)
    (junk' : Nat → Byte) :
    ∃ w a w', feed h t w0 = .ok () w ∧ nwFinish junk' w = .ok a w' ∧ a.length = (fs.length : Int) ∧ a.nullCount = (numNulls fs : Int) ∧
      ∀ (i : Nat) (f : Option Geom), fs[i]? = some f → FeatureAt g d k a i (f.map (Geom.stored d)) := by
  have hh := typed_history hg h0 hv hfs ht junk'
  cases hr : feed h t w0 with
  | ub => rw [hr] at hh; exact hh.elim
  | err rc w =>
    rw [hr] at hh
    obtain ⟨-, hm, h1⟩ := hh
    exact absurd hn (by omega)
  | ok u w =>
    rw [hr] at hh
    obtain ⟨a, w', h1, h2, -, h3⟩ := hh
    exact ⟨w, a, w', rfl, h1, by rw [h2.length, List.length_map], by rw [h2.nulls, numNulls_eq], h3⟩

/-- C34, the whole way: every reader of the type takes the array, and visiting all of it delivers the features, in order and nulls
preserved. -/
theorem C34_round_trip (g : Int) (hg : 1 ≤ g ∧ g ≤ 6) (d : Dims) (k : CoordKind) (w0 : NWriter) (h0 : NWriterStart (nativeId g d k) w0)
    (junk : Nat → Byte) (h : Handler NWriter) (hv : nwInitVisitor junk w0 = .ok h) (fs : List (Option Geom))
    (hfs : ∀ x, some x ∈ fs → HasType g x ∧ x.WF) (hn : g = 1 ∨ numCoords fs ≤ 2147483647) (t : List Event) (ht : FeaturesTrace fs t)
    (junk' : Nat → Byte) :
    ∃ w a w', feed h t w0 = .ok () w ∧ nwFinish junk' w = .ok a w' ∧
      ∀ (r0 : AReader) (parse : List Byte → Option Dbl), ReaderOf (nativeId g d k) r0 → ∃ r, arrayReaderSetArray a r0 = .ok () r ∧
        ∃ t', FeaturesTrace (fs.map fun f => f.map (Geom.stored d)) t' ∧ Behaves (fun _ h => arrayReaderVisit h parse r 0 fs.length) t' (.done ()) := by
  have hh := typed_history hg h0 hv hfs ht junk'
  cases hr : feed h t w0 with
  | ub => rw [hr] at hh; exact hh.elim
  | err rc w =>
    rw [hr] at hh
    obtain ⟨-, hm, h1⟩ := hh
    exact absurd hn (by omega)
  | ok u w =>
    rw [hr] at hh
    obtain ⟨a, w', h1, h2, -, h3⟩ := hh
    refine ⟨w, a, w', rfl, h1, fun r0 parse hro => ?_⟩
    obtain ⟨r, hs⟩ := finished_read hg h2 hro
    refine ⟨r, hs, ?_⟩
    have := C38_reader g d k hg r0 r hro a hs r.wkt r.wkb 0 (fs.map fun f => f.map (Geom.stored d)) (fun t f hf => by
      rw [List.getElem?_map] at hf
      obtain ⟨f', h4, rfl⟩ := Option.map_eq_some_iff.mp hf
      rw [Nat.zero_add]
      exact h3 t f' h4) parse
    rw [List.length_map] at this
    exact this

/-- C34 with the dimensions of the writer and without empty parts: nothing is dropped and nothing changed. -/
theorem C34_same (g : Int) (d : Dims) (x : Geom) (ht : HasType g x) (hw : x.WF) (hx : x.NoEmptyParts d) : x.stored d = x := by
  unfold HasType at ht
  split at ht
  · obtain ⟨rfl, hne⟩ := hx
    show Geom.point _ (if _ then _ else _) = _
    rw [if_neg hne, map_mapCoord_self hw]
  · obtain rfl : _ = d := hx
    exact congrArg _ (map_mapCoord_self hw)
  · obtain ⟨rfl, hne⟩ := hx
    exact congrArg _ (rings_self hw hne)
  · exact stored_multi hw hx fun p hp => by obtain ⟨s, cs, rfl, -⟩ := ht p hp; exact ⟨s, .inl ⟨cs, rfl⟩⟩
  · exact stored_multi hw hx fun p hp => by obtain ⟨s, cs, rfl⟩ := ht p hp; exact ⟨s, .inr (.inl ⟨cs, rfl⟩)⟩
  · exact stored_multi hw hx fun p hp => by obtain ⟨s, rs, rfl⟩ := ht p hp; exact ⟨s, .inr (.inr ⟨rs, rfl⟩)⟩
  · exact ht.elim

/-- C34 beyond 2^31 - 1 coordinates: except for points the writer refuses with `EOVERFLOW`, it does not write wrong offsets. -/
theorem C34_too_many (g : Int) (hg : 1 ≤ g ∧ g ≤ 6) (d : Dims) (k : CoordKind) (w0 : NWriter) (h0 : NWriterStart (nativeId g d k) w0)
    (junk : Nat → Byte) (h : Handler NWriter) (hv : nwInitVisitor junk w0 = .ok h) (fs : List (Option Geom))
    (hfs : ∀ x, some x ∈ fs → HasType g x ∧ x.WF) (hg1 : g ≠ 1) (hn : 2147483647 < numCoords fs) (t : List Event) (ht : FeaturesTrace fs t) :
    ∃ w, feed h t w0 = .err EOVERFLOW w := by
  have hh := typed_history hg h0 hv hfs ht junk
  cases hr : feed h t w0 with
  | ub => rw [hr] at hh; exact hh.elim
  | err rc w =>
    rw [hr] at hh
    rw [hh.1]
    exact ⟨w, rfl⟩
  | ok u w =>
    rw [hr] at hh
    obtain ⟨a, w', -, -, hmax, -⟩ := hh
    have := hmax hg1
    omega

def exLine1 : Geom := .multi .multilinestring .xy [.linestring .xy [[dbl1, dbl2], [dbl3, dbl4]], .linestring .xy [], .linestring .xy [[dbl4, dbl1]]]
def exLine2 : Geom := .multi .multilinestring .xyz [.linestring .xyz [[dbl1, dbl2, dbl3]]]
def exLines : List (Option Geom) := [some exLine1, none, some exLine2, some (.multi .multilinestring .xy [])]

theorem exLines_ok : (∀ x, some x ∈ exLines → HasType 5 x ∧ x.WF) ∧ numCoords exLines = 4 ∧ numNulls exLines = 1 := by
  refine ⟨?_, rfl, rfl⟩
  intro x hx
  simp only [exLines, List.mem_cons, Option.some.injEq, List.not_mem_nil, or_false, reduceCtorEq, false_or] at hx
  rcases hx with rfl | rfl | rfl
  · simp [exLine1, HasType, Geom.WF, Geom.WFL, Dims.n]
  · simp [exLine2, HasType, Geom.WF, Geom.WFL, Dims.n]
  · simp [HasType, Geom.WF, Geom.WFL]

/-- The events of `exLines`, one linestring in two chunks. -/
def exLinesTrace : List Event :=
  [.featStart, .geomStart 5 1, .geomStart 2 1, .coords 2 [[dbl1, dbl2]], .coords 2 [[dbl3, dbl4]], .geomEnd, .geomStart 2 1, .geomEnd,
   .geomStart 2 1, .coords 2 [[dbl4, dbl1]], .geomEnd, .geomEnd, .featEnd,
   .featStart, .nullFeat, .featEnd,
   .featStart, .geomStart 5 2, .geomStart 2 2, .coords 3 [[dbl1, dbl2, dbl3]], .geomEnd, .geomEnd, .featEnd,
   .featStart, .geomStart 5 1, .geomEnd, .featEnd]

theorem exLinesTrace_ok : FeaturesTrace exLines exLinesTrace := by
  refine ⟨exLinesTrace.take 13, exLinesTrace.drop 13, ⟨(exLinesTrace.take 12).drop 1, ⟨((exLinesTrace.take 11).drop 2), ?_, rfl⟩, rfl⟩, ?_, rfl⟩
  · exact ⟨(exLinesTrace.take 6).drop 2, (exLinesTrace.take 11).drop 6, ⟨_, ⟨[[[dbl1, dbl2]], [[dbl3, dbl4]]], rfl, rfl⟩, rfl⟩,
      ⟨(exLinesTrace.take 8).drop 6, (exLinesTrace.take 11).drop 8, ⟨_, ⟨[], rfl, rfl⟩, rfl⟩,
        ⟨(exLinesTrace.take 11).drop 8, [], ⟨_, ⟨[[[dbl4, dbl1]]], rfl, rfl⟩, rfl⟩, rfl, rfl⟩, rfl⟩, rfl⟩
  refine ⟨(exLinesTrace.take 16).drop 13, exLinesTrace.drop 16, rfl, ?_, rfl⟩
  refine ⟨(exLinesTrace.take 23).drop 16, exLinesTrace.drop 23, ⟨(exLinesTrace.take 22).drop 17, ⟨(exLinesTrace.take 21).drop 18, ?_, rfl⟩, rfl⟩, ?_, rfl⟩
  · exact ⟨(exLinesTrace.take 21).drop 18, [], ⟨_, ⟨[[[dbl1, dbl2, dbl3]]], rfl, rfl⟩, rfl⟩, rfl, rfl⟩
  exact ⟨exLinesTrace.drop 23, [], ⟨(exLinesTrace.take 26).drop 24, ⟨[], rfl, rfl⟩, rfl⟩, rfl, rfl⟩

/-- A multilinestring with an empty member, a null, one with Z, an empty one; written to interleaved XY. -/
example : ∃ w0 h w a w', NWriterStart (nativeId 5 .xy .interleaved) w0 ∧ nwInitVisitor (fun _ => 0) w0 = .ok h ∧
    feed h exLinesTrace w0 = .ok () w ∧ nwFinish (fun _ => 0) w = .ok a w' ∧ a.length = 4 ∧ a.nullCount = 1 ∧
    FeatureAt 5 .xy .interleaved a 0
      (some (.multi .multilinestring .xy [.linestring .xy [[dbl1, dbl2], [dbl3, dbl4]], .linestring .xy [[dbl4, dbl1]]])) ∧
    FeatureAt 5 .xy .interleaved a 2 (some (.multi .multilinestring .xy [.linestring .xy [[dbl1, dbl2]]])) := by
  obtain ⟨w0, h0, h, hv⟩ := nwriter_exists (g := 5) (by omega) .xy .interleaved (fun _ => 0)
  obtain ⟨h1, h2, h3⟩ := exLines_ok
  obtain ⟨w, a, w', h4, h5, h6, h7, h8⟩ := C34_array 5 (by omega) .xy .interleaved w0 h0 _ h hv exLines h1 (.inr (by rw [h2]; decide)) _
    exLinesTrace_ok (fun _ => 0)
  exact ⟨w0, h, w, a, w', h0, hv, h4, h5, h6, by rw [h7, h3]; rfl, h8 0 _ rfl, h8 2 _ rfl⟩

/-! ## C37 -/

/-- The geometry in a slot has the coordinates of a feature and no others; a point without coordinates is a point of NaNs. -/
def OwnCoords (g : Int) (d : Dims) (x y : Geom) : Prop :=
  if g = 1 ∧ x.allCoords = [] then y = .point d [nanCoord d] else SameCoords d x y

/-- C37, a history of accepted features: any geometries, collections too, whatever the type of the writer; linestring and multipoint
writers only without collections. Every slot has the coordinates of its own feature, all of them, in order, and no others.
Missing from the full property, because false: collections in linestring and multipoint writers (`C37_collection_leaks`),
features written after a rejected one (`C37_rejected_point_leaks`, `C37_rejected_line_leaks`) or after one that was not finished
(`C37_unfinished_leaks`). -/
theorem C37_own_coords_partial (g : Int) (hg : 1 ≤ g ∧ g ≤ 6) (d : Dims) (k : CoordKind) (w0 : NWriter) (h0 : NWriterStart (nativeId g d k) w0)
    (junk : Nat → Byte) (h : Handler NWriter) (hv : nwInitVisitor junk w0 = .ok h) (fs : List (Option Geom))
    (hfs : ∀ x, some x ∈ fs → x.WF ∧ (g = 4 ∨ g = 2 → Simple x)) (t : List Event) (ht : FeaturesTrace fs t) (w : NWriter)
    (hok : feed h t w0 = .ok () w) (junk' : Nat → Byte) :
    ∃ a w', nwFinish junk' w = .ok a w' ∧ a.length = (fs.length : Int) ∧
      (∀ i : Nat, fs[i]? = some none → NullAt a i) ∧
      ∀ (i : Nat) (x : Geom), fs[i]? = some (some x) → ValidAt a i ∧ ∃ y, GeomAt d k a i g y ∧ OwnCoords g d x y := by
  have hh := history hg (start_nw hg h0).1 hv hfs ht junk'
  rw [hok] at hh
  obtain ⟨a, w', h1, h2, -, h3⟩ := hh
  refine ⟨a, w', h1, by rw [h2.length, List.length_map], fun i hi => h3 i _ hi, fun i x hi => ?_⟩
  obtain ⟨-, hva, y, hy, he, -⟩ := h3 i _ hi
  exact ⟨hva, y, hy, he⟩

/-- C37, which histories are accepted: a feature is rejected (`EINVAL`) only by a point writer if it has several coordinates, and by a
linestring or multipoint writer if it has several linestrings, rings and multipoints; then it always is. Besides there are the
2^31 - 1 coordinates that offsets can express. -/
theorem C37_accepted_partial (g : Int) (hg : 1 ≤ g ∧ g ≤ 6) (d : Dims) (k : CoordKind) (w0 : NWriter) (h0 : NWriterStart (nativeId g d k) w0)
    (junk : Nat → Byte) (h : Handler NWriter) (hv : nwInitVisitor junk w0 = .ok h) (fs : List (Option Geom))
    (hfs : ∀ x, some x ∈ fs → x.WF ∧ (g = 4 ∨ g = 2 → Simple x)) (t : List Event) (ht : FeaturesTrace fs t) :
    (∃ w, feed h t w0 = .ok () w) ↔
      (∀ x, some x ∈ fs → (g = 1 → x.allCoords.length ≤ 1) ∧ (g = 4 ∨ g = 2 → sequences x ≤ 1)) ∧ (g = 1 ∨ numCoords fs ≤ 2147483647) := by
  have hh := history hg (start_nw hg h0).1 hv hfs ht junk
  cases hr : feed h t w0 with
  | ub => rw [hr] at hh; exact hh.elim
  | err rc w =>
    rw [hr] at hh
    refine ⟨fun ⟨_, h⟩ => by (cases h), fun ⟨h1, h2⟩ => ?_⟩
    rcases hh with ⟨-, x, hx, hf⟩ | ⟨⟨-, hm⟩, hg1⟩
    · exact absurd (h1 x hx) hf
    · omega
  | ok u w =>
    rw [hr] at hh
    obtain ⟨a, w', -, -, hmax, h3⟩ := hh
    refine ⟨fun _ => ⟨fun x hx => ?_, ?_⟩, fun _ => ⟨w, rfl⟩⟩
    · obtain ⟨i, hi⟩ := List.getElem?_of_mem hx
      exact (h3 i _ hi).1
    · by_cases hg1 : g = 1
      · exact .inl hg1
      · exact .inr (hmax hg1)

/-- C37 for linestring and multipoint writers and all features, collections too: coordinates may end up in a later slot, but none is
lost except behind the last slot, and the order is kept. -/
theorem C37_order_partial (g : Int) (hg : g = 4 ∨ g = 2) (d : Dims) (k : CoordKind) (w0 : NWriter) (h0 : NWriterStart (nativeId g d k) w0)
    (junk : Nat → Byte) (h : Handler NWriter) (hv : nwInitVisitor junk w0 = .ok h) (fs : List (Option Geom))
    (hfs : ∀ x, some x ∈ fs → x.WF) (t : List Event) (ht : FeaturesTrace fs t) (w : NWriter)
    (hok : feed h t w0 = .ok () w) (junk' : Nat → Byte) :
    ∃ (a : AArray) (w' : NWriter) (rows : List (List Coord)) (behind : List Coord), nwFinish junk' w = .ok a w' ∧ a.length = (fs.length : Int) ∧ rows.length = fs.length ∧
      (∀ (i : Nat) (r : List Coord), rows[i]? = some r → PartsAt (CoordAt d k) a i r) ∧
      rows.flatten ++ behind = (fs.map fun f => match f with
        | none => []
        | some x => x.allCoords.map fun c => mapCoord c.1 d c.2).flatten := by
  have hst := (start_nw (by omega) h0).1
  have hgt : w0.builder.schema.geometryType = g := hst.built.native.geometry
  have hline : h = nwLine junk := by
    rcases visitor_cases hv with ⟨e, rfl⟩ | ⟨e, rfl⟩ | ⟨e, rfl⟩ | ⟨e, rfl⟩ <;> first | rfl | (rw [hgt] at e; omega)
  subst hline
  have hh := line_any_history hg (okx := Geom.WF) (fun _ h => h) junk (line_begin hst) hfs ht
  rw [hok] at hh
  obtain ⟨rows, hp, lo, hr, he⟩ := hh
  obtain ⟨a, w', h1, h2, h3⟩ := line_finish hg hr junk'
  refine ⟨a, w', rows.map (·.1), lo, h1, by rw [h2.length, List.length_map], by rw [List.length_map, hp.length], h3, ?_⟩
  rw [he]
  congr 1
  clear hr he h3 h2 h1 hfs ht hok
  induction fs generalizing rows with
  | nil =>
    cases rows with
    | nil => rfl
    | cons => exact hp.elim
  | cons f fs ih =>
    cases rows with
    | nil => exact hp.elim
    | cons r rows =>
      rw [List.map_cons, List.map_cons, ih rows hp.2, show r.2 = _ from hp.1]
      cases f <;> rfl

/-- Polygon writers: a collection, a null and a polygon keep their coordinates. -/
example : ∃ w0 h w a w', NWriterStart (nativeId 3 .xy .separate) w0 ∧ nwInitVisitor (fun _ => 0) w0 = .ok h ∧
    feed h [.featStart, .geomStart 7 1, .geomStart 1 1, .coords 2 [[dbl1, dbl2]], .geomEnd, .geomStart 2 1, .coords 2 [[dbl3, dbl4], [dbl4, dbl3]],
      .geomEnd, .geomEnd, .featEnd, .featStart, .nullFeat, .featEnd] w0 = .ok () w ∧ nwFinish (fun _ => 0) w = .ok a w' ∧ a.length = 2 ∧
    NullAt a 1 ∧ ∃ y, GeomAt .xy .separate a 0 3 y ∧ y.allCoords = [(.xy, [dbl1, dbl2]), (.xy, [dbl3, dbl4]), (.xy, [dbl4, dbl3])] := by
  obtain ⟨w0, h0, h, hv⟩ := nwriter_exists (g := 3) (by omega) .xy .separate (fun _ => 0)
  let x : Geom := .multi .collection .xy [.point .xy [[dbl1, dbl2]], .linestring .xy [[dbl3, dbl4], [dbl4, dbl3]]]
  have hfs : ∀ y, some y ∈ [some x, none] → y.WF ∧ ((3 : Int) = 4 ∨ (3 : Int) = 2 → Simple y) := by
    intro y hy
    simp only [List.mem_cons, Option.some.injEq, reduceCtorEq, List.not_mem_nil, or_false] at hy
    subst hy
    exact ⟨by simp [x, Geom.WF, Geom.WFL, Dims.n], by omega⟩
  have ht : FeaturesTrace [some x, none] [.featStart, .geomStart 7 1, .geomStart 1 1, .coords 2 [[dbl1, dbl2]], .geomEnd, .geomStart 2 1,
      .coords 2 [[dbl3, dbl4], [dbl4, dbl3]], .geomEnd, .geomEnd, .featEnd, .featStart, .nullFeat, .featEnd] :=
    ⟨[.featStart, .geomStart 7 1, .geomStart 1 1, .coords 2 [[dbl1, dbl2]], .geomEnd, .geomStart 2 1,
      .coords 2 [[dbl3, dbl4], [dbl4, dbl3]], .geomEnd, .geomEnd, .featEnd], [.featStart, .nullFeat, .featEnd],
      ⟨_, ⟨_, ⟨[.geomStart 1 1, .coords 2 [[dbl1, dbl2]], .geomEnd], [.geomStart 2 1, .coords 2 [[dbl3, dbl4], [dbl4, dbl3]], .geomEnd],
        ⟨_, ⟨[[[dbl1, dbl2]]], rfl, rfl⟩, rfl⟩, ⟨[.geomStart 2 1, .coords 2 [[dbl3, dbl4], [dbl4, dbl3]], .geomEnd], [], ⟨_, ⟨[[[dbl3, dbl4], [dbl4, dbl3]]], rfl, rfl⟩, rfl⟩,
          rfl, rfl⟩, rfl⟩, rfl⟩, rfl⟩,
      ⟨_, [], rfl, rfl, rfl⟩, rfl⟩
  obtain ⟨w, hw⟩ := (C37_accepted_partial 3 (by omega) .xy .separate w0 h0 _ h hv _ hfs _ ht).mpr
    ⟨fun _ _ => ⟨by omega, by omega⟩, .inr (by show 3 ≤ _; omega)⟩
  obtain ⟨a, w', h1, h2, h3, h4⟩ := C37_own_coords_partial 3 (by omega) .xy .separate w0 h0 _ h hv _ hfs _ ht w hw (fun _ => 0)
  obtain ⟨-, y, h5, h6⟩ := h4 0 x rfl
  unfold OwnCoords at h6
  rw [if_neg (by omega)] at h6
  exact ⟨w0, h, w, a, w', h0, hv, hw, h1, h2, h3 1 rfl, y, h5, h6⟩

/-- What is missing from C37: a linestring writer accepts a collection of a linestring and a point. The coordinate of the point is the
first one of the next feature. For all coordinates. -/
theorem C37_collection_leaks (k : CoordKind) (w0 : NWriter) (h0 : NWriterStart (nativeId 2 .xy k) w0)
    (junk : Nat → Byte) (h : Handler NWriter) (hv : nwInitVisitor junk w0 = .ok h) (p q r s : Coord)
    (hwf : p.length = 2 ∧ q.length = 2 ∧ r.length = 2 ∧ s.length = 2) :
    ∃ t w a w', FeaturesTrace [some (.multi .collection .xy [.linestring .xy [p], .point .xy [q]]), some (.linestring .xy [r, s])] t ∧
      feed h t w0 = .ok () w ∧ nwFinish junk w = .ok a w' ∧ a.length = 2 ∧
      FeatureAt 2 .xy k a 0 (some (.linestring .xy [p])) ∧ FeatureAt 2 .xy k a 1 (some (.linestring .xy [q, r, s])) := by
  obtain ⟨hp, hq, hr, hs⟩ := hwf
  have hst := (start_nw (by omega) h0).1
  have hgt : w0.builder.schema.geometryType = 2 := hst.built.native.geometry
  have hline : h = nwLine junk := by
    rcases visitor_cases hv with ⟨e, rfl⟩ | ⟨e, rfl⟩ | ⟨e, rfl⟩ | ⟨e, rfl⟩ <;> first | rfl | (rw [hgt] at e; omega)
  subst hline
  have hx1 : (Geom.multi .collection .xy [.linestring .xy [p], .point .xy [q]]).WF := by
    simp [Geom.WF, Geom.WFL, Dims.n, hp, hq]
  have hx2 : (Geom.linestring .xy [r, s]).WF := by simp [Geom.WF, Dims.n, hr, hs]
  let b1 : List Event := [.geomStart 7 1, .geomStart 2 1, .coords 2 [p], .geomEnd, .geomStart 1 1, .coords 2 [q], .geomEnd, .geomEnd]
  let b2 : List Event := [.geomStart 2 1, .coords 2 [r, s], .geomEnd]
  have hb1 : (Geom.multi .collection .xy [.linestring .xy [p], .point .xy [q]]).Trace b1 :=
    ⟨_, ⟨[.geomStart 2 1, .coords 2 [p], .geomEnd], [.geomStart 1 1, .coords 2 [q], .geomEnd], ⟨_, ⟨[[p]], rfl, rfl⟩, rfl⟩,
      ⟨[.geomStart 1 1, .coords 2 [q], .geomEnd], [], ⟨_, ⟨[[q]], rfl, rfl⟩, rfl⟩, rfl, rfl⟩, rfl⟩, rfl⟩
  have hb2 : (Geom.linestring .xy [r, s]).Trace b2 := ⟨_, ⟨[[r, s]], rfl, rfl⟩, rfl⟩
  have m : ∀ c : Coord, c.length = 2 → mapCoord .xy .xy c = c := fun c hc => by match c, hc with | [_, _], _ => rfl
  have hf1 := line_feature (.inr rfl) junk (line_begin hst) (t := b1) fun n => (body_geom (d := .xy) hb1 hx1 n).1
  have hfold1 : b1.foldl (lineStep .xy) (.init [] w0.lastDims) = ⟨[[p]], [q], 0, 0, 1⟩ := by
    show (⟨[[mapCoord .xy .xy p]], [mapCoord .xy .xy q], 0, 0, 1⟩ : LSt) = _
    rw [m p hp, m q hq]
  rw [hfold1, (body_geom (d := .xy) hb1 hx1 w0.lastDims).2] at hf1
  cases e1 : feed (nwLine junk) (.featStart :: b1 ++ [.featEnd]) w0 with
  | ub => rw [e1] at hf1; exact hf1.elim
  | err rc w =>
    rw [e1] at hf1
    rcases hf1 with ⟨-, h⟩ | ⟨-, h⟩
    · exact absurd h (Nat.lt_irrefl _)
    · exact absurd h (by simp [mapped, Geom.allCoords, Geom.allCoordsL])
  | ok u w1 =>
    rw [e1] at hf1
    have hf2 := line_feature (.inr rfl) junk hf1.2 (t := b2) fun n => (body_geom (d := .xy) hb2 hx2 n).1
    have hfold2 : b2.foldl (lineStep .xy) (.init (LSt.mk [[p]] [q] 0 0 1).left w1.lastDims) = ⟨[[q, r, s]], [], 0, 0, 1⟩ := by
      show (⟨[[q] ++ [mapCoord .xy .xy r, mapCoord .xy .xy s]], [], 0, 0, 1⟩ : LSt) = _
      rw [m r hr, m s hs]
      rfl
    rw [hfold2, (body_geom (d := .xy) hb2 hx2 w1.lastDims).2] at hf2
    cases e2 : feed (nwLine junk) (.featStart :: b2 ++ [.featEnd]) w1 with
    | ub => rw [e2] at hf2; exact hf2.elim
    | err rc w =>
      rw [e2] at hf2
      rcases hf2 with ⟨-, h⟩ | ⟨-, h⟩
      · exact absurd h (Nat.lt_irrefl _)
      · exact absurd h (by simp [mapped, Geom.allCoords, LSt.row, LSt.left])
    | ok u2 w2 =>
      rw [e2] at hf2
      obtain ⟨a, w', h1, h2, h3⟩ := line_finish (.inr rfl) hf2.2 junk
      refine ⟨(.featStart :: b1 ++ [.featEnd]) ++ (.featStart :: b2 ++ [.featEnd]), w2, a, w', ?_, ?_, h1, h2.length, ?_, ?_⟩
      · exact ⟨_, _, ⟨b1, hb1, rfl⟩, ⟨_, [], ⟨b2, hb2, rfl⟩, rfl, (List.append_nil _).symm⟩, rfl⟩
      · rw [feed_append, e1]
        exact e2
      · exact ⟨h2.valid 0 rfl, .linestring (h3 0 [p] rfl)⟩
      · exact ⟨h2.valid 1 rfl, .linestring (h3 1 [q, r, s] rfl)⟩

/-! Wrong slots after a feature that was rejected or not finished, found by running the model. -/

def dblAt (a : AArray) (i : Int) : Option Dbl := match a.buffers[1]? with
  | some (some b) => f64At b (a.offset + i)
  | _ => none

theorem dblAt_spec {a : AArray} {i : Int} {x : Dbl} (h : dblAt a i = some x) : DoubleAt a i x := by
  unfold dblAt at h
  split at h
  · rename_i b hb
    exact ⟨b, hb, h⟩
  · cases h

/-- Slot `i` of separate XY coordinates, as a check. -/
def xyAt (a : AArray) (i : Nat) (c : Dbl × Dbl) : Bool := match a.children with
  | [p, q] => decide (dblAt p (a.offset + i) = some c.1) && decide (dblAt q (a.offset + i) = some c.2)
  | _ => false

theorem xyAt_spec {a : AArray} {i : Nat} {c : Dbl × Dbl} (h : xyAt a i c = true) : CoordAt .xy .separate a i [c.1, c.2] := by
  unfold xyAt at h
  split at h
  · rename_i p q hc
    rw [Bool.and_eq_true, decide_eq_true_eq, decide_eq_true_eq] at h
    refine ⟨rfl, fun j x hx => ?_⟩
    match j, hx with
    | 0, hx => cases hx; exact ⟨p, by rw [hc]; rfl, dblAt_spec h.1⟩
    | 1, hx => cases hx; exact ⟨q, by rw [hc]; rfl, dblAt_spec h.2⟩
    | j + 2, hx => simp at hx
  · cases h

/-- Slot `i` of a list is `xs`, as a check. -/
def listAtB {α : Type} (P : AArray → Nat → α → Bool) (a : AArray) (i : Nat) (xs : List α) : Bool := match a.children, a.buffers[1]? with
  | [child], some (some b) => match i32At b (a.offset + i), i32At b (a.offset + i + 1) with
    | some (.ofNat lo), some (.ofNat hi) => decide ((i : Int) < a.length) && decide (lo + xs.length = hi) && decide ((hi : Int) ≤ child.length) &&
        (List.range xs.length).all fun t => match xs[t]? with
          | some x => P child (lo + t) x
          | none => true
    | _, _ => false
  | _, _ => false

theorem listAtB_spec {α : Type} {P : AArray → Nat → α → Bool} {Q : AArray → Nat → α → Prop} (hpq : ∀ a i x, P a i x = true → Q a i x)
    {a : AArray} {i : Nat} {xs : List α} (h : listAtB P a i xs = true) : PartsAt Q a i xs := by
  unfold listAtB at h
  split at h
  · rename_i child b hc hb
    split at h
    · rename_i lo hi h1 h2
      simp only [Bool.and_eq_true, decide_eq_true_eq] at h
      obtain ⟨⟨⟨h3, h4⟩, h5⟩, h6⟩ := h
      refine ⟨lo, hi, child, ⟨h3, by rw [hc]; rfl, by omega, h5, b, hb, h1, h2⟩, by omega, fun t x hx => ?_⟩
      have := List.all_eq_true.mp h6 t (List.mem_range.mpr (List.getElem?_eq_some_iff.mp hx).1)
      rw [hx] at this
      exact hpq _ _ _ this
    · cases h
  · cases h

def isOk {σ α : Type} : Res σ α → Bool
  | .ok _ _ => true
  | _ => false

/-- Two features are written, the first one not successfully; what the finished array is checked for. -/
def runTwo (type : TypeId) (t1 t2 : List Event) (rejected : Bool) (check : AArray → Bool) : Bool :=
  match nwInit (fun _ => 0) type with
  | .error _ => false
  | .ok w0 => match nwInitVisitor (fun _ => 0) w0 with
    | .error _ => false
    | .ok h => match feed h t1 w0 with
      | .ub => false
      | .err _ w1 => rejected && match feed h t2 w1 with
        | .ok _ w2 => match nwFinish (fun _ => 0) w2 with
          | .ok a _ => check a
          | _ => false
        | _ => false
      | .ok _ w1 => !rejected && match feed h t2 w1 with
        | .ok _ w2 => match nwFinish (fun _ => 0) w2 with
          | .ok a _ => check a
          | _ => false
        | _ => false

theorem runTwo_spec {type : TypeId} {t1 t2 : List Event} {rejected : Bool} {check : AArray → Bool} (hr : runTwo type t1 t2 rejected check = true) :
    ∃ w0 h w1 w2 a w', NWriterStart type w0 ∧ nwInitVisitor (fun _ => 0) w0 = .ok h ∧
      (if rejected then ∃ rc, feed h t1 w0 = .err rc w1 else feed h t1 w0 = .ok () w1) ∧ feed h t2 w1 = .ok () w2 ∧
      nwFinish (fun _ => 0) w2 = .ok a w' ∧ check a = true := by
  unfold runTwo at hr
  split at hr
  · cases hr
  rename_i w0 h0
  split at hr
  · cases hr
  rename_i h hv
  cases h1 : feed h t1 w0 with
  | ub => rw [h1] at hr; cases hr
  | err rc w1 =>
    rw [h1] at hr
    dsimp only at hr
    rw [Bool.and_eq_true] at hr
    obtain ⟨rfl, hr⟩ := hr
    cases h2 : feed h t2 w1 with
    | ub => rw [h2] at hr; cases hr
    | err => rw [h2] at hr; cases hr
    | ok u w2 =>
      rw [h2] at hr
      dsimp only at hr
      cases h3 : nwFinish (fun _ => 0) w2 with
      | ub => rw [h3] at hr; cases hr
      | err => rw [h3] at hr; cases hr
      | ok a w' =>
        rw [h3] at hr
        exact ⟨w0, h, w1, w2, a, w', .init h0, hv, ⟨rc, h1⟩, h2, h3, hr⟩
  | ok u w1 =>
    rw [h1] at hr
    dsimp only at hr
    rw [Bool.and_eq_true] at hr
    obtain ⟨hn, hr⟩ := hr
    rw [Bool.not_eq_true'] at hn
    subst hn
    cases h2 : feed h t2 w1 with
    | ub => rw [h2] at hr; cases hr
    | err => rw [h2] at hr; cases hr
    | ok u w2 =>
      rw [h2] at hr
      dsimp only at hr
      cases h3 : nwFinish (fun _ => 0) w2 with
      | ub => rw [h3] at hr; cases hr
      | err => rw [h3] at hr; cases hr
      | ok a w' =>
        rw [h3] at hr
        exact ⟨w0, h, w1, w2, a, w', .init h0, hv, h1, h2, h3, hr⟩

/-- What is missing from C37: a point writer rejects a multipoint of two points, but keeps their coordinates. After it, POINT (4 1) is
written; the array has three slots, and slot 0 is the first point of the rejected feature. -/
theorem C37_rejected_point_leaks : ∃ w0 h w1 w2 a w' t1 t2 rc, NWriterStart (nativeId 1 .xy .separate) w0 ∧ nwInitVisitor (fun _ => 0) w0 = .ok h ∧
    FeatureTrace (.multi .multipoint .xy [.point .xy [[dbl1, dbl2]], .point .xy [[dbl3, dbl4]]]) t1 ∧ FeatureTrace (.point .xy [[dbl4, dbl1]]) t2 ∧
    feed h t1 w0 = .err rc w1 ∧ feed h t2 w1 = .ok () w2 ∧ nwFinish (fun _ => 0) w2 = .ok a w' ∧ a.length = 3 ∧
    GeomAt .xy .separate a 0 1 (.point .xy [[dbl1, dbl2]]) ∧ GeomAt .xy .separate a 2 1 (.point .xy [[dbl4, dbl1]]) := by
  let b1 : List Event := [.geomStart 4 1, .geomStart 1 1, .coords 2 [[dbl1, dbl2]], .geomEnd, .geomStart 1 1, .coords 2 [[dbl3, dbl4]], .geomEnd, .geomEnd]
  let b2 : List Event := [.geomStart 1 1, .coords 2 [[dbl4, dbl1]], .geomEnd]
  have hr : runTwo (nativeId 1 .xy .separate) (.featStart :: b1 ++ [.featEnd]) (.featStart :: b2 ++ [.featEnd]) true
      (fun a => decide (a.length = 3) && xyAt a 0 (dbl1, dbl2) && xyAt a 2 (dbl4, dbl1)) = true := by decide +kernel
  obtain ⟨w0, h, w1, w2, a, w', h1, h2, ⟨rc, h3⟩, h4, h5, h6⟩ := runTwo_spec hr
  rw [Bool.and_eq_true, Bool.and_eq_true, decide_eq_true_eq] at h6
  exact ⟨w0, h, w1, w2, a, w', _, _, rc, h1, h2,
    ⟨b1, ⟨_, ⟨[.geomStart 1 1, .coords 2 [[dbl1, dbl2]], .geomEnd], [.geomStart 1 1, .coords 2 [[dbl3, dbl4]], .geomEnd], ⟨_, ⟨[[[dbl1, dbl2]]], rfl, rfl⟩, rfl⟩,
      ⟨[.geomStart 1 1, .coords 2 [[dbl3, dbl4]], .geomEnd], [], ⟨_, ⟨[[[dbl3, dbl4]]], rfl, rfl⟩, rfl⟩, rfl, rfl⟩, rfl⟩, rfl⟩, rfl⟩,
    ⟨b2, ⟨_, ⟨[[[dbl4, dbl1]]], rfl, rfl⟩, rfl⟩, rfl⟩, h3, h4, h5, h6.1.1, .point (xyAt_spec h6.1.2), .point (xyAt_spec h6.2)⟩

/-- What is missing from C37: a linestring writer rejects a polygon with two rings, but keeps them as two slots. After it, LINESTRING
(4 1) is written; the array has three slots, and slot 0 is the first ring of the rejected feature. -/
theorem C37_rejected_line_leaks : ∃ w0 h w1 w2 a w' t1 t2 rc, NWriterStart (nativeId 2 .xy .separate) w0 ∧ nwInitVisitor (fun _ => 0) w0 = .ok h ∧
    FeatureTrace (.polygon .xy [[[dbl1, dbl2]], [[dbl3, dbl4]]]) t1 ∧ FeatureTrace (.linestring .xy [[dbl4, dbl1]]) t2 ∧
    feed h t1 w0 = .err rc w1 ∧ feed h t2 w1 = .ok () w2 ∧ nwFinish (fun _ => 0) w2 = .ok a w' ∧ a.length = 3 ∧
    GeomAt .xy .separate a 0 2 (.linestring .xy [[dbl1, dbl2]]) ∧ GeomAt .xy .separate a 2 2 (.linestring .xy [[dbl4, dbl1]]) := by
  let b1 : List Event := [.geomStart 3 1, .ringStart, .coords 2 [[dbl1, dbl2]], .ringEnd, .ringStart, .coords 2 [[dbl3, dbl4]], .ringEnd, .geomEnd]
  let b2 : List Event := [.geomStart 2 1, .coords 2 [[dbl4, dbl1]], .geomEnd]
  have hr : runTwo (nativeId 2 .xy .separate) (.featStart :: b1 ++ [.featEnd]) (.featStart :: b2 ++ [.featEnd]) true
      (fun a => decide (a.length = 3) && listAtB xyAt a 0 [(dbl1, dbl2)] && listAtB xyAt a 2 [(dbl4, dbl1)]) = true := by decide +kernel
  obtain ⟨w0, h, w1, w2, a, w', h1, h2, ⟨rc, h3⟩, h4, h5, h6⟩ := runTwo_spec hr
  rw [Bool.and_eq_true, Bool.and_eq_true, decide_eq_true_eq] at h6
  have key : ∀ i p, listAtB xyAt a i [p] = true → PartsAt (CoordAt .xy .separate) a i [[p.1, p.2]] := by
    intro i p hp
    obtain ⟨lo, hi, child, e1, e2, e3⟩ := listAtB_spec (Q := fun a i c => CoordAt .xy .separate a i [c.1, c.2]) (fun _ _ _ => xyAt_spec) hp
    refine ⟨lo, hi, child, e1, e2, fun t x hx => ?_⟩
    match t, hx with
    | 0, hx => cases hx; exact e3 0 p rfl
    | t + 1, hx => simp at hx
  exact ⟨w0, h, w1, w2, a, w', _, _, rc, h1, h2,
    ⟨b1, ⟨_, ⟨[.coords 2 [[dbl1, dbl2]]], _, ⟨[[[dbl1, dbl2]]], rfl, rfl⟩, ⟨[.coords 2 [[dbl3, dbl4]]], [], ⟨[[[dbl3, dbl4]]], rfl, rfl⟩, rfl, rfl⟩, rfl⟩, rfl⟩, rfl⟩,
    ⟨b2, ⟨_, ⟨[[[dbl4, dbl1]]], rfl, rfl⟩, rfl⟩, rfl⟩, h3, h4, h5, h6.1.1, .linestring (key 0 _ h6.1.2), .linestring (key 2 _ h6.2)⟩

/-- What is missing from C37: a feature that stops in the middle (a reader found an error in its input) leaves its coordinates to the
next feature. Here a polygon writer gets the start of a polygon, then POLYGON ((4 1)). -/
theorem C37_unfinished_leaks : ∃ w0 h w1 w2 a w' t2, NWriterStart (nativeId 3 .xy .separate) w0 ∧ nwInitVisitor (fun _ => 0) w0 = .ok h ∧
    FeatureTrace (.polygon .xy [[[dbl4, dbl1]]]) t2 ∧
    feed h [.featStart, .geomStart 3 1, .ringStart, .coords 2 [[dbl1, dbl2]]] w0 = .ok () w1 ∧ feed h t2 w1 = .ok () w2 ∧
    nwFinish (fun _ => 0) w2 = .ok a w' ∧ a.length = 1 ∧ GeomAt .xy .separate a 0 3 (.polygon .xy [[[dbl1, dbl2], [dbl4, dbl1]]]) := by
  let b2 : List Event := [.geomStart 3 1, .ringStart, .coords 2 [[dbl4, dbl1]], .ringEnd, .geomEnd]
  have hr : runTwo (nativeId 3 .xy .separate) [.featStart, .geomStart 3 1, .ringStart, .coords 2 [[dbl1, dbl2]]] (.featStart :: b2 ++ [.featEnd]) false
      (fun a => decide (a.length = 1) && listAtB (listAtB xyAt) a 0 [[(dbl1, dbl2), (dbl4, dbl1)]]) = true := by decide +kernel
  obtain ⟨w0, h, w1, w2, a, w', h1, h2, h3, h4, h5, h6⟩ := runTwo_spec hr
  rw [Bool.and_eq_true, decide_eq_true_eq] at h6
  refine ⟨w0, h, w1, w2, a, w', _, h1, h2, ⟨b2, ⟨_, ⟨[.coords 2 [[dbl4, dbl1]]], [], ⟨[[[dbl4, dbl1]]], rfl, rfl⟩, rfl, rfl⟩, rfl⟩, rfl⟩, h3, h4, h5,
    h6.1, .polygon ?_⟩
  obtain ⟨lo, hi, child, e1, e2, e3⟩ := listAtB_spec
    (Q := fun a i (r : List (Dbl × Dbl)) => PartsAt (CoordAt .xy .separate) a i (r.map fun c => [c.1, c.2])) (fun a i r hr => by
      obtain ⟨lo, hi, child, e1, e2, e3⟩ := listAtB_spec (Q := fun a i c => CoordAt .xy .separate a i [c.1, c.2]) (fun _ _ _ => xyAt_spec) hr
      refine ⟨lo, hi, child, e1, by rw [List.length_map]; exact e2, fun t x hx => ?_⟩
      rw [List.getElem?_map] at hx
      obtain ⟨c, h7, rfl⟩ := Option.map_eq_some_iff.mp hx
      exact e3 t c h7) h6.2
  refine ⟨lo, hi, child, e1, e2, fun t x hx => ?_⟩
  match t, hx with
  | 0, hx => cases hx; exact e3 0 _ rfl
  | t + 1, hx => simp at hx

end Verif
