import Verif.Proof.Stores
import Verif.Props.Kernel
import Verif.Props.Schema
/-!
# C54, C62, C63

`parse` is the function that reads numbers in WKT; it must not accept the empty word nor words that begin with `E`. `print` is the
function that writes them; what it writes must fit the space the writer sets aside.
-/
namespace Verif
open Spec

/-! ## C62: as_geoarrow -/

theorem native_start {g : Int} (hg : 1 ≤ g ∧ g ≤ 6) (d : Dims) (k : CoordKind) (junk : Nat → Byte) :
    ∃ n h, nwInit junk (nativeId g d k) = .ok n ∧ nwInitVisitor junk n = .ok h := by
  obtain ⟨w, h1, -⟩ := nwriter_exists hg d k junk
  have hinit : ∃ n, nwInit junk (nativeId g d k) = .ok n := by
    have hm : nativeId g d k ∈ nativeTypes ++ serializedTypes ∧ nativeId g d k ≠ 100005 ∧ nativeId g d k ≠ 100006 := by
      have : g = 1 ∨ g = 2 ∨ g = 3 ∨ g = 4 ∨ g = 5 ∨ g = 6 := by omega
      rcases this with rfl | rfl | rfl | rfl | rfl | rfl <;> cases d <;> cases k <;> decide +kernel
    obtain ⟨b, hb⟩ := (C56_types _).mpr hm
    unfold nwInit
    rw [hb]
    dsimp only
    obtain ⟨w', h1, -⟩ := ensure_run junk (w := ⟨b, Bitmap.init, 0, 0, fun _ => 0, false, 0, 0, fun _ => 0, 0⟩) (init_native hg hb) (blank_init hb)
    rw [h1]
    exact ⟨w', rfl⟩
  obtain ⟨n, hn⟩ := hinit
  have hgt : n.builder.schema.geometryType = g := (start_nw hg (.init hn)).1.built.native.geometry
  have hv : ∃ h, nwInitVisitor junk n = .ok h := by
    unfold nwInitVisitor
    dsimp only
    rw [hgt]
    have : g = 1 ∨ g = 2 ∨ g = 3 ∨ g = 4 ∨ g = 5 ∨ g = 6 := by omega
    rcases this with rfl | rfl | rfl | rfl | rfl | rfl <;> exact ⟨_, rfl⟩
  obtain ⟨h, hh⟩ := hv
  exact ⟨n, h, hn, hh⟩

theorem schemaListOf_error {ct : Int} {dims : List Byte} : ∀ {names : List (List Byte)} {rc : Code}, schemaListOf ct dims names = .error rc → rc = EINVAL
  | [], rc, h => by
    unfold schemaListOf at h
    split at h
    · cases h
    split at h <;> cases h
    rfl
  | n :: ns, rc, h => by
    unfold schemaListOf at h
    cases hr : schemaListOf ct dims ns with
    | error rc' => rw [hr] at h; cases h; exact schemaListOf_error hr
    | ok c => rw [hr] at h; cases h

theorem schemaInit_error {t : TypeId} {rc : Code} (h : schemaInit t = .error rc) : rc = EINVAL ∨ rc = ENOTSUP := by
  unfold schemaInit at h
  iterate 6 (split at h; · cases h)
  split at h
  · cases h; exact .inl rfl
  unfold schemaNative at h
  split at h
  · split at h <;> cases h
    exact .inl rfl
  iterate 6 (split at h; · exact .inl (schemaListOf_error h))
  cases h; exact .inr rfl

theorem viewFromType_error {t : TypeId} {v v' : SView} {rc : Code} (h : schemaViewInitFromType t v = .err rc v') : rc = EINVAL := by
  unfold schemaViewInitFromType at h
  rw [M.bind_run, M.modify_run] at h
  dsimp only at h
  split at h
  · cases h
  · cases he : extensionNameFromType t with
    | none => rw [he] at h; cases h; rfl
    | some n => rw [he] at h; cases h

theorem builderInit_error {t : TypeId} {rc : Code} (h : builderInitFromType t = .error rc) : rc = EINVAL ∨ rc = ENOTSUP := by
  unfold builderInitFromType at h
  split at h
  · unfold builderInitInternal at h
    split at h
    · cases h; exact .inr rfl
    · rename_i s hs _
      split at h
      · split at h
        · rename_i hsi
          cases h; exact schemaInit_error hsi
        · split at h
          · cases h; exact .inl rfl
          · have key : ∀ (c : Prop) [Decidable c] (x : Builder), (if c then Except.ok x else .error EINVAL) = (.error rc : Except Code Builder) → rc = EINVAL := by
              intro c _ x hx
              split at hx <;> cases hx
              rfl
            exact .inl (key _ _ h)
      · rename_i ha
        cases h
        unfold arrayViewInitFromType at ha
        rw [M.bind_run] at ha
        split at ha
        · cases ha
        · rename_i hv
          cases ha
          exact .inl (viewFromType_error hv)
        · cases ha
      · cases h; exact .inl rfl
  · rename_i hv
    cases h
    exact .inl (viewFromType_error hv)
  · cases h; exact .inl rfl

/-- A type that can be written. -/
def Writable (type : Int) : Prop := type = 100001 ∨ type = 100003 ∨ ∃ g d k, 1 ≤ g ∧ g ≤ 6 ∧ type = nativeId g d k

/-- Starting `as_geoarrow` with a number as the option `type`: exactly the types that can be written are accepted, these being WKB and
WKT with 32-bit offsets and the native types but boxes. For all others an error is returned. -/
theorem C62_start (junk : Nat → Byte) (print : Nat → Dbl → List Byte) (rawT : WktW) (rawB : WkbW) (options : List (List Byte × List Byte))
    (type : Int) (ho : HasNumber options (str "type") type) :
    (Writable type → ∃ h w, asGeoarrowStart junk print rawT rawB options none = some (.ok (h, w))) ∧
    (¬ Writable type → ∃ rc, (rc = EINVAL ∨ rc = ENOTSUP) ∧ asGeoarrowStart junk print rawT rawB options none = some (.error rc)) := by
  have e0 : asGeoarrowStart junk print rawT rawB options none =
      match arrayWriterInit junk rawT rawB type with
      | .error rc => some (.error rc)
      | .ok w =>
        match arrayWriterInitVisitor junk print w with
        | .ok h w => some (.ok (h, w))
        | .err rc _ => some (.error rc)
        | .ub => none := by
    unfold asGeoarrowStart
    rw [kernelArg_number ho]
    rfl
  rw [e0]
  refine ⟨?_, ?_⟩
  · rintro (rfl | rfl | ⟨g, d, k, h1, h2, rfl⟩)
    · exact ⟨_, _, rfl⟩
    · exact ⟨_, _, rfl⟩
    · obtain ⟨n, h, hn, hv⟩ := native_start ⟨h1, h2⟩ d k junk
      have ne := nativeId_ne ⟨h1, h2⟩ d k
      have e1 : arrayWriterInit junk rawT rawB (nativeId g d k) = .ok ⟨some n, none, none, nativeId g d k⟩ := by
        unfold arrayWriterInit
        rw [if_neg (by rintro (e | e | e | e) <;> exact ne _ (by decide) e), if_neg (ne _ (by decide)), if_neg (ne _ (by decide)), hn]
      have e2 : arrayWriterInitVisitor junk print ⟨some n, none, none, nativeId g d k⟩ =
          .ok (fun e => onNative (h e)) ⟨some n, none, none, nativeId g d k⟩ := by
        unfold arrayWriterInitVisitor
        dsimp only
        rw [if_neg (ne _ (by decide)), if_neg (ne _ (by decide)), hv]
      rw [e1]
      dsimp only
      rw [e2]
      exact ⟨_, _, rfl⟩
  · intro hw
    by_cases h1 : type = 100004 ∨ type = 100002 ∨ type = 100006 ∨ type = 100005
    · refine ⟨ENOTSUP, .inr rfl, ?_⟩
      unfold arrayWriterInit
      rw [if_pos h1]
    have h3 : type ≠ 100003 := fun e => hw (.inr (.inl e))
    have h4 : type ≠ 100001 := fun e => hw (.inl e)
    cases hb : builderInitFromType type with
    | error rc =>
      refine ⟨rc, builderInit_error hb, ?_⟩
      unfold arrayWriterInit
      rw [if_neg h1, if_neg h3, if_neg h4]
      unfold nwInit
      rw [hb]
    | ok b =>
      have hmem := (C56_types type).mp ⟨b, hb⟩
      have key : ∀ t ∈ nativeTypes, t = 990 ∨ t = 1990 ∨ t = 2990 ∨ t = 3990 ∨
          ∃ g ∈ [(1 : Int), 2, 3, 4, 5, 6], ∃ d ∈ [Dims.xy, .xyz, .xym, .xyzm], ∃ k ∈ [CoordKind.separate, .interleaved], t = nativeId g d k := by
        decide +kernel
      rcases List.mem_append.mp hmem.1 with hm | hm
      · rcases key type hm with rfl | rfl | rfl | rfl | ⟨g, hg, d, -, k, -, e⟩
        · exact ⟨EINVAL, .inl rfl, rfl⟩
        · exact ⟨EINVAL, .inl rfl, rfl⟩
        · exact ⟨EINVAL, .inl rfl, rfl⟩
        · exact ⟨EINVAL, .inl rfl, rfl⟩
        · simp only [List.mem_cons, List.not_mem_nil, or_false] at hg
          exact absurd (.inr (.inr ⟨g, d, k, by omega, by omega, e⟩)) hw
      · simp only [serializedTypes, List.mem_cons, List.not_mem_nil, or_false] at hm
        rcases hm with e | e | e | e | e | e
        all_goals first | exact absurd e h3 | exact absurd e h4 | exact absurd (by simp [e]) h1

/-- Without the option, or on a kernel that was started before, starting fails. -/
theorem C62_start_refused (junk : Nat → Byte) (print : Nat → Dbl → List Byte) (rawT : WktW) (rawB : WkbW) (options : List (List Byte × List Byte))
    (before : Option AWriter) (h : (∀ p ∈ options, p.1 ≠ str "type") ∨ before ≠ none) :
    asGeoarrowStart junk print rawT rawB options before = some (.error EINVAL) := by
  unfold asGeoarrowStart
  cases hk : kernelArg options (str "type") with
  | none => rfl
  | some t =>
    rcases h with h | h
    · unfold kernelArg at hk
      rw [metadataGet_absent h] at hk
      cases hk
    · cases before with
      | none => exact absurd rfl h
      | some w => rfl

/-- To a native type. A kernel that was just started or whose last push succeeded: pushing an array, of any readable type, of
features of the type yields an array with a slot for each, the nulls counted, slot `i` holding what is stored of feature `i`
(`Geom.stored`; by `C34_same` all of it, if no part is empty). Every reader for the type takes this array. The kernel is ready
for the next batch. -/
theorem C62_native {parse : List Byte → Option Dbl} {print : Nat → Dbl → List Byte} (hpe : parse [] = none) (hE : ∀ w, parse (69 :: w) = none)
    (kind : ArrayKind) (g : Int) (hg : 1 ≤ g ∧ g ≤ 6) (d : Dims) (ck : CoordKind) (h : Handler AWriter) (k : Kernel AWriter)
    (hk : AsKernelStart parse print kind.id (nativeId g d ck) h k) (a : AArray) (r : AReader) (hs : arrayReaderSetArray a k.reader = .ok () r)
    (fs : List (Option Geom)) (hf : kind.Features parse a fs) (hty : ∀ x, some x ∈ fs → HasType g x) (hn : g = 1 ∨ numCoords fs ≤ 2147483647)
    (junk : Nat → Byte) (scratch : Int → WktR × WkbR) :
    ∃ out k', asGeoarrowPush h junk parse scratch a k = .ok (.native out) k' ∧ out.nullCount = (numNulls fs : Int) ∧ out.offset = 0 ∧
      (ArrayKind.native g d ck hg).Features parse out (fs.map fun f => f.map (Geom.stored d)) ∧
      (∀ r0, ReaderOf (nativeId g d ck) r0 → ∃ r, arrayReaderSetArray out r0 = .ok () r) ∧ AsKernelStart parse print kind.id (nativeId g d ck) h k' := by
  obtain ⟨out, k', h1, h2, h3⟩ := asNative_run hpe hE hg hk hs hf hty hn junk scratch
  refine ⟨out, k', h1, by rw [h2.nulls, numNulls_eq], h2.offset, ⟨by rw [h2.length]; simp, ?_⟩, fun r0 hr => finished_read hg h2 hr, .push (asStart_of hk) h1⟩
  intro i f hf'
  rw [List.getElem?_map] at hf'
  obtain ⟨f', h4, rfl⟩ := Option.map_eq_some_iff.mp hf'
  exact h3 i f' h4

/-- To WKB: an array of the ISO encodings of the features, nulls for nulls. -/
theorem C62_wkb {parse : List Byte → Option Dbl} {print : Nat → Dbl → List Byte} (hpe : parse [] = none) (hE : ∀ w, parse (69 :: w) = none)
    (kind : ArrayKind) (h : Handler AWriter) (k : Kernel AWriter) (hk : AsKernelStart parse print kind.id 100001 h k) (a : AArray) (r : AReader)
    (hs : arrayReaderSetArray a k.reader = .ok () r) (fs : List (Option Geom)) (hf : kind.Features parse a fs)
    (hty : ∀ x, some x ∈ fs → x.SinglePoints ∧ x.height ≤ 29) (hn : (elemBytes (encodings fs)).length ≤ 2147483647)
    (junk : Nat → Byte) (scratch : Int → WktR × WkbR) :
    ∃ out k', asGeoarrowPush h junk parse scratch a k = .ok (.bin out) k' ∧ Represents out (encodings fs) ∧
      AsKernelStart parse print kind.id 100001 h k' := by
  obtain ⟨k', h1⟩ := asWkb_run hpe hE hk hs hf hty hn junk scratch
  exact ⟨_, k', h1, canon_represents _, .push (asStart_of hk) h1⟩

/-- To WKT: an array of the texts of the features, with 16 digits and flat multipoints, nulls for nulls. -/
theorem C62_wkt {parse : List Byte → Option Dbl} {print : Nat → Dbl → List Byte} (hp : ∀ n x, (print n x).length ≤ 40) (hpe : parse [] = none)
    (hE : ∀ w, parse (69 :: w) = none) (kind : ArrayKind) (h : Handler AWriter) (k : Kernel AWriter)
    (hk : AsKernelStart parse print kind.id 100003 h k) (a : AArray) (r : AReader) (hs : arrayReaderSetArray a k.reader = .ok () r)
    (fs : List (Option Geom)) (hf : kind.Features parse a fs) (hty : ∀ x, some x ∈ fs → x.Typed ∧ x.height ≤ 31)
    (hn : (elemBytes (texts (wktText (print 16) true) fs)).length ≤ 2147483647) (junk : Nat → Byte) (scratch : Int → WktR × WkbR) :
    ∃ out k', asGeoarrowPush h junk parse scratch a k = .ok (.bin out) k' ∧ Represents out (texts (wktText (print 16) true) fs) ∧
      AsKernelStart parse print kind.id 100003 h k' := by
  obtain ⟨k', h1⟩ := asWkt_run hp hpe hE hk hs hf hty hn junk scratch
  exact ⟨_, k', h1, canon_represents _, .push (asStart_of hk) h1⟩

/-- Such an array in memory is as the Arrow format describes, so that readers take it (`C53_accepted`), and has the elements; and
there is one. -/
theorem C62_in_memory (b : BinArray) (es : List (Option (List Byte))) (hr : Represents b es) (hl : es.length < 2 ^ 63)
    (hd : b.data.length ≤ 2147483647) :
    (∃ a, Stores a b) ∧ ∀ a, Stores a b → BinArrayOk .offsets32 a ∧ Elements .offsets32 a es :=
  ⟨stores_exists hr hd, fun a ha => ⟨stores_ok hr ha (by rw [ha.length, hr.length]; omega), stores_elements hr ha⟩⟩

theorem naInit_metadata {s : ASchema} {v : NaView} (h : naInit s = some v) :
    v.extMetadata = metadataGet (str "ARROW:extension:metadata") s.metadata := by
  unfold naInit at h
  repeat' split at h
  all_goals first | cases h; done | (cases h; rfl)

/-- The schema of the output: for a schema that can be viewed and a type that can be written, it describes the type and has the extension
metadata of the input, empty if there are none. -/
theorem C62_schema (type : Int) (ht : Writable type) (src : ASchema) (v0 v1 : SView) (hv : schemaViewInit src v0 = .ok () v1) :
    ∃ s, asGeoarrowSchema type src = .ok s ∧ ∀ v, schemaViewInit s v =
      .ok () { extName := (extensionNameFromType type).map str
               extMetadata := some ((firstValue "ARROW:extension:metadata" src).getD [])
               type := type, geometryType := geometryTypeFromType type, dimensions := dimensionsFromType type, coordType := coordTypeFromType type } := by
  have hna : ∃ na, naInit src = some na ∧ na.extMetadata = firstValue "ARROW:extension:metadata" src := by
    unfold schemaViewInit at hv
    obtain ⟨na, w, h1, -⟩ := M.bind_eq_ok.mp hv
    unfold svNa at h1
    cases hn : naInit src with
    | none => rw [hn] at h1; cases h1
    | some na' =>
      refine ⟨na', rfl, ?_⟩
      rw [naInit_metadata hn]
      exact metadataGet_first _ _
  obtain ⟨na, h1, h2⟩ := hna
  have hm : type ∈ nativeTypes ++ serializedTypes := by
    rcases ht with rfl | rfl | ⟨g, d, k, h1, h2, rfl⟩
    · decide
    · decide
    · have : g = 1 ∨ g = 2 ∨ g = 3 ∨ g = 4 ∨ g = 5 ∨ g = 6 := by omega
      rcases this with rfl | rfl | rfl | rfl | rfl | rfl <;> cases d <;> cases k <;> decide +kernel
  obtain ⟨s0, hs0⟩ := (C03_created_types type).mpr hm
  unfold asGeoarrowSchema
  rw [hs0]
  dsimp only
  unfold schemaSetMetadataFrom
  rw [h1, ← h2]
  dsimp only
  refine ⟨_, rfl, ?_⟩
  rintro ⟨⟩
  generalize na.extMetadata.getD [] = x
  rcases ht with rfl | rfl | ⟨g, d, k, h3, h4, rfl⟩
  · cases hs0; rfl
  · cases hs0; rfl
  · have : g = 1 ∨ g = 2 ∨ g = 3 ∨ g = 4 ∨ g = 5 ∨ g = 6 := by omega
    rcases this with rfl | rfl | rfl | rfl | rfl | rfl <;> cases d <;> cases k <;> (cases hs0; rfl)

/-! Examples: an array of WKB with a multipoint, a null and an empty polygon, to WKB and WKT; the first two of these, to native. -/

theorem number_first {key text : List Byte} {n : Int} {rest : List (List Byte × List Byte)} (h : NumberText text n) (h1 : text.length ≤ 15)
    (h2 : -2147483648 ≤ n ∧ n < 2147483648) : HasNumber ((key, text) :: rest) key n :=
  ⟨[], text, rest, rfl, by simp, h, h1, h2.1, h2.2⟩

def exPairArr : AArray := .mk 2 1 1 exViewArr.buffers []

theorem exPairArr_features : (ArrayKind.wkb .views).Features exParse exPairArr [some exBlobGeom, none] := by
  refine ⟨rfl, ?_⟩
  intro t f h
  match t, h with
  | 0, rfl => exact ⟨by decide, exBlob, exBlob_enc, by decide, .inr ⟨_, rfl, by decide, by decide +kernel⟩, _, 63, rfl, by decide +kernel,
      .inr ⟨by decide, 0, 2, by decide +kernel, by decide +kernel, _, rfl, by decide, by decide +kernel⟩⟩
  | 1, rfl => exact (⟨_, rfl, by decide, by decide +kernel⟩ : NullAt exPairArr 1)

theorem exPairArr_ok : BinArrayOk .views exPairArr := by
  obtain ⟨h1, h2, h3, h4, h5, h6⟩ := exViewArr_ok
  refine ⟨rfl, h2, by decide, by decide, h5, fun i hi => ?_⟩
  exact h6 i (Int.lt_trans hi (by decide))

example (junk : Nat → Byte) (rawT : WktW) (rawB : WkbW) (scratch : Int → WktR × WkbR) : ∃ h w out k',
    asGeoarrowStart junk exPrint rawT rawB [(str "type", str "1004")] none = some (.ok (h, w)) ∧
    asGeoarrowPush h junk exParse scratch exPairArr ⟨exViewReader, w⟩ = .ok (.native out) k' ∧
    FeatureAt 4 .xyz .separate out 0 (some (.multi .multipoint .xyz [.point .xyz [[dbl1, dbl2, Dbl.nan]], .point .xyz [[dbl3, dbl4, Dbl.nan]]])) ∧
    FeatureAt 4 .xyz .separate out 1 none := by
  have ho : HasNumber [(str "type", str "1004")] (str "type") (nativeId 4 .xyz .separate) :=
    number_first ⟨[], [], str "1004", rfl, by simp, by decide, by unfold IsDigit; decide, .inl ⟨.inl rfl, by decide⟩⟩ (by decide) (by decide)
  obtain ⟨h, w, hs⟩ := (C62_start junk exPrint rawT rawB _ _ ho).1 (.inr (.inr ⟨4, .xyz, .separate, by decide, by decide, rfl⟩))
  obtain ⟨r, hr⟩ := C53_accepted .views _ (.inl rfl) exViewReader exViewReader_of exPairArr exPairArr_ok
  obtain ⟨out, k', h1, -, -, h2, -⟩ := C62_native exParse_nil exParse_E (.wkb .views) 4 (by decide) .xyz .separate h ⟨exViewReader, w⟩
    (.start ho hs exViewReader_of) exPairArr r hr _ exPairArr_features (by
      intro x hx
      simp only [List.mem_cons, Option.some.injEq, List.not_mem_nil, or_false, reduceCtorEq] at hx
      subst hx
      simp only [exBlobGeom, HasType, List.mem_cons, List.not_mem_nil, or_false, true_and, forall_eq_or_imp, forall_eq]
      exact ⟨⟨_, _, rfl, by decide⟩, _, _, rfl, by decide⟩) (.inr (by decide)) junk scratch
  exact ⟨h, w, out, k', hs, h1, h2.2 0 _ rfl, h2.2 1 _ rfl⟩

theorem exView_types : ∀ x, some x ∈ [some exBlobGeom, none, some (.polygon .xy [])] → (x.SinglePoints ∧ x.height ≤ 29) ∧ x.Typed ∧ x.height ≤ 31 := by
  intro x hx
  simp only [List.mem_cons, Option.some.injEq, List.not_mem_nil, or_false, reduceCtorEq, false_or] at hx
  rcases hx with rfl | rfl
  · simp [exBlobGeom, Geom.SinglePoints, Geom.SinglePointsL, Geom.height, Geom.heightL, Geom.Typed, Geom.TypedL]
  · simp [Geom.SinglePoints, Geom.height, Geom.Typed]

example (junk : Nat → Byte) (rawT : WktW) (rawB : WkbW) (scratch : Int → WktR × WkbR) : ∃ h w out k',
    asGeoarrowStart junk exPrint rawT rawB [(str "x", str "7"), (str "type", str "100001")] none = some (.ok (h, w)) ∧
    asGeoarrowPush h junk exParse scratch exViewArr ⟨exViewReader, w⟩ = .ok (.bin out) k' ∧
    Represents out [some (isoWkb exBlobGeom), none, some [1, 3, 0, 0, 0, 0, 0, 0, 0]] := by
  have ho : HasNumber [(str "x", str "7"), (str "type", str "100001")] (str "type") 100001 :=
    ⟨[(str "x", str "7")], str "100001", [], rfl, by decide, ⟨[], [], str "100001", rfl, by simp, by decide, by unfold IsDigit; decide,
      .inl ⟨.inl rfl, by decide⟩⟩, by decide, by decide, by decide⟩
  obtain ⟨h, w, hs⟩ := (C62_start junk exPrint rawT rawB _ _ ho).1 (.inl rfl)
  obtain ⟨r, hr⟩ := exView_accepted exViewReader_of
  obtain ⟨out, k', h1, h2, -⟩ := C62_wkb exParse_nil exParse_E (.wkb .views) h ⟨exViewReader, w⟩ (.start ho hs exViewReader_of) exViewArr r hr _
    exViewArr_features (fun x hx => (exView_types x hx).1) (by decide +kernel) junk scratch
  refine ⟨h, w, out, k', hs, h1, ?_⟩
  have : encodings [some exBlobGeom, none, some (.polygon .xy [])] = [some (isoWkb exBlobGeom), none, some [1, 3, 0, 0, 0, 0, 0, 0, 0]] := by decide +kernel
  rwa [← this]

example (junk : Nat → Byte) (rawT : WktW) (rawB : WkbW) (scratch : Int → WktR × WkbR) : ∃ h w out k',
    asGeoarrowStart junk exPrint rawT rawB [(str "type", str "100003")] none = some (.ok (h, w)) ∧
    asGeoarrowPush h junk exParse scratch exViewArr ⟨exViewReader, w⟩ = .ok (.bin out) k' ∧
    Represents out [some (str "MULTIPOINT Z (1 2, 3 4 1)"), none, some (str "POLYGON EMPTY")] := by
  have ho : HasNumber [(str "type", str "100003")] (str "type") 100003 :=
    number_first ⟨[], [], str "100003", rfl, by simp, by decide, by unfold IsDigit; decide, .inl ⟨.inl rfl, by decide⟩⟩ (by decide) (by decide)
  obtain ⟨h, w, hs⟩ := (C62_start junk exPrint rawT rawB _ _ ho).1 (.inr (.inl rfl))
  obtain ⟨r, hr⟩ := exView_accepted exViewReader_of
  obtain ⟨out, k', h1, h2, -⟩ := C62_wkt exPrint_short exParse_nil exParse_E (.wkb .views) h ⟨exViewReader, w⟩ (.start ho hs exViewReader_of) exViewArr r hr _
    exViewArr_features (fun x hx => (exView_types x hx).2) (by decide +kernel) junk scratch
  refine ⟨h, w, out, k', hs, h1, ?_⟩
  have : texts (wktText (exPrint 16) true) [some exBlobGeom, none, some (.polygon .xy [])] =
    [some (str "MULTIPOINT Z (1 2, 3 4 1)"), none, some (str "POLYGON EMPTY")] := by decide +kernel
  rwa [← this]

example : ∃ s, asGeoarrowSchema (nativeId 2 .xym .interleaved) exSchema = .ok s ∧ ∀ v, schemaViewInit s v =
    .ok () { extName := some (str "geoarrow.linestring"), extMetadata := some ((firstValue "ARROW:extension:metadata" exSchema).getD [])
             type := 12002, geometryType := 2, dimensions := 3, coordType := 2 } := by
  obtain ⟨v1, hv⟩ : ∃ v1, schemaViewInit exSchema exSView = .ok () v1 := ⟨_, rfl⟩
  exact C62_schema (nativeId 2 .xym .interleaved) (.inr (.inr ⟨2, .xym, .interleaved, by decide, by decide, rfl⟩)) exSchema _ v1 hv

/-! ## C54 -/

/-- Features of one type without empty parts, in an array of any readable type, converted to the native type with a kernel and then
to WKB with another: the result is an array of their ISO encodings, nulls for nulls. -/
theorem C54_through_native {parse : List Byte → Option Dbl} {print : Nat → Dbl → List Byte} (hpe : parse [] = none)
    (hE : ∀ w, parse (69 :: w) = none) (kind : ArrayKind) (g : Int) (hg : 1 ≤ g ∧ g ≤ 6) (d : Dims) (ck : CoordKind)
    (h1 : Handler AWriter) (k1 : Kernel AWriter) (hk1 : AsKernelStart parse print kind.id (nativeId g d ck) h1 k1)
    (h2 : Handler AWriter) (k2 : Kernel AWriter) (hk2 : AsKernelStart parse print (nativeId g d ck) 100001 h2 k2)
    (fs : List (Option Geom)) (hfs : ∀ x, some x ∈ fs → HasType g x ∧ x.NoEmptyParts d)
    (hn : (elemBytes (encodings fs)).length ≤ 2147483647)
    (a : AArray) (r : AReader) (hs : arrayReaderSetArray a k1.reader = .ok () r) (hf : kind.Features parse a fs)
    (junk1 junk2 : Nat → Byte) (scratch1 scratch2 : Int → WktR × WkbR) :
    ∃ mid k1' out k2', asGeoarrowPush h1 junk1 parse scratch1 a k1 = .ok (.native mid) k1' ∧
      asGeoarrowPush h2 junk2 parse scratch2 mid k2 = .ok (.bin out) k2' ∧ Represents out (encodings fs) ∧
      AsKernelStart parse print kind.id (nativeId g d ck) h1 k1' ∧ AsKernelStart parse print (nativeId g d ck) 100001 h2 k2' := by
  have hw := features_wf hpe hE hf
  have hc := numCoords_bytes fs hw
  obtain ⟨mid, k1', p1, -, -, p2, p3, p4⟩ := C62_native hpe hE kind g hg d ck h1 k1 hk1 a r hs fs hf (fun x hx => (hfs x hx).1)
    (.inr (by omega)) junk1 scratch1
  have e : (fs.map fun f => f.map (Geom.stored d)) = fs := by
    refine (List.map_congr_left ?_).trans (List.map_id fs)
    intro f hf'
    cases f with
    | none => rfl
    | some x => exact congrArg some (C34_same g d x (hfs x hf').1 (hw x hf') (hfs x hf').2)
  rw [e] at p2
  obtain ⟨r2, hr2⟩ := p3 k2.reader (asOf_reader (asStart_of hk2))
  obtain ⟨out, k2', q1, q2, q3⟩ := C62_wkb hpe hE (.native g d ck hg) h2 k2 hk2 mid r2 hr2 fs p2
    (fun x hx => ⟨(hasType_facts (d := d) (hfs x hx).1).1, by have := (hasType_facts (d := d) (hfs x hx).1).2.1; omega⟩) hn junk2 scratch2
  exact ⟨mid, k1', out, k2', p1, q1, q2, p4, q3⟩

/-- An array of WKB, of any of the three layouts, whose elements are null or ISO encodings in native byte order of geometries of one
type without empty parts: converted to the native type and back, it has the same elements, byte for byte. This is for up to
2^31 - 1 bytes in total, since offsets of the output are 32-bit. -/
theorem C54_wkb {parse : List Byte → Option Dbl} {print : Nat → Dbl → List Byte} (hpe : parse [] = none)
    (hE : ∀ w, parse (69 :: w) = none) (layout : BinLayout) (g : Int) (hg : 1 ≤ g ∧ g ≤ 6) (d : Dims) (ck : CoordKind)
    (h1 : Handler AWriter) (k1 : Kernel AWriter) (hk1 : AsKernelStart parse print (wkbId layout) (nativeId g d ck) h1 k1)
    (h2 : Handler AWriter) (k2 : Kernel AWriter) (hk2 : AsKernelStart parse print (nativeId g d ck) 100001 h2 k2)
    (es : List (Option (List Byte))) (hes : ∀ b, some b ∈ es → ∃ x : Geom, b = isoWkb x ∧ HasType g x ∧ x.WF ∧ x.NoEmptyParts d)
    (hn : (elemBytes es).length ≤ 2147483647) (a : AArray) (ha : BinArrayOk layout a) (hel : Elements layout a es)
    (junk1 junk2 : Nat → Byte) (scratch1 scratch2 : Int → WktR × WkbR) :
    ∃ mid k1' out k2', asGeoarrowPush h1 junk1 parse scratch1 a k1 = .ok (.native mid) k1' ∧
      asGeoarrowPush h2 junk2 parse scratch2 mid k2 = .ok (.bin out) k2' ∧ Represents out es ∧
      ∀ a', Stores a' out → Elements .offsets32 a' es := by
  have hfs : ∃ fs, encodings fs = es ∧ ∀ x, some x ∈ fs → HasType g x ∧ x.WF ∧ x.NoEmptyParts d := by
    clear hn ha hel
    induction es with
    | nil => exact ⟨[], rfl, by simp⟩
    | cons e es ih =>
      obtain ⟨fs, i1, i2⟩ := ih fun b hb => hes b (by simp [hb])
      cases e with
      | none => exact ⟨none :: fs, by rw [← i1]; rfl, fun x hx => i2 x (by simpa using hx)⟩
      | some b =>
        obtain ⟨x, rfl, hx⟩ := hes b (by simp)
        refine ⟨some x :: fs, by rw [← i1]; rfl, fun y hy => ?_⟩
        rcases List.mem_cons.mp hy with e | hy
        · cases e; exact hx
        · exact i2 y hy
  obtain ⟨fs, rfl, hfs⟩ := hfs
  obtain ⟨r, hr⟩ := C53_accepted layout _ (.inl rfl) k1.reader (asOf_reader (asStart_of hk1)) a ha
  obtain ⟨mid, k1', out, k2', p1, p2, p3, -⟩ := C54_through_native hpe hE (.wkb layout) g hg d ck h1 k1 hk1 h2 k2 hk2 fs
    (fun x hx => ⟨(hfs x hx).1, (hfs x hx).2.2⟩) hn a r hr (encodings_features hel (fun x hx => by
      obtain ⟨t1, t2, -, t3⟩ := hasType_facts (d := d) (hfs x hx).1
      exact ⟨(hfs x hx).2.1, t1, t3 (hfs x hx).2.2, by omega⟩) (by omega)) junk1 junk2 scratch1 scratch2
  exact ⟨mid, k1', out, k2', p1, p2, p3, fun a' ha' => stores_elements p3 ha'⟩

/-! Example: two linestrings, one without coordinates, and a null. -/

def exLs : List (Option Geom) := [some (.linestring .xym [[dbl1, dbl2, dbl3], [dbl3, dbl4, dbl1]]), none, some (.linestring .xym [])]

example (junk : Nat → Byte) (rawT : WktW) (rawB : WkbW) (scratch : Int → WktR × WkbR) : ∃ a h1 w1 h2 w2 r1 r2,
    asGeoarrowStart junk exPrint rawT rawB [(str "type", str "12002")] none = some (.ok (h1, w1)) ∧
    asGeoarrowStart junk exPrint rawT rawB [(str "type", str "100001")] none = some (.ok (h2, w2)) ∧
    Elements .offsets32 a (encodings exLs) ∧
    ∃ mid k1' out k2', asGeoarrowPush h1 junk exParse scratch a ⟨r1, w1⟩ = .ok (.native mid) k1' ∧
      asGeoarrowPush h2 junk exParse scratch mid ⟨r2, w2⟩ = .ok (.bin out) k2' ∧ Represents out (encodings exLs) := by
  have ho1 : HasNumber [(str "type", str "12002")] (str "type") (nativeId 2 .xym .interleaved) :=
    number_first ⟨[], [], str "12002", rfl, by simp, by decide, by unfold IsDigit; decide, .inl ⟨.inl rfl, by decide⟩⟩ (by decide) (by decide)
  have ho2 : HasNumber [(str "type", str "100001")] (str "type") 100001 :=
    number_first ⟨[], [], str "100001", rfl, by simp, by decide, by unfold IsDigit; decide, .inl ⟨.inl rfl, by decide⟩⟩ (by decide) (by decide)
  obtain ⟨h1, w1, s1⟩ := (C62_start junk exPrint rawT rawB _ _ ho1).1 (.inr (.inr ⟨2, .xym, .interleaved, by decide, by decide, rfl⟩))
  obtain ⟨h2, w2, s2⟩ := (C62_start junk exPrint rawT rawB _ _ ho2).1 (.inl rfl)
  obtain ⟨r1, hr1⟩ : ∃ r, arrayReaderInit (wkbId .offsets32) = some r := ⟨_, rfl⟩
  obtain ⟨r2, hr2⟩ : ∃ r, arrayReaderInit (nativeId 2 .xym .interleaved) = some r := ⟨_, rfl⟩
  have hrep := canon_represents (encodings exLs)
  obtain ⟨⟨a, ha⟩, hall⟩ := C62_in_memory _ _ hrep (by decide) (show (elemBytes (encodings exLs)).length ≤ 2147483647 by decide +kernel)
  obtain ⟨hok, hel⟩ := hall a ha
  obtain ⟨mid, k1', out, k2', p1, p2, p3, -⟩ := C54_wkb exParse_nil exParse_E .offsets32 2 (by decide) .xym .interleaved h1 ⟨r1, w1⟩
    (.start ho1 s1 (.init hr1)) h2 ⟨r2, w2⟩ (.start ho2 s2 (.init hr2)) (encodings exLs) (by
      intro b hb
      simp only [encodings, exLs, List.map_cons, List.map_nil, Option.map_some, Option.map_none, List.mem_cons, Option.some.injEq, List.not_mem_nil,
        or_false, reduceCtorEq, false_or] at hb
      rcases hb with rfl | rfl
      · exact ⟨_, rfl, trivial, by simp [Geom.WF, Dims.n], rfl⟩
      · exact ⟨_, rfl, trivial, by simp [Geom.WF], rfl⟩) (by decide +kernel) a hok hel junk junk scratch scratch
  exact ⟨a, h1, w1, h2, w2, r1, r2, s1, s2, hel, mid, k1', out, k2', p1, p2, p3⟩

/-! ## C63: format_wkt -/

/-- A `format_wkt` kernel that was just started or whose last push succeeded, with a precision and a limit of the size that are
numbers, or absent (16 and no limit): pushing an array of any readable type yields an array of texts, nulls for nulls, that are
as `Written` says: complete without a limit; cut to the limit up to the first null, and afterwards prefixes of the text that
are complete or no shorter than the limit. The kernel is ready for the next batch. -/
theorem C63_format_wkt {parse : List Byte → Option Dbl} {print : Nat → Dbl → List Byte} (hp : ∀ n x, (print n x).length ≤ 40) (hpe : parse [] = none)
    (hE : ∀ w, parse (69 :: w) = none) (kind : ArrayKind) (p max : Int) (k : Kernel WktW) (hk : FwKernelStart parse print kind.id p max k)
    (a : AArray) (r : AReader) (hs : arrayReaderSetArray a k.reader = .ok () r) (fs : List (Option Geom)) (hf : kind.Features parse a fs)
    (hty : ∀ x, some x ∈ fs → x.Typed ∧ x.height ≤ 31)
    (hn : (elemBytes (texts (wktText (print (effective p)) true) fs)).length ≤ 2147483647) (scratch : Int → WktR × WkbR) :
    ∃ out es k', formatWktPush print parse scratch a k = .ok out k' ∧ Represents out es ∧
      Written max (wktText (print (effective p)) true) false fs es ∧ FwKernelStart parse print kind.id p max k' := by
  obtain ⟨es, k', h1, h2⟩ := formatWkt_run hp hpe hE hk hs hf hty hn scratch
  exact ⟨_, es, k', h1, canon_represents es, h2, .push (fwStart_inv hpe hk).1 h1⟩

theorem written_plain {max : Int} (hm : max < 0) {txt : Geom → List Byte} : ∀ {fs : List (Option Geom)} {seen : Bool} {es : List (Option (List Byte))},
    Written max txt seen fs es → es = texts txt fs
  | [], _, es, h => h
  | none :: fs, _, es, h => by
    obtain ⟨es', rfl, h2⟩ := h
    rw [written_plain hm h2]; rfl
  | some g :: fs, _, es, h => by
    obtain ⟨e, es', rfl, -, h1 | h1, -, h2⟩ := h
    · rw [written_plain hm h2, h1]; rfl
    · omega

theorem written_cut {max : Int} (hm : 0 ≤ max) {txt : Geom → List Byte} : ∀ {fs : List (Option Geom)} {es : List (Option (List Byte))},
    (∀ f ∈ fs, f ≠ none) → Written max txt false fs es → es = texts (fun g => (txt g).take max.toNat) fs
  | [], es, _, h => h
  | none :: fs, es, hf, h => absurd rfl (hf none (by simp))
  | some g :: fs, es, hf, h => by
    obtain ⟨e, es', rfl, -, -, h1, h2⟩ := h
    rw [written_cut hm (fun f h => hf f (by simp [h])) h2, h1 rfl hm]; rfl

/-- Without a limit the elements are the complete texts. -/
theorem C63_no_limit {parse : List Byte → Option Dbl} {print : Nat → Dbl → List Byte} (hp : ∀ n x, (print n x).length ≤ 40) (hpe : parse [] = none)
    (hE : ∀ w, parse (69 :: w) = none) (kind : ArrayKind) (p max : Int) (hm : max < 0) (k : Kernel WktW)
    (hk : FwKernelStart parse print kind.id p max k) (a : AArray) (r : AReader) (hs : arrayReaderSetArray a k.reader = .ok () r)
    (fs : List (Option Geom)) (hf : kind.Features parse a fs) (hty : ∀ x, some x ∈ fs → x.Typed ∧ x.height ≤ 31)
    (hn : (elemBytes (texts (wktText (print (effective p)) true) fs)).length ≤ 2147483647) (scratch : Int → WktR × WkbR) :
    ∃ out k', formatWktPush print parse scratch a k = .ok out k' ∧ Represents out (texts (wktText (print (effective p)) true) fs) ∧
      FwKernelStart parse print kind.id p max k' := by
  obtain ⟨out, es, k', h1, h2, h3, h4⟩ := C63_format_wkt hp hpe hE kind p max k hk a r hs fs hf hty hn scratch
  rw [written_plain hm h3] at h2
  exact ⟨out, k', h1, h2, h4⟩

/-- With a limit the elements are the first so many bytes of the texts, if there are no nulls (`C24_` theorems show what happens
after nulls). -/
theorem C63_limit {parse : List Byte → Option Dbl} {print : Nat → Dbl → List Byte} (hp : ∀ n x, (print n x).length ≤ 40) (hpe : parse [] = none)
    (hE : ∀ w, parse (69 :: w) = none) (kind : ArrayKind) (p max : Int) (hm : 0 ≤ max) (k : Kernel WktW)
    (hk : FwKernelStart parse print kind.id p max k) (a : AArray) (r : AReader) (hs : arrayReaderSetArray a k.reader = .ok () r)
    (fs : List (Option Geom)) (hnull : ∀ f ∈ fs, f ≠ none) (hf : kind.Features parse a fs) (hty : ∀ x, some x ∈ fs → x.Typed ∧ x.height ≤ 31)
    (hn : (elemBytes (texts (wktText (print (effective p)) true) fs)).length ≤ 2147483647) (scratch : Int → WktR × WkbR) :
    ∃ out k', formatWktPush print parse scratch a k = .ok out k' ∧
      Represents out (texts (fun g => (wktText (print (effective p)) true g).take max.toNat) fs) ∧ FwKernelStart parse print kind.id p max k' := by
  obtain ⟨out, es, k', h1, h2, h3, h4⟩ := C63_format_wkt hp hpe hE kind p max k hk a r hs fs hf hty hn scratch
  rw [written_cut hm hnull h3] at h2
  exact ⟨out, k', h1, h2, h4⟩

example (raw : WktW) (scratch : Int → WktR × WkbR) : ∃ out k',
    formatWktPush exPrint exParse scratch exViewArr ⟨exViewReader, (formatWktStart [(str "precision", str "3")] (wktWriterInit raw)).priv⟩ = .ok out k' ∧
    Represents out [some (str "MULTIPOINT Z (1 2, 3 4 1)"), none, some (str "POLYGON EMPTY")] := by
  obtain ⟨r, hr⟩ := exView_accepted exViewReader_of
  obtain ⟨out, k', h1, h2, -⟩ := C63_no_limit exPrint_short exParse_nil exParse_E (.wkb .views) 3 (-1) (by decide)
    ⟨exViewReader, (formatWktStart [(str "precision", str "3")] (wktWriterInit raw)).priv⟩
    (.start (.given (number_first ⟨[], [], str "3", rfl, by simp, by decide, by unfold IsDigit; decide, .inl ⟨.inl rfl, by decide⟩⟩ (by decide) (by decide)))
      (.absent (by decide)) exViewReader_of) exViewArr r hr _ exViewArr_features (fun x hx => (exView_types x hx).2) (by decide +kernel) scratch
  refine ⟨out, k', h1, ?_⟩
  have : texts (wktText (exPrint (effective 3)) true) [some exBlobGeom, none, some (.polygon .xy [])] =
    [some (str "MULTIPOINT Z (1 2, 3 4 1)"), none, some (str "POLYGON EMPTY")] := by decide +kernel
  rwa [← this]

end Verif
