import Verif.Props.ArrayWriter
import Verif.Model.CppWriter
/-!
# C64, C65: array writers, from C and from C++
-/
namespace Verif
open Spec

section
variable {print : Nat → Dbl → List Byte} {p : Int} {flat : Bool} {h : Handler AWriter} {w : AWriter}

/-! ## WKT -/

theorem setP_wkt (q : Int) (x : WktWriter) : arrayWriterSetPrecision q ⟨none, some x, none, 100003⟩ = .ok () ⟨none, some { x with precision := q }, none, 100003⟩ := rfl
theorem setF_wkt (b : Bool) (x : WktWriter) : arrayWriterSetFlatMultipoint b ⟨none, some x, none, 100003⟩ = .ok () ⟨none, some { x with flat := b }, none, 100003⟩ := rfl

theorem opened_wkt (ho : WriterOpened 100003 p flat w) : ∃ raw, w = ⟨none, some ⟨p, flat, -1, wktInit raw⟩, none, 100003⟩ := by
  induction ho with
  | @init _ rawT _ _ h => cases h; exact ⟨rawT, rfl⟩
  | setPrecision _ h ih =>
    obtain ⟨raw, rfl⟩ := ih
    rw [setP_wkt] at h
    cases h
    exact ⟨raw, rfl⟩
  | setFlat _ h ih =>
    obtain ⟨raw, rfl⟩ := ih
    rw [setF_wkt] at h
    cases h
    exact ⟨raw, rfl⟩

def WktO (print : Nat → Dbl → List Byte) (p : Int) (flat : Bool) (h : Handler AWriter) (s : AWriter) : Prop :=
  h = (fun e => onWkt (wktHandler print e)) ∧ ∃ (o : WktWriter) (b : WktW), s = ⟨none, some { o with priv := b }, none, 100003⟩ ∧
    Options (effective p) flat (-1) b

theorem visitor_wkt {junk : Nat → Byte} {w' : AWriter} (ho : WriterOpened 100003 p flat w) (hv : arrayWriterInitVisitor junk print w = .ok h w') :
    h = (fun e => onWkt (wktHandler print e)) ∧ ∃ (o : WktWriter) (b : WktW), w' = ⟨none, some { o with priv := b }, none, 100003⟩ ∧
      Options (effective p) flat (-1) b ∧ b.core.Fresh := by
  obtain ⟨raw, rfl⟩ := opened_wkt ho
  cases hv
  exact ⟨rfl, ⟨p, flat, -1, wktInit raw⟩, _, rfl, ⟨rfl, rfl, rfl⟩, wktInit_fresh _ _ _ _⟩

theorem writerOf_wkt (hw : WriterOf print 100003 p flat h w) : WktO print p flat h w := by
  induction hw with
  | visitor ho hv =>
    obtain ⟨h1, o, b, h2, h3, -⟩ := visitor_wkt ho hv
    exact ⟨h1, o, b, h2, h3⟩
  | @setPrecision _ _ q _ _ h ih =>
    obtain ⟨h1, o, b, rfl, h3⟩ := ih
    rw [setP_wkt] at h
    cases h
    exact ⟨h1, { o with precision := q }, b, rfl, h3⟩
  | @setFlat _ _ f _ _ h ih =>
    obtain ⟨h1, o, b, rfl, h3⟩ := ih
    rw [setF_wkt] at h
    cases h
    exact ⟨h1, { o with flat := f }, b, rfl, h3⟩
  | event _ hr ih =>
    obtain ⟨rfl, o, b, rfl, ho⟩ := ih
    obtain ⟨b', h1, rfl⟩ := onWkt_state hr
    exact ⟨rfl, o, b', rfl, ho.keep (keepsO_handler print _ b b' h1)⟩
  | finish _ hr ih =>
    obtain ⟨rfl, o, b, rfl, ho⟩ := ih
    rw [finish_wkt] at hr
    obtain ⟨b', h1, rfl⟩ := onWkt_state (wrap_state hr)
    exact ⟨rfl, o, b', rfl, ho.keep (keepsO_finish b b' h1)⟩

theorem writerStart_wkt (hw : WriterStart print 100003 p flat h w) :
    h = (fun e => onWkt (wktHandler print e)) ∧ ∃ (o : WktWriter) (b : WktW), w = ⟨none, some { o with priv := b }, none, 100003⟩ ∧
      Options (effective p) flat (-1) b ∧ b.core.Fresh := by
  induction hw with
  | visitor ho hv => exact visitor_wkt ho hv
  | @setPrecision _ _ q _ _ h ih =>
    obtain ⟨h1, o, b, rfl, h3⟩ := ih
    rw [setP_wkt] at h
    cases h
    exact ⟨h1, { o with precision := q }, b, rfl, h3⟩
  | @setFlat _ _ f _ _ h ih =>
    obtain ⟨h1, o, b, rfl, h3⟩ := ih
    rw [setF_wkt] at h
    cases h
    exact ⟨h1, { o with flat := f }, b, rfl, h3⟩
  | finish hw h5 =>
    obtain ⟨h1, o, b, rfl, ho⟩ := writerOf_wkt hw
    rw [finish_wkt] at h5
    obtain ⟨a, h9, rfl⟩ := wrap_ok h5
    unfold onWkt at h9
    dsimp only at h9
    cases hf : wktFinish b with
    | ok a' b' =>
      rw [hf] at h9
      injection h9 with h9 h10
      exact ⟨h1, o, b', h10.symm, ho.keep (keepsO_finish b b' (by rw [hf]; rfl)), wktFinish_fresh hf⟩
    | err rc n2 => rw [hf] at h9; cases h9
    | ub => rw [hf] at h9; cases h9

theorem state_of_feed {print : Nat → Dbl → List Byte} {type p : Int} {flat : Bool} : ∀ {t : List Event} {h : Handler AWriter} {w w' : AWriter},
    WriterOf print type p flat h w → feed h t w = .ok () w' → WriterOf print type p flat h w'
  | [], _, w, w', hw, hf => by cases hf; exact hw
  | e :: t, h, w, w', hw, hf => by
    cases he : h e w with
    | ok u w1 =>
      rw [feed_cons_ok he] at hf
      exact state_of_feed (.event hw (by rw [he]; rfl)) hf
    | err rc w1 => simp [feed, he] at hf
    | ub => simp [feed, he] at hf

theorem writerStart_of {type : Int} (hw : WriterStart print type p flat h w) : WriterOf print type p flat h w := by
  induction hw with
  | visitor ho hv => exact .visitor ho hv
  | setPrecision _ h ih => exact .setPrecision ih h
  | setFlat _ h ih => exact .setFlat ih h
  | finish hw hf => exact .finish hw (by rw [hf]; rfl)

/-- A WKT array writer, new or after any history of calls that ended with a successful Finish: the callbacks of a list of features
and nulls, followed by Finish, yield the array of their texts, with the precision and style of multipoints that were set when
the visitor was initialised: later settings have no effect. -/
theorem C64_wkt (hp : ∀ n x, (print n x).length ≤ 40) (hw : WriterStart print 100003 p flat h w) (fs : List (Option Geom)) (t : List Event)
    (ht : FeaturesTrace fs t) (hfs : ∀ x, some x ∈ fs → x.WF ∧ x.Typed ∧ x.height ≤ 31)
    (hn : (elemBytes (texts (wktText (print (effective p)) flat) fs)).length ≤ 2147483647) (junk : Nat → Byte) :
    ∃ w1 out w2, feed h t w = .ok () w1 ∧ arrayWriterFinish junk w1 = .ok (.bin out) w2 ∧
      Represents out (texts (wktText (print (effective p)) flat) fs) ∧ WriterStart print 100003 p flat h w2 := by
  obtain ⟨rfl, o, b, h1, h2, h3⟩ := writerStart_wkt hw
  obtain ⟨b1, hr, h4⟩ := wkt_features hp (by decide) fs t hfs ht (has_fresh.mpr h3) h2 (by simpa using hn)
  rw [List.nil_append] at h4
  obtain ⟨b2, hfin, _⟩ := wktFinish_run h4 (by have : b1.values = _ := h4.values; rw [this]; exact hn)
  have hfeed := feed_wkt hr none o none 100003
  rw [← h1] at hfeed
  have hfinish : arrayWriterFinish junk ⟨none, some { o with priv := b1 }, none, 100003⟩ =
      .ok (.bin (canonArray (texts (wktText (print (effective p)) flat) fs))) ⟨none, some { o with priv := b2 }, none, 100003⟩ := by
    rw [finish_wkt]
    have : onWkt wktFinish ⟨none, some { o with priv := b1 }, none, 100003⟩ =
        .ok (canonArray (texts (wktText (print (effective p)) flat) fs)) ⟨none, some { o with priv := b2 }, none, 100003⟩ := by
      unfold onWkt
      dsimp only
      rw [hfin]
    rw [M.bind_ok this]
    rfl
  exact ⟨_, _, _, hfeed, hfinish, canon_represents _, .finish (state_of_feed (writerStart_of hw) hfeed) hfinish⟩

/-! ## WKB -/

theorem set_other {x : AWriter} (hx : x.type ≠ 100003 ∧ x.type ≠ 100004) (q : Int) (b : Bool) :
    arrayWriterSetPrecision q x = .err EINVAL x ∧ arrayWriterSetFlatMultipoint b x = .err EINVAL x := by
  unfold arrayWriterSetPrecision arrayWriterSetFlatMultipoint
  exact ⟨if_pos hx, if_pos hx⟩

theorem set_wkb (x : Option WkbW) (q : Int) (b : Bool) : arrayWriterSetPrecision q ⟨none, none, x, 100001⟩ = .err EINVAL ⟨none, none, x, 100001⟩ ∧
    arrayWriterSetFlatMultipoint b ⟨none, none, x, 100001⟩ = .err EINVAL ⟨none, none, x, 100001⟩ := ⟨rfl, rfl⟩

theorem opened_wkb (ho : WriterOpened 100001 p flat w) : ∃ raw, w = ⟨none, none, some (wkbInit raw), 100001⟩ := by
  induction ho with
  | @init _ _ rawB _ h => cases h; exact ⟨rawB, rfl⟩
  | @setPrecision _ f _ q _ _ h ih =>
    obtain ⟨raw, rfl⟩ := ih
    rw [(set_wkb _ q f).1] at h
    cases h
    exact ⟨raw, rfl⟩
  | @setFlat q _ _ f _ _ h ih =>
    obtain ⟨raw, rfl⟩ := ih
    rw [(set_wkb _ q f).2] at h
    cases h
    exact ⟨raw, rfl⟩

theorem writerOf_wkb (hw : WriterOf print 100001 p flat h w) : WkbK h w := by
  induction hw with
  | visitor ho hv =>
    obtain ⟨raw, rfl⟩ := opened_wkb ho
    cases hv
    exact ⟨rfl, _, rfl⟩
  | @setPrecision _ _ q _ _ h ih =>
    obtain ⟨h1, b, rfl⟩ := ih
    rw [(set_wkb _ q true).1] at h
    cases h
    exact ⟨h1, b, rfl⟩
  | @setFlat _ _ f _ _ h ih =>
    obtain ⟨h1, b, rfl⟩ := ih
    rw [(set_wkb _ 0 f).2] at h
    cases h
    exact ⟨h1, b, rfl⟩
  | event _ hr ih => exact wkbK_event ih hr
  | finish _ hr ih =>
    obtain ⟨rfl, b, rfl⟩ := ih
    rw [finish_wkb] at hr
    obtain ⟨b', h1, rfl⟩ := onWkb_state (wrap_state hr)
    exact ⟨rfl, b', rfl⟩

theorem writerStart_wkb (hw : WriterStart print 100001 p flat h w) :
    h = (fun e => onWkb (wkbHandler e)) ∧ ∃ b, w = ⟨none, none, some b, 100001⟩ ∧ b.Fresh := by
  induction hw with
  | visitor ho hv =>
    obtain ⟨raw, rfl⟩ := opened_wkb ho
    cases hv
    exact ⟨rfl, _, rfl, ⟨rfl, rfl, rfl, rfl, rfl⟩⟩
  | @setPrecision _ _ q _ _ h ih =>
    obtain ⟨h1, b, rfl, h3⟩ := ih
    rw [(set_wkb _ q true).1] at h
    cases h
    exact ⟨h1, b, rfl, h3⟩
  | @setFlat _ _ f _ _ h ih =>
    obtain ⟨h1, b, rfl, h3⟩ := ih
    rw [(set_wkb _ 0 f).2] at h
    cases h
    exact ⟨h1, b, rfl, h3⟩
  | finish hw h5 =>
    obtain ⟨h1, b, rfl⟩ := writerOf_wkb hw
    rw [finish_wkb] at h5
    obtain ⟨a, h9, rfl⟩ := wrap_ok h5
    unfold onWkb at h9
    dsimp only at h9
    cases hf : wkbFinish b with
    | ok a' b' =>
      rw [hf] at h9
      injection h9 with h9 h10
      exact ⟨h1, b', h10.symm, wkbFinish_fresh hf⟩
    | err rc n2 => rw [hf] at h9; cases h9
    | ub => rw [hf] at h9; cases h9

/-- A WKB array writer, new or after any history that ended with a successful Finish: the array of the ISO encodings. -/
theorem C64_wkb (hw : WriterStart print 100001 p flat h w) (fs : List (Option Geom)) (t : List Event) (ht : FeaturesTrace fs t)
    (hfs : ∀ x, some x ∈ fs → x.WF ∧ x.SinglePoints ∧ x.height ≤ 29) (hn : (elemBytes (encodings fs)).length ≤ 2147483647) (junk : Nat → Byte) :
    ∃ w1 out w2, feed h t w = .ok () w1 ∧ arrayWriterFinish junk w1 = .ok (.bin out) w2 ∧ Represents out (encodings fs) ∧
      WriterStart print 100001 p flat h w2 := by
  obtain ⟨rfl, b, h1, h2⟩ := writerStart_wkb hw
  obtain ⟨b1, hr, h3⟩ := wkb_features fs t hfs ht (has_fresh.mpr h2) (by simpa using hn)
  rw [List.nil_append] at h3
  obtain ⟨b2, hfin, _⟩ := finish_run h3 (by rw [h3.values]; exact hn)
  have hfeed := feed_wkb hr none none 100001
  rw [← h1] at hfeed
  have hfinish : arrayWriterFinish junk ⟨none, none, some b1, 100001⟩ = .ok (.bin (canonArray (encodings fs))) ⟨none, none, some b2, 100001⟩ := by
    rw [finish_wkb]
    have : onWkb wkbFinish ⟨none, none, some b1, 100001⟩ = .ok (canonArray (encodings fs)) ⟨none, none, some b2, 100001⟩ := by
      unfold onWkb
      dsimp only
      rw [hfin]
    rw [M.bind_ok this]
    rfl
  exact ⟨_, _, _, hfeed, hfinish, canon_represents _, .finish (state_of_feed (writerStart_of hw) hfeed) hfinish⟩

/-! ## Native types -/

section
variable {g : Int} (hg : 1 ≤ g ∧ g ≤ 6) {d : Dims} {ck : CoordKind}
include hg

theorem set_native (x : AWriter) (hx : x.type = nativeId g d ck) (q : Int) (b : Bool) :
    arrayWriterSetPrecision q x = .err EINVAL x ∧ arrayWriterSetFlatMultipoint b x = .err EINVAL x :=
  set_other ⟨by rw [hx]; exact nativeId_ne hg d ck _ (by decide), by rw [hx]; exact nativeId_ne hg d ck _ (by decide)⟩ q b

theorem opened_native (ho : WriterOpened (nativeId g d ck) p flat w) :
    ∃ junk n, w = ⟨some n, none, none, nativeId g d ck⟩ ∧ nwInit junk (nativeId g d ck) = .ok n := by
  have ne := nativeId_ne hg d ck
  induction ho with
  | @init junk _ _ _ h =>
    unfold arrayWriterInit at h
    rw [if_neg (by rintro (e | e | e | e) <;> exact ne _ (by decide) e), if_neg (ne _ (by decide)), if_neg (ne _ (by decide))] at h
    cases hn : nwInit junk (nativeId g d ck) with
    | error rc => rw [hn] at h; cases h
    | ok n => rw [hn] at h; cases h; exact ⟨junk, n, rfl, hn⟩
  | @setPrecision _ f _ q _ _ h ih =>
    obtain ⟨junk, n, rfl, h2⟩ := ih
    rw [(set_native hg _ rfl q f).1] at h
    cases h
    exact ⟨junk, n, rfl, h2⟩
  | @setFlat q _ _ f _ _ h ih =>
    obtain ⟨junk, n, rfl, h2⟩ := ih
    rw [(set_native hg _ rfl q f).2] at h
    cases h
    exact ⟨junk, n, rfl, h2⟩

theorem visitor_native {junk : Nat → Byte} {n : NWriter} {w' : AWriter}
    (hv : arrayWriterInitVisitor junk print ⟨some n, none, none, nativeId g d ck⟩ = .ok h w') :
    w' = ⟨some n, none, none, nativeId g d ck⟩ ∧ ∃ hN, nwInitVisitor junk n = .ok hN ∧ h = fun e => onNative (hN e) := by
  have ne := nativeId_ne hg d ck
  unfold arrayWriterInitVisitor at hv
  dsimp only at hv
  rw [if_neg (ne _ (by decide)), if_neg (ne _ (by decide))] at hv
  cases hn : nwInitVisitor junk n with
  | error rc => rw [hn] at hv; cases hv
  | ok hN => rw [hn] at hv; cases hv; exact ⟨rfl, hN, rfl, rfl⟩

theorem writerOf_native (hw : WriterOf print (nativeId g d ck) p flat h w) : NativeK g d ck h w := by
  induction hw with
  | @visitor junk _ _ _ ho hv =>
    obtain ⟨j, n, rfl, h2⟩ := opened_native hg ho
    obtain ⟨rfl, hN, h3, rfl⟩ := visitor_native hg hv
    exact ⟨junk, n, hN, rfl, .init h2, h3, rfl⟩
  | @setPrecision _ _ q _ _ h ih =>
    obtain ⟨junk, n, hN, rfl, h2⟩ := ih
    rw [(set_native hg _ rfl q true).1] at h
    cases h
    exact ⟨junk, n, hN, rfl, h2⟩
  | @setFlat _ _ f _ _ h ih =>
    obtain ⟨junk, n, hN, rfl, h2⟩ := ih
    rw [(set_native hg _ rfl 0 f).2] at h
    cases h
    exact ⟨junk, n, hN, rfl, h2⟩
  | event _ hr ih => exact nativeK_event hg ih hr
  | finish _ hr ih =>
    obtain ⟨junk, n, hN, rfl, h1, h2, rfl⟩ := ih
    rw [finish_native hg] at hr
    obtain ⟨n', h3, rfl⟩ := onNative_state (wrap_state hr)
    have h4 := NWriterOf.finish h1 h3
    exact ⟨junk, n', hN, rfl, h4, visitor_same hg h1 h4 h2, rfl⟩

theorem writerStart_native (hw : WriterStart print (nativeId g d ck) p flat h w) :
    ∃ junk n hN, w = ⟨some n, none, none, nativeId g d ck⟩ ∧ NWriterStart (nativeId g d ck) n ∧ nwInitVisitor junk n = .ok hN ∧
      h = fun e => onNative (hN e) := by
  induction hw with
  | @visitor junk _ _ _ ho hv =>
    obtain ⟨j, n, rfl, h2⟩ := opened_native hg ho
    obtain ⟨rfl, hN, h3, rfl⟩ := visitor_native hg hv
    exact ⟨junk, n, hN, rfl, .init h2, h3, rfl⟩
  | @setPrecision _ _ q _ _ h ih =>
    obtain ⟨junk, n, hN, rfl, h2⟩ := ih
    rw [(set_native hg _ rfl q true).1] at h
    cases h
    exact ⟨junk, n, hN, rfl, h2⟩
  | @setFlat _ _ f _ _ h ih =>
    obtain ⟨junk, n, hN, rfl, h2⟩ := ih
    rw [(set_native hg _ rfl 0 f).2] at h
    cases h
    exact ⟨junk, n, hN, rfl, h2⟩
  | @finish fj _ _ _ _ hw h5 =>
    obtain ⟨junk', n1, hN', rfl, h6, h7, h8⟩ := writerOf_native hg hw
    rw [finish_native hg] at h5
    obtain ⟨a, h9, rfl⟩ := wrap_ok h5
    unfold onNative at h9
    dsimp only at h9
    cases hf : nwFinish fj n1 with
    | ok a' n2 =>
      rw [hf] at h9
      injection h9 with h9 h10
      exact ⟨junk', n2, hN', h10.symm, .finish h6 hf, visitor_same hg h6 (.finish h6 (by rw [hf]; rfl)) h7, h8⟩
    | err rc n2 => rw [hf] at h9; cases h9
    | ub => rw [hf] at h9; cases h9

/-- An array writer of a native type, new or after any history that ended with a successful Finish: an array with a slot for each
feature and null, the nulls counted, slot `i` holding what is stored of feature `i`, which every reader for the type takes. -/
theorem C64_native (parse : List Byte → Option Dbl) (hw : WriterStart print (nativeId g d ck) p flat h w) (fs : List (Option Geom)) (t : List Event)
    (ht : FeaturesTrace fs t) (hfs : ∀ x, some x ∈ fs → HasType g x ∧ x.WF) (hn : g = 1 ∨ numCoords fs ≤ 2147483647) (junk : Nat → Byte) :
    ∃ w1 out w2, feed h t w = .ok () w1 ∧ arrayWriterFinish junk w1 = .ok (.native out) w2 ∧ out.nullCount = (numNulls fs : Int) ∧
      (ArrayKind.native g d ck hg).Features parse out (fs.map fun f => f.map (Geom.stored d)) ∧
      (∀ r0, ReaderOf (nativeId g d ck) r0 → ∃ r, arrayReaderSetArray out r0 = .ok () r) ∧ WriterStart print (nativeId g d ck) p flat h w2 := by
  obtain ⟨jv, n, hN, h1, h2, h3, rfl⟩ := writerStart_native hg hw
  have hh := typed_history hg h2 h3 hfs ht junk
  cases hr : feed hN t n with
  | ub => rw [hr] at hh; exact hh.elim
  | err rc w =>
    rw [hr] at hh
    obtain ⟨-, hm, h1⟩ := hh
    exact absurd hn (by omega)
  | ok u n1 =>
    rw [hr] at hh
    obtain ⟨out, n2, hfin, hfd, -, hfe⟩ := hh
    have hfeed := feed_native hr none none (nativeId g d ck)
    rw [← h1] at hfeed
    have hfinish : arrayWriterFinish junk ⟨some n1, none, none, nativeId g d ck⟩ = .ok (.native out) ⟨some n2, none, none, nativeId g d ck⟩ := by
      rw [finish_native hg]
      have : onNative (nwFinish junk) ⟨some n1, none, none, nativeId g d ck⟩ = .ok out ⟨some n2, none, none, nativeId g d ck⟩ := by
        unfold onNative
        dsimp only
        rw [hfin]
      rw [M.bind_ok this]
      rfl
    refine ⟨_, out, _, hfeed, hfinish, by rw [hfd.nulls, numNulls_eq], ⟨by rw [hfd.length]; simp, ?_⟩, fun r0 hr => finished_read hg hfd hr,
      .finish (state_of_feed (writerStart_of hw) hfeed) hfinish⟩
    intro i f hf'
    rw [List.getElem?_map] at hf'
    obtain ⟨f', h4, rfl⟩ := Option.map_eq_some_iff.mp hf'
    exact hfe i f' h4
end

/-- Only WKT writers take a precision and a style of multipoints; others refuse them and stay as they are. -/
theorem C64_options {type : Int} (ht : Writable type) (hw : WriterOf print type p flat h w) (q : Int) (b : Bool) :
    (type = 100003 → (∃ w', arrayWriterSetPrecision q w = .ok () w') ∧ ∃ w', arrayWriterSetFlatMultipoint b w = .ok () w') ∧
    (type ≠ 100003 → arrayWriterSetPrecision q w = .err EINVAL w ∧ arrayWriterSetFlatMultipoint b w = .err EINVAL w) := by
  refine ⟨?_, fun hne => ?_⟩
  · rintro rfl
    obtain ⟨-, o, b', rfl, -⟩ := writerOf_wkt hw
    exact ⟨⟨_, setP_wkt _ _⟩, _, setF_wkt _ _⟩
  · rcases ht with rfl | rfl | ⟨g, d, k, h1, h2, rfl⟩
    · obtain ⟨-, b', rfl⟩ := writerOf_wkb hw
      exact set_wkb _ q b
    · exact absurd rfl hne
    · obtain ⟨_, n, _, rfl, -⟩ := writerOf_native ⟨h1, h2⟩ hw
      exact set_native ⟨h1, h2⟩ _ rfl q b
end

/-! Examples: a writer told to use three digits and nested multipoints, and then, in vain, seven digits. -/

theorem exLines_wkt : ∀ x, some x ∈ exLines → x.WF ∧ x.Typed ∧ x.height ≤ 31 := by
  intro x hx
  obtain ⟨h1, h2⟩ := exLines_ok.1 x hx
  obtain ⟨-, h3, h4, -⟩ := hasType_facts (d := .xy) h1
  exact ⟨h2, h4, by omega⟩

example (junk : Nat → Byte) (rawT : WktW) (rawB : WkbW) : ∃ w0 w1 w2 h w3 w4 w5 out w6,
    arrayWriterInit junk rawT rawB 100003 = .ok w0 ∧ arrayWriterSetPrecision 3 w0 = .ok () w1 ∧ arrayWriterSetFlatMultipoint false w1 = .ok () w2 ∧
    arrayWriterInitVisitor junk exPrint w2 = .ok h w3 ∧ arrayWriterSetPrecision 7 w3 = .ok () w4 ∧ feed h exLinesTrace w4 = .ok () w5 ∧
    arrayWriterFinish junk w5 = .ok (.bin out) w6 ∧ Represents out (texts (wktText (exPrint 3) false) exLines) := by
  obtain ⟨w5, out, w6, h1, h2, h3, -⟩ := C64_wkt (p := 3) (flat := false) exPrint_short
    (.setPrecision (q := 7) (.visitor (junk := junk) (.setFlat (.setPrecision (.init (junk := junk) (rawT := rawT) (rawB := rawB) rfl) rfl) rfl) rfl) rfl)
    exLines exLinesTrace exLinesTrace_ok exLines_wkt (by decide +kernel) junk
  exact ⟨_, _, _, _, _, _, w5, out, w6, rfl, rfl, rfl, rfl, rfl, h1, h2, h3⟩

example (junk : Nat → Byte) (rawT : WktW) (rawB : WkbW) : ∃ w0 h w1 w2 out w3,
    arrayWriterInit junk rawT rawB 100001 = .ok w0 ∧ arrayWriterSetPrecision 3 w0 = .err EINVAL w0 ∧
    arrayWriterInitVisitor junk exPrint w0 = .ok h w1 ∧ feed h exLinesTrace w1 = .ok () w2 ∧
    arrayWriterFinish junk w2 = .ok (.bin out) w3 ∧ Represents out (encodings exLines) := by
  obtain ⟨w2, out, w3, h1, h2, h3, -⟩ := C64_wkb (print := exPrint)
    (.visitor (junk := junk) (.init (junk := junk) (rawT := rawT) (rawB := rawB) rfl) rfl)
    exLines exLinesTrace exLinesTrace_ok (fun x hx => by
      obtain ⟨h1, h2⟩ := exLines_ok.1 x hx
      obtain ⟨h3, h4, -⟩ := hasType_facts (d := .xy) h1
      exact ⟨h2, h3, by omega⟩) (by decide +kernel) junk
  exact ⟨_, _, _, w2, out, w3, rfl, rfl, rfl, h1, h2, h3⟩

theorem native_open {g : Int} (hg : 1 ≤ g ∧ g ≤ 6) (d : Dims) (k : CoordKind) (junk : Nat → Byte) (print : Nat → Dbl → List Byte)
    (rawT : WktW) (rawB : WkbW) : ∃ w0 h w1, arrayWriterInit junk rawT rawB (nativeId g d k) = .ok w0 ∧
      arrayWriterInitVisitor junk print w0 = .ok h w1 := by
  obtain ⟨n, h, hn, hv⟩ := native_start hg d k junk
  have ne := nativeId_ne hg d k
  refine ⟨⟨some n, none, none, nativeId g d k⟩, fun e => onNative (h e), ⟨some n, none, none, nativeId g d k⟩, ?_, ?_⟩
  · unfold arrayWriterInit
    rw [if_neg (by rintro (e | e | e | e) <;> exact ne _ (by decide) e), if_neg (ne _ (by decide)), if_neg (ne _ (by decide)), hn]
  · unfold arrayWriterInitVisitor
    dsimp only
    rw [if_neg (ne _ (by decide)), if_neg (ne _ (by decide)), hv]

example (junk : Nat → Byte) (rawT : WktW) (rawB : WkbW) : ∃ w0 h w1 w2 out w3,
    arrayWriterInit junk rawT rawB (nativeId 5 .xy .interleaved) = .ok w0 ∧
    arrayWriterInitVisitor junk exPrint w0 = .ok h w1 ∧ feed h exLinesTrace w1 = .ok () w2 ∧
    arrayWriterFinish junk w2 = .ok (.native out) w3 ∧ out.nullCount = 1 ∧ FeatureAt 5 .xy .interleaved out 0 (some (exLine1.stored .xy)) := by
  obtain ⟨w0, h, w1, hw, hv⟩ := native_open (g := 5) (by decide) .xy .interleaved junk exPrint rawT rawB
  obtain ⟨w2, out, w3, h1, h2, h3, h4, -⟩ := C64_native (by decide) exParse (print := exPrint) (.visitor (.init hw) hv)
    exLines exLinesTrace exLinesTrace_ok exLines_ok.1 (.inr (by rw [exLines_ok.2.1]; decide)) junk
  exact ⟨w0, h, w1, w2, out, w3, hw, hv, h1, h2, by rw [h3, exLines_ok.2.2]; rfl, h4.2 0 _ rfl⟩

/-! ## C65: the C++ class -/

/-- A setting made on a C++ writer. -/
inductive CppSetting where
  | precision (p : Int)
  | flat (b : Bool)

def cppSet : List CppSetting → M CppWriter Unit
  | [] => pure ()
  | .precision p :: cs => do
    cppSetPrecision p
    cppSet cs
  | .flat b :: cs => do
    cppSetFlatMultipoint b
    cppSet cs

/-- What the settings ask for: the last precision and the last style, or the defaults. -/
def asked : List CppSetting → Int × Bool → Int × Bool
  | [], o => o
  | .precision p :: cs, (_, b) => asked cs (p, b)
  | .flat b :: cs, (p, _) => asked cs (p, b)

/-- The precision in effect after settings: every setting, also one of the style, changes it. -/
def cppPrecision : List CppSetting → Int → Int
  | [], p => p
  | .precision p :: cs, _ => cppPrecision cs p
  | .flat b :: cs, _ => cppPrecision cs (if b then 1 else 0)

theorem cppSet_run : ∀ (cs : List CppSetting) (p : Int) (w : AWriter), WriterOpened 100003 p true w →
    ∃ w', cppSet cs ⟨w, none⟩ = .ok () ⟨w', none⟩ ∧ WriterOpened 100003 (cppPrecision cs p) true w'
  | [], p, w, h => ⟨w, rfl, h⟩
  | .precision q :: cs, p, w, h => by
    obtain ⟨raw, rfl⟩ := opened_wkt h
    obtain ⟨w', h1, h2⟩ := cppSet_run cs q _ (.setPrecision h (by rw [setP_wkt]; rfl))
    exact ⟨w', h1, h2⟩
  | .flat b :: cs, p, w, h => by
    obtain ⟨raw, rfl⟩ := opened_wkt h
    obtain ⟨w', h1, h2⟩ := cppSet_run cs (if b then 1 else 0) _ (.setPrecision h (by rw [setP_wkt]; rfl))
    exact ⟨w', h1, h2⟩

/-- Any settings on a new C++ writer of WKT, then the features through its visitor, then Finish: multipoints are always flat, and the
precision is that of the last setting of whatever kind, where a style counts as precision 0 or 1. -/
theorem C65_outcome {print : Nat → Dbl → List Byte} (hp : ∀ n x, (print n x).length ≤ 40) (junk : Nat → Byte) (rawT : WktW) (rawB : WkbW)
    (settings : List CppSetting) (fs : List (Option Geom)) (t : List Event) (ht : FeaturesTrace fs t)
    (hfs : ∀ x, some x ∈ fs → x.WF ∧ x.Typed ∧ x.height ≤ 31)
    (hn : (elemBytes (texts (wktText (print (effective (cppPrecision settings 16))) true) fs)).length ≤ 2147483647) :
    ∃ c0 c1 h c2 w out c3, cppWriterNew junk rawT rawB 100003 = .ok c0 ∧ cppSet settings c0 = .ok () c1 ∧ cppVisitor junk print c1 = .ok h c2 ∧
      feed h t c2.writer = .ok () w ∧ cppWriterFinish junk { c2 with writer := w } = .ok (.bin out) c3 ∧
      Represents out (texts (wktText (print (effective (cppPrecision settings 16))) true) fs) := by
  obtain ⟨w1, h1, h2⟩ := cppSet_run settings 16 _ (.init (junk := junk) (rawT := rawT) (rawB := rawB) rfl)
  have hv : ∃ x : Handler AWriter × AWriter, arrayWriterInitVisitor junk print w1 = .ok x.1 x.2 := by
    obtain ⟨raw, rfl⟩ := opened_wkt h2
    exact ⟨⟨_, _⟩, rfl⟩
  obtain ⟨⟨h, w2⟩, hv⟩ := hv
  obtain ⟨w3, out, w4, q1, q2, q3, -⟩ := C64_wkt hp (.visitor h2 hv) fs t ht hfs hn junk
  refine ⟨_, _, h, ⟨w2, some h⟩, w3, out, ⟨w4, some h⟩, rfl, h1, ?_, q1, ?_, q3⟩
  · unfold cppVisitor
    dsimp only
    rw [hv]
  · unfold cppWriterFinish onWriter
    dsimp only
    rw [q2]

/-- Partial: if only precisions are set, the output is as asked for. Missing: settings of the style, see `C65_outcome`. -/
theorem C65_precision_partial {print : Nat → Dbl → List Byte} (hp : ∀ n x, (print n x).length ≤ 40) (junk : Nat → Byte) (rawT : WktW) (rawB : WkbW)
    (settings : List CppSetting) (hset : ∀ c ∈ settings, ∃ p, c = .precision p) (fs : List (Option Geom)) (t : List Event) (ht : FeaturesTrace fs t)
    (hfs : ∀ x, some x ∈ fs → x.WF ∧ x.Typed ∧ x.height ≤ 31)
    (hn : (elemBytes (texts (wktText (print (effective (asked settings (16, true)).1)) (asked settings (16, true)).2) fs)).length ≤ 2147483647) :
    ∃ c0 c1 h c2 w out c3, cppWriterNew junk rawT rawB 100003 = .ok c0 ∧ cppSet settings c0 = .ok () c1 ∧ cppVisitor junk print c1 = .ok h c2 ∧
      feed h t c2.writer = .ok () w ∧ cppWriterFinish junk { c2 with writer := w } = .ok (.bin out) c3 ∧
      Represents out (texts (wktText (print (effective (asked settings (16, true)).1)) (asked settings (16, true)).2) fs) := by
  have key : ∀ (cs : List CppSetting) (p : Int), (∀ c ∈ cs, ∃ q, c = .precision q) → asked cs (p, true) = (cppPrecision cs p, true) := by
    intro cs
    induction cs with
    | nil => intro p _; rfl
    | cons c cs ih =>
      intro p hc
      obtain ⟨q, rfl⟩ := hc c (by simp)
      exact ih q fun c h => hc c (by simp [h])
  rw [key settings 16 hset] at hn ⊢
  exact C65_outcome hp junk rawT rawB settings fs t ht hfs hn

def exDots : Geom := .multi .multipoint .xy [.point .xy [[dbl1, dbl2]]]

/-- Asked for nested multipoints with the default precision, the writer gives a flat one, with precision 0. -/
theorem C65_witness (junk : Nat → Byte) (rawT : WktW) (rawB : WkbW) :
    (asked [.flat false] (16, true) = (16, false) ∧ wktText (exPrint 16) false exDots = str "MULTIPOINT ((1 2))") ∧
    ∃ c0 c1 h c2 w out c3, cppWriterNew junk rawT rawB 100003 = .ok c0 ∧ cppSetFlatMultipoint false c0 = .ok () c1 ∧
      cppVisitor junk exPrint c1 = .ok h c2 ∧
      feed h [.featStart, .geomStart 4 1, .geomStart 1 1, .coords 2 [[dbl1, dbl2]], .geomEnd, .geomEnd, .featEnd] c2.writer = .ok () w ∧
      cppWriterFinish junk { c2 with writer := w } = .ok (.bin out) c3 ∧ Represents out [some (str "MULTIPOINT (1 2)")] ∧
      ∃ o, c2.writer.wkt = some o ∧ o.precision = 0 := by
  refine ⟨⟨rfl, by decide +kernel⟩, ?_⟩
  have ht : FeaturesTrace [some exDots] [.featStart, .geomStart 4 1, .geomStart 1 1, .coords 2 [[dbl1, dbl2]], .geomEnd, .geomEnd, .featEnd] :=
    ⟨_, [], ⟨_, ⟨_, ⟨_, [], ⟨_, ⟨[[[dbl1, dbl2]]], rfl, rfl⟩, rfl⟩, rfl, rfl⟩, rfl⟩, rfl⟩, rfl, rfl⟩
  have hfs : ∀ x, some x ∈ [some exDots] → x.WF ∧ x.Typed ∧ x.height ≤ 31 := by
    intro x hx
    simp only [List.mem_cons, Option.some.injEq, List.not_mem_nil, or_false] at hx
    subst hx
    simp [exDots, Geom.WF, Geom.WFL, Dims.n, Geom.Typed, Geom.TypedL, Geom.height, Geom.heightL]
  obtain ⟨c0, c1, h, c2, w, out, c3, h1, h2, h3, h4, h5, h6⟩ := C65_outcome exPrint_short junk rawT rawB [.flat false] [some exDots]
    _ ht hfs (by decide +kernel)
  cases h1
  have e : texts (wktText (exPrint (effective (cppPrecision [.flat false] 16))) true) [some exDots] = [some (str "MULTIPOINT (1 2)")] := by decide +kernel
  rw [e] at h6
  cases h2
  cases h3
  exact ⟨_, _, _, _, w, out, c3, rfl, rfl, rfl, h4, h5, h6, _, rfl, rfl⟩

example (junk : Nat → Byte) (rawT : WktW) (rawB : WkbW) : ∃ c0 c1 h c2 w out c3, cppWriterNew junk rawT rawB 100003 = .ok c0 ∧
    cppSet [.precision 9, .precision 3] c0 = .ok () c1 ∧ cppVisitor junk exPrint c1 = .ok h c2 ∧ feed h exLinesTrace c2.writer = .ok () w ∧
    cppWriterFinish junk { c2 with writer := w } = .ok (.bin out) c3 ∧ Represents out (texts (wktText (exPrint 3) true) exLines) :=
  C65_precision_partial exPrint_short junk rawT rawB [.precision 9, .precision 3]
    (by simp) exLines exLinesTrace exLinesTrace_ok exLines_wkt (by decide +kernel)

end Verif
