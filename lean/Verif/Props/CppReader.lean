import Verif.Proof.CppReader
import Verif.Props.ArrayReader
import Verif.Props.Schema
/-!
# C75: array readers of C++
-/
namespace Verif
open Spec

/-- The reader `k` exists and is of this type. -/
def Spec.ReaderHas (s : Rdr.Sys) (k : Nat) (type : TypeId) : Prop := ∃ o p, s.get k = some (o, p) ∧ p.reader.type = type

theorem alive_get {h : List Rdr.Call} {s : Rdr.Sys} (hi : Rdr.Inv s h) {k : Nat} (ha : Alive s k) : ∃ o p, s.get k = some (o, p) := by
  obtain ⟨o, ho⟩ := ha
  obtain ⟨p, hp, -⟩ := hi.heap k o ho
  exact ⟨o, p, Rdr.get_eq ho hp⟩

theorem history_inv {h : List Rdr.Call} {xs : List Rdr.Out} {s : Rdr.Sys} (hr : Rdr.runs h Rdr.Sys.start = some (xs, s)) (hn : NoCopies h) : Rdr.Inv s h := by
  simpa using Rdr.runs_inv h Rdr.Sys.start [] Rdr.inv_start hn xs s hr

theorem movedInto_last {h : List Rdr.Call} {i k t : Nat} {a : AArray} (hc : h[i]? = some (.set k t a))
    (hl : ∀ t' a', .set k t' a' ∉ h.drop (i + 1)) : (movedInto k h).getLast? = some t := by
  obtain ⟨hi, he⟩ := List.getElem?_eq_some_iff.mp hc
  have hsplit : h = h.take i ++ ([.set k t a] ++ h.drop (i + 1)) := by
    rw [List.singleton_append, ← he, ← List.drop_eq_getElem_cons hi, List.take_append_drop]
  have hnil : movedInto k (h.drop (i + 1)) = [] := by
    refine List.filterMap_eq_nil_iff.mpr fun c hm => ?_
    cases c with
    | set k' t' a' =>
      by_cases e : k' = k
      · subst e
        exact absurd hm (hl t' a')
      · simp [e]
    | _ => rfl
  rw [hsplit, Rdr.movedInto_append, Rdr.movedInto_append, hnil, List.append_nil]
  simp [movedInto]

theorem movedInto_mem {h : List Rdr.Call} {i k t : Nat} {a : AArray} (hc : h[i]? = some (.set k t a)) : t ∈ movedInto k h :=
  List.mem_filterMap.mpr ⟨_, List.mem_of_getElem? hc, by simp⟩

/-- C75: in every history of readers that are not copied, the array moved into a reader last is released exactly once, when the reader is destroyed, and
not before. Partial: the arrays moved into it before that one are never released (`C75_leak`), and copies are excluded (`C75_copies`). -/
theorem C75_exactly_once_partial (h : List Rdr.Call) (xs : List Rdr.Out) (s : Rdr.Sys) (hr : Rdr.runs h Rdr.Sys.start = some (xs, s)) (hn : NoCopies h)
    (i k t : Nat) (a : AArray) (hc : h[i]? = some (.set k t a)) (hl : ∀ t' a', .set k t' a' ∉ h.drop (i + 1)) :
    (Destroyed s k → s.log.count (.released t) = 1) ∧ (Alive s k → s.log.count (.released t) = 0) := by
  have hinv := history_inv hr hn
  have hlast := movedInto_last hc hl
  constructor
  · intro hd
    rcases hinv.rel t with ⟨h1, -⟩ | ⟨-, h2⟩
    · exact h1
    · exact absurd (Or.inl ⟨k, hd, hlast⟩) h2
  · rintro ⟨o, ho⟩
    rcases hinv.rel t with ⟨-, h2⟩ | ⟨h1, -⟩
    · exfalso
      rcases h2 with ⟨j, h3, h4⟩ | h3
      · have := Rdr.moved_one hinv.nodup (List.mem_of_getLast? h4) (movedInto_mem hc)
        subst this
        unfold Destroyed at h3
        rw [ho] at h3
        cases h3
      · exact Rdr.moved_not_client hinv.nodup (movedInto_mem hc) h3
    · exact h1

/-- C75: no array is released twice, and one that was neither moved nor released by the client is not released at all. -/
theorem C75_at_most_once (h : List Rdr.Call) (xs : List Rdr.Out) (s : Rdr.Sys) (hr : Rdr.runs h Rdr.Sys.start = some (xs, s)) (hn : NoCopies h) (t : Nat) :
    s.log.count (.released t) ≤ 1 ∧ ((∀ k, t ∉ movedInto k h) → t ∉ clientReleases h → s.log.count (.released t) = 0) := by
  have hinv := history_inv hr hn
  rcases hinv.rel t with ⟨h1, h2⟩ | ⟨h1, -⟩
  · refine ⟨by omega, fun h3 h4 => ?_⟩
    rcases h2 with ⟨k, -, h5⟩ | h5
    · exact absurd (List.mem_of_getLast? h5) (h3 k)
    · exact absurd h5 h4
  · exact ⟨by omega, fun _ _ => h1⟩

/-- C75 is false of arrays replaced by others: an array moved into a reader that is then given another is never released. -/
theorem C75_leak (h : List Rdr.Call) (xs : List Rdr.Out) (s : Rdr.Sys) (hr : Rdr.runs h Rdr.Sys.start = some (xs, s)) (hn : NoCopies h)
    (i j k t t' : Nat) (a a' : AArray) (hij : i < j) (hc : h[i]? = some (.set k t a)) (hc' : h[j]? = some (.set k t' a')) :
    s.log.count (.released t) = 0 := by
  have hinv := history_inv hr hn
  rcases hinv.rel t with ⟨-, h2⟩ | ⟨h1, -⟩
  · exfalso
    rcases h2 with ⟨m, -, h4⟩ | h3
    · have := Rdr.moved_one hinv.nodup (List.mem_of_getLast? h4) (movedInto_mem hc)
      subst this
      -- `t` is moved in call `i`, and once only, so it is not the last
      obtain ⟨hi, he⟩ := List.getElem?_eq_some_iff.mp hc
      have hsplit : h = h.take i ++ ([.set m t a] ++ h.drop (i + 1)) := by
        rw [List.singleton_append, ← he, ← List.drop_eq_getElem_cons hi, List.take_append_drop]
      have hmem : t' ∈ movedInto m (h.drop (i + 1)) := by
        refine List.mem_filterMap.mpr ⟨.set m t' a', List.mem_of_getElem? (i := j - (i + 1)) ?_, if_pos rfl⟩
        rw [List.getElem?_drop, show i + 1 + (j - (i + 1)) = j by omega]
        exact hc'
      have hlast : t ∈ movedInto m (h.drop (i + 1)) := by
        rw [hsplit, Rdr.movedInto_append, Rdr.movedInto_append, ← List.append_assoc, List.getLast?_append] at h4
        cases hgl : (movedInto m (h.drop (i + 1))).getLast? with
        | none => rw [List.getLast?_eq_none_iff] at hgl; rw [hgl] at hmem; cases hmem
        | some u =>
          rw [hgl, Option.some_or, Option.some.injEq] at h4
          subst h4
          exact List.mem_of_getLast? hgl
      have hnd := hinv.nodup
      rw [hsplit, Rdr.tokens_append, Rdr.tokens_append] at hnd
      have h5 := (List.nodup_append.mp (List.nodup_append.mp hnd).2.1).2.2
      exact h5 t (by simp [Rdr.tokens]) t (Rdr.movedInto_tokens hlast) rfl
    · exact Rdr.moved_not_client hinv.nodup (movedInto_mem hc) h3
  · exact h1

/-- C75: the blocks of the readers are handed out once and never freed twice; those of a constructor that threw and of readers that were destroyed have
been freed, so that nothing is left when no reader is. -/
theorem C75_heap (h : List Rdr.Call) (xs : List Rdr.Out) (s : Rdr.Sys) (hr : Rdr.runs h Rdr.Sys.start = some (xs, s)) (hn : NoCopies h) (b : Nat) :
    s.log.count (.malloc b) ≤ 1 ∧ s.log.count (.free b) ≤ s.log.count (.malloc b) ∧
    ((∀ k, ¬ Alive s k) → s.log.count (.free b) = s.log.count (.malloc b)) := by
  have hinv := history_inv hr hn
  rw [hinv.mal b]
  refine ⟨by split <;> omega, ?_, ?_⟩
  · rcases hinv.fre b with ⟨h1, h2, -⟩ | ⟨h1, -⟩
    · rw [if_pos h2]; omega
    · omega
  · intro hg
    rcases hinv.fre b with ⟨h1, h2, -⟩ | ⟨h1, h2⟩
    · rw [if_pos h2, h1]
    · rw [if_neg, h1]
      intro hlt
      exact h2 ⟨hlt, fun k o hl => absurd ⟨o, hl⟩ (hg k)⟩

/-- C75: every reader that exists can be destroyed, whatever happened before. -/
theorem C75_destroyable (h : List Rdr.Call) (xs : List Rdr.Out) (s : Rdr.Sys) (hr : Rdr.runs h Rdr.Sys.start = some (xs, s)) (hn : NoCopies h) (k : Nat)
    (ha : Alive s k) : ∃ s', (Rdr.Call.destroy k).run s = some (.done, s') ∧ Destroyed s' k := by
  obtain ⟨o, p, hg⟩ := alive_get (history_inv hr hn) ha
  show ∃ s', Rdr.destroy k s = _ ∧ _
  unfold Rdr.destroy
  rw [hg]
  exact ⟨_, rfl, (Rdr.dead_destroy (Rdr.get_spec hg).1).mpr (Or.inl rfl)⟩

/-- C75: a reader is of the type it was made for, as long as it exists. -/
theorem C75_type (h : List Rdr.Call) (xs : List Rdr.Out) (s : Rdr.Sys) (hr : Rdr.runs h Rdr.Sys.start = some (xs, s)) (hn : NoCopies h) :
    (∀ type s', (Rdr.Call.fromType type).run s = some (.done, s') → ReaderHas s' s.objs.length type) ∧
    (∀ (c : Rdr.Call) x s' k type, (∀ j, c ≠ .copy j) → c.run s = some (x, s') → ReaderHas s k type → ReaderHas s' k type ∨ Destroyed s' k) := by
  have hinv := history_inv hr hn
  constructor
  · intro type s' hc
    simp only [Rdr.Call.run, Option.some.injEq] at hc
    cases hi : arrayReaderInit type with
    | none =>
      rw [hi] at hc
      simp [Rdr.construct] at hc
    | some r =>
      rw [hi] at hc
      have hs : s' = (Rdr.construct (some r) s).2 := by rw [hc]
      subst hs
      refine ⟨⟨s.next, (List.range (Rdr.subBlocks r.type)).map (fun i => s.next + 1 + i), false, none⟩, ⟨r, []⟩, Rdr.get_eq ?_ ?_,
        Rdr.arrayReaderInit_type hi⟩
      · unfold Rdr.LiveAt Rdr.construct
        dsimp only
        rw [List.getElem?_concat_length]
      · exact if_pos rfl
  · rintro c x s' k type hcp hc ⟨o, p, hg, rfl⟩
    cases hgv : gives k c with
    | none =>
      rcases Rdr.run_keeps hinv hc hgv hg with hd | ⟨o', p', w, b, hs', -, e⟩
      · exact Or.inr hd
      · exact Or.inl ⟨o', p', hs', by rw [e]⟩
    | some ta =>
      left
      obtain ⟨t, a⟩ := ta
      obtain ⟨hl, hp⟩ := Rdr.get_spec hg
      obtain ⟨p', hp', hro⟩ := hinv.heap k o hl
      rw [hp, Option.some.injEq] at hp'
      subst hp'
      have hsno : ∀ (s1 : Rdr.Sys) (o1 : Rdr.Obj), Rdr.LiveAt s1 k o1 → o1.priv = o.priv → Rdr.setNonOwning o p t a s1 = some (x, s') → ReaderHas s' k p.reader.type := by
        intro s1 o1 hl he h3
        unfold Rdr.setNonOwning at h3
        split at h3
        · rename_i r e
          simp only [Option.some.injEq, Prod.mk.injEq] at h3
          obtain ⟨-, rfl⟩ := h3
          exact ⟨o1, _, Rdr.get_eq hl (if_pos he), (Rdr.readerOf_set hro (by rw [e]; rfl)).1⟩
        · rename_i r e
          simp only [Option.some.injEq, Prod.mk.injEq] at h3
          obtain ⟨-, rfl⟩ := h3
          exact ⟨o1, _, Rdr.get_eq hl (if_pos he), (Rdr.readerOf_set hro (by rw [e]; rfl)).1⟩
        · cases h3
      cases c with
      | set j u b =>
        simp only [gives] at hgv
        split at hgv
        · rename_i e
          subst e
          simp only [Option.some.injEq, Prod.mk.injEq] at hgv
          obtain ⟨rfl, rfl⟩ := hgv
          change Rdr.setArray j u b s = _ at hc
          unfold Rdr.setArray at hc
          rw [hg] at hc
          dsimp only at hc
          split at hc
          · cases hc
          · exact hsno _ { o with held := some u } (Rdr.set_live hl) rfl hc
        · cases hgv
      | borrow j u b =>
        simp only [gives] at hgv
        split at hgv
        · rename_i e
          subst e
          simp only [Option.some.injEq, Prod.mk.injEq] at hgv
          obtain ⟨rfl, rfl⟩ := hgv
          change Rdr.borrow j u b s = _ at hc
          unfold Rdr.borrow at hc
          rw [hg] at hc
          dsimp only at hc
          split at hc
          · cases hc
          · exact hsno _ o hl rfl hc
        · cases hgv
      | _ => simp [gives] at hgv

theorem describes_unique {ext : List Byte} {s : ASchema} {v v' : SView} (h : Describes ext s v) (h' : Describes ext s v') : v = v' := by
  obtain ⟨na, hna⟩ := naInit_of_describes h
  have e := svInternal_ok hna h v
  rw [svInternal_ok hna h' v, Res.ok.injEq] at e
  exact e.2.symm

/-- C75: a reader made from a schema is that made from the type the schema is one of: a schema that names an extension type and has its layout (C04). For
other schemas the constructor throws. -/
theorem C75_from_schema (schema : ASchema) (hf : HasFormats schema) (hz : SizesFit schema) (s : Rdr.Sys) :
    (∀ ext v, firstValue "ARROW:extension:name" schema = some ext → Describes ext schema v →
      (Rdr.Call.fromSchema schema).run s = (Rdr.Call.fromType v.type).run s) ∧
    ((¬ ∃ ext v, firstValue "ARROW:extension:name" schema = some ext ∧ Describes ext schema v) →
      ∃ s', (Rdr.Call.fromSchema schema).run s = some (.threw, s')) := by
  have key := C04_view_exact_partial schema hf hz { extName := none, extMetadata := none, type := 0, geometryType := 0, dimensions := 0, coordType := 0 }
  simp only [Rdr.Call.run, arrayReaderInitFromSchema]
  constructor
  · intro ext v he hd
    rcases key with ⟨ext', v', he', hd', hv⟩ | ⟨hno, -⟩
    · rw [he, Option.some.injEq] at he'
      subst he'
      rw [hv, describes_unique hd' hd]
    · exact absurd ⟨ext, v, he, hd⟩ hno
  · intro hno
    rcases key with ⟨ext', v', he', hd', -⟩ | ⟨-, v', hv⟩
    · exact absurd ⟨ext', v', he', hd'⟩ hno
    · rw [hv]
      exact ⟨_, rfl⟩

/-- C75: after any history of readers, the view of a reader of native arrays is that of the array it was given last, if that was accepted: its validity
bitmap and, at every level, its offset, length and offsets and, in the end, its coordinates. -/
theorem C75_view_native (h : List Rdr.Call) (xs : List Rdr.Out) (s : Rdr.Sys) (hr : Rdr.runs h Rdr.Sys.start = some (xs, s)) (hn : NoCopies h)
    (i k t : Nat) (c : Rdr.Call) (a : AArray) (hc : h[i]? = some c) (hg : gives k c = some (t, a)) (hx : xs[i]? = some .done)
    (hlast : ∀ c' ∈ h.drop (i + 1), gives k c' = none) (g : Int) (d : Dims) (kd : CoordKind) (hgt : 1 ≤ g ∧ g ≤ 6) (hk : ReaderHas s k (nativeId g d kd)) :
    ∃ v s', (Rdr.Call.view k).run s = some (.shows v, s') ∧ a.buffers[0]? = some v.validity ∧ Exposed kd v (listDepth g) 0 a ∧ v.nValues = d.n ∧
      (kd = .separate → v.stride = 1) ∧ (kd = .interleaved → v.stride = d.n) := by
  obtain ⟨o, p, hs, ht⟩ := hk
  obtain ⟨r0, r, w, b, hro, hset, e, -⟩ := Rdr.shows hr hn hc hg hx hlast hs
  rw [ht] at hro
  have hd1 : 1 ≤ d.code ∧ d.code ≤ 4 := by cases d <;> decide
  have hk1 : kd.code = 1 ∨ kd.code = 2 := by cases kd <;> decide
  have hnum : nativeId g d kd < 100000 := by unfold nativeId; omega
  have hA : isArrowType (nativeId g d kd) = false := by
    have : ∀ t : Int, t < 100000 → ¬ (t = 100002 ∨ t = 100005 ∨ t = 100004 ∨ t = 100006) := by omega
    exact decide_eq_false (this _ hnum)
  obtain ⟨h1, h2, -⟩ := reader_native hA (by omega) (by omega) hro hset
  obtain ⟨-, -, h3, h4, h5, h6⟩ := C55_native_accepted g d kd hgt r0.av h1 a r.av h2
  have hav : p.reader.av = r.av := by rw [e]
  have hview : ∃ s', Rdr.view k s = some (.shows r.av, s') := by
    unfold Rdr.view
    rw [hs]
    dsimp only
    split
    · exact ⟨_, by rw [hav]⟩
    · unfold Rdr.arrayReaderArrayView
      rw [ht, if_neg (by rw [hA]; decide)]
      exact ⟨_, by dsimp only; rw [hav]⟩
  obtain ⟨s', hv⟩ := hview
  refine ⟨r.av, s', hv, h3, h4, h5, ?_, ?_⟩
  · rintro rfl; exact h6
  · rintro rfl; exact h6

/-- C75, the same for WKB and WKT arrays with 32-bit offsets. -/
theorem C75_view_serialized (h : List Rdr.Call) (xs : List Rdr.Out) (s : Rdr.Sys) (hr : Rdr.runs h Rdr.Sys.start = some (xs, s)) (hn : NoCopies h)
    (i k t : Nat) (c : Rdr.Call) (a : AArray) (hc : h[i]? = some c) (hg : gives k c = some (t, a)) (hx : xs[i]? = some .done)
    (hlast : ∀ c' ∈ h.drop (i + 1), gives k c' = none) (type : TypeId) (hty : type = 100001 ∨ type = 100003) (hk : ReaderHas s k type) :
    ∃ v s', (Rdr.Call.view k).run s = some (.shows v, s') ∧ a.buffers[0]? = some v.validity ∧ a.buffers[1]? = some (v.offsets 0) ∧
      a.buffers[2]? = some v.data ∧ v.offset 0 = a.offset := by
  obtain ⟨o, p, hs, ht⟩ := hk
  obtain ⟨r0, r, w, b, hro, hset, e, -⟩ := Rdr.shows hr hn hc hg hx hlast hs
  rw [ht] at hro
  obtain ⟨-, h1, -⟩ := set_serialized (k := .offsets32) (type := type) hty hro hset
  obtain ⟨h2, h3, h4, h5⟩ := h1 rfl
  have hA : isArrowType type = false := by rcases hty with rfl | rfl <;> rfl
  have hav : p.reader.av = r.av := by rw [e]
  have hview : ∃ s', Rdr.view k s = some (.shows r.av, s') := by
    unfold Rdr.view
    rw [hs]
    dsimp only
    split
    · exact ⟨_, by rw [hav]⟩
    · unfold Rdr.arrayReaderArrayView
      rw [ht, if_neg (by rw [hA]; decide)]
      exact ⟨_, by dsimp only; rw [hav]⟩
  obtain ⟨s', hv⟩ := hview
  exact ⟨r.av, s', hv, h2, h3, h4, h5⟩

/-- C75: a reader of large arrays or of views has no `GeoArrowArrayView`: asking for it throws, always. -/
theorem C75_no_view (h : List Rdr.Call) (xs : List Rdr.Out) (s : Rdr.Sys) (hr : Rdr.runs h Rdr.Sys.start = some (xs, s)) (hn : NoCopies h)
    (k : Nat) (type : TypeId) (hty : type = 100002 ∨ type = 100004 ∨ type = 100005 ∨ type = 100006) (hk : ReaderHas s k type) :
    (Rdr.Call.view k).run s = some (.threw, s) := by
  obtain ⟨o, p, hs, ht⟩ := hk
  obtain ⟨hl, hp⟩ := Rdr.get_spec hs
  obtain ⟨p', hp', hro⟩ := (history_inv hr hn).heap k o hl
  rw [hp, Option.some.injEq] at hp'
  subst hp'
  have hA : isArrowType p.reader.type = true := by rw [ht]; rcases hty with rfl | rfl | rfl | rfl <;> rfl
  show Rdr.view k s = _
  unfold Rdr.view
  rw [hs]
  dsimp only
  rw [if_neg (fun hh => hh.2 (Rdr.arrow_av hro hA))]
  unfold Rdr.arrayReaderArrayView
  rw [if_pos hA]

/-- C75: after any history of readers, visiting a range of a native array delivers the features of the array the reader was given last, if that was
accepted, whatever was accepted or refused before. -/
theorem C75_visit_native (h : List Rdr.Call) (xs : List Rdr.Out) (s : Rdr.Sys) (hr : Rdr.runs h Rdr.Sys.start = some (xs, s)) (hn : NoCopies h)
    (i k t : Nat) (c : Rdr.Call) (a : AArray) (hc : h[i]? = some c) (hg : gives k c = some (t, a)) (hx : xs[i]? = some .done)
    (hlast : ∀ c' ∈ h.drop (i + 1), gives k c' = none) (g : Int) (d : Dims) (kd : CoordKind) (hgt : 1 ≤ g ∧ g ≤ 6) (o : Rdr.Obj) (p : Rdr.Priv)
    (hs : s.get k = some (o, p)) (ht : p.reader.type = nativeId g d kd) (offset : Nat) (fs : List (Option Geom))
    (hf : ∀ (t : Nat) (f : Option Geom), fs[t]? = some f → FeatureAt g d kd a (offset + t) f) (parse : List Byte → Option Dbl) :
    ∃ tr, FeaturesTrace fs tr ∧ Behaves (fun _ hd => arrayReaderVisit hd parse p.reader offset fs.length) tr (.done ()) := by
  obtain ⟨r0, r, w, b, hro, hset, e, -⟩ := Rdr.shows hr hn hc hg hx hlast hs
  rw [ht] at hro
  rw [e]
  exact C38_reader g d kd hgt r0 r hro a hset w b offset fs hf parse

/-- C75, the same for WKB arrays of the three layouts: each element is read by itself. -/
theorem C75_visit_wkb (h : List Rdr.Call) (xs : List Rdr.Out) (s : Rdr.Sys) (hr : Rdr.runs h Rdr.Sys.start = some (xs, s)) (hn : NoCopies h)
    (i k t : Nat) (c : Rdr.Call) (a : AArray) (hc : h[i]? = some c) (hg : gives k c = some (t, a)) (hx : xs[i]? = some .done)
    (hlast : ∀ c' ∈ h.drop (i + 1), gives k c' = none) (bl : BinLayout) (o : Rdr.Obj) (p : Rdr.Priv)
    (hs : s.get k = some (o, p)) (ht : p.reader.type = wkbId bl) (start : Nat) (es : List (Option (List Byte)))
    (he : ∀ (t : Nat) e, es[t]? = some e → ElementAt bl a (start + t) e) (parse : List Byte → Option Dbl) :
    ∃ tr out, ElementsRead WkbRead es tr out ∧ Behaves (fun _ hd => arrayReaderVisit hd parse p.reader start es.length) tr out := by
  obtain ⟨r0, r, w, b, hro, hset, e, -⟩ := Rdr.shows hr hn hc hg hx hlast hs
  rw [ht] at hro
  rw [e]
  exact C53_wkb bl r0 r hro a hset w b start es he parse

/-- C75, the same for WKT arrays. -/
theorem C75_visit_wkt {parse : List Byte → Option Dbl} (hpe : parse [] = none) (h : List Rdr.Call) (xs : List Rdr.Out) (s : Rdr.Sys)
    (hr : Rdr.runs h Rdr.Sys.start = some (xs, s)) (hn : NoCopies h)
    (i k t : Nat) (c : Rdr.Call) (a : AArray) (hc : h[i]? = some c) (hg : gives k c = some (t, a)) (hx : xs[i]? = some .done)
    (hlast : ∀ c' ∈ h.drop (i + 1), gives k c' = none) (bl : BinLayout) (o : Rdr.Obj) (p : Rdr.Priv)
    (hs : s.get k = some (o, p)) (ht : p.reader.type = wktId bl) (start : Nat) (es : List (Option (List Byte)))
    (he : ∀ (t : Nat) e, es[t]? = some e → ElementAt bl a (start + t) e) :
    ∃ tr out, ElementsRead (WktRead parse) es tr out ∧ Behaves (fun _ hd => arrayReaderVisit hd parse p.reader start es.length) tr out := by
  obtain ⟨r0, r, w, b, hro, hset, e, -⟩ := Rdr.shows hr hn hc hg hx hlast hs
  rw [ht] at hro
  rw [e]
  exact C53_wkt hpe bl r0 r hro a hset w b start es he

/-- C75: the memory of an array that was moved into a reader is there as long as the reader is, whatever the client does: a visit reads no array that
was released. -/
theorem C75_visit_allowed (h : List Rdr.Call) (xs : List Rdr.Out) (s : Rdr.Sys) (hr : Rdr.runs h Rdr.Sys.start = some (xs, s)) (hn : NoCopies h)
    (i k t : Nat) (a : AArray) (hc : h[i]? = some (.set k t a)) (hx : xs[i]? = some .done)
    (hlast : ∀ c' ∈ h.drop (i + 1), gives k c' = none) (ha : Alive s k) (wkt : WktR) (wkb : WkbR) :
    ∃ s', (Rdr.Call.visit k wkt wkb).run s = some (.done, s') := by
  obtain ⟨o, p, hs⟩ := alive_get (history_inv hr hn) ha
  obtain ⟨-, -, -, -, -, -, -, hsrc⟩ := Rdr.shows hr hn hc (t := t) (a := a) (if_pos rfl) hx hlast hs
  have h0 := (C75_exactly_once_partial h xs s hr hn i k t a hc (fun t' a' hm => by
    have := hlast _ hm
    simp [gives] at this)).2 ha
  show ∃ s', Rdr.visit k wkt wkb s = _
  unfold Rdr.visit
  rw [hs]
  dsimp only
  rw [if_pos]
  · exact ⟨_, rfl⟩
  · intro u hu
    rw [hsrc, List.mem_singleton] at hu
    subst hu
    exact List.count_eq_zero.mp h0

/-- C75 is false of copies: `ArrayReader` can be copied, and once the copy or the original is destroyed the other one can be neither used nor destroyed:
its memory is freed. -/
theorem C75_copies (s : Rdr.Sys) (k : Nat) (o : Rdr.Obj) (p : Rdr.Priv) (hs : s.get k = some (o, p)) (wkt : WktR) (wkb : WkbR) :
    (∃ xs s', Rdr.runs [.copy k, .destroy k] s = some (xs, s')) ∧
    Rdr.runs [.copy k, .destroy k, .destroy s.objs.length] s = none ∧ Rdr.runs [.copy k, .destroy s.objs.length, .destroy k] s = none ∧
    Rdr.runs [.copy k, .destroy k, .visit s.objs.length wkt wkb] s = none := by
  obtain ⟨hl, hp⟩ := Rdr.get_spec hs
  have hk : k < s.objs.length := (List.getElem?_eq_some_iff.mp hl).1
  have hc : (Rdr.Call.copy k).run s = some (.done, { s with objs := s.objs ++ [some o] }) := by
    show Rdr.copy k s = _
    unfold Rdr.copy
    unfold Rdr.LiveAt at hl
    rw [hl]
  have hg1 : Rdr.Sys.get { s with objs := s.objs ++ [some o] } k = some (o, p) :=
    Rdr.get_eq (by unfold Rdr.LiveAt; rw [List.getElem?_append_left hk]; exact hl) hp
  have hg2 : Rdr.Sys.get { s with objs := s.objs ++ [some o] } s.objs.length = some (o, p) :=
    Rdr.get_eq (by unfold Rdr.LiveAt; rw [List.getElem?_concat_length]) hp
  have hdead : ∀ (s1 : Rdr.Sys) (j m : Nat) (x : Rdr.Out) (s2 : Rdr.Sys), s1.get j = some (o, p) → s1.get m = some (o, p) →
      (Rdr.Call.destroy j).run s1 = some (x, s2) → s2.get m = none := by
    intro s1 j m x s2 h1 h2 h3
    change Rdr.destroy j s1 = _ at h3
    unfold Rdr.destroy at h3
    rw [h1] at h3
    simp only [Option.some.injEq, Prod.mk.injEq] at h3
    obtain ⟨-, rfl⟩ := h3
    by_cases e : j = m
    · subst e
      unfold Rdr.Sys.get
      dsimp only
      rw [List.getElem?_set_self (List.getElem?_eq_some_iff.mp (Rdr.get_spec h1).1).1]
    · have h4 := (Rdr.get_spec h2).1
      unfold Rdr.LiveAt at h4
      unfold Rdr.Sys.get
      dsimp only
      rw [List.getElem?_set_ne e, h4]
      dsimp only
      rw [show Rdr.poke s1.heap o.priv none o.priv = none from if_pos rfl]
      rfl
  have hrun : ∀ j, Rdr.Sys.get { s with objs := s.objs ++ [some o] } j = some (o, p) →
      ∃ s2, (Rdr.Call.destroy j).run { s with objs := s.objs ++ [some o] } = some (.done, s2) := by
    intro j hj
    show ∃ s2, Rdr.destroy j _ = _
    unfold Rdr.destroy
    rw [hj]
    exact ⟨_, rfl⟩
  obtain ⟨s2, hd1⟩ := hrun k hg1
  obtain ⟨s3, hd2⟩ := hrun s.objs.length hg2
  have e1 := hdead _ k s.objs.length _ _ hg1 hg2 hd1
  have e2 := hdead _ s.objs.length k _ _ hg2 hg1 hd2
  refine ⟨⟨[.done, .done], s2, ?_⟩, ?_, ?_, ?_⟩
  · simp only [Rdr.runs, hc, hd1]
  · have : (Rdr.Call.destroy s.objs.length).run s2 = none := by
      show Rdr.destroy _ _ = _
      unfold Rdr.destroy
      rw [e1]
    simp only [Rdr.runs, hc, hd1, this]
  · have : (Rdr.Call.destroy k).run s3 = none := by
      show Rdr.destroy _ _ = _
      unfold Rdr.destroy
      rw [e2]
    simp only [Rdr.runs, hc, hd2, this]
  · have : (Rdr.Call.visit s.objs.length wkt wkb).run s2 = none := by
      show Rdr.visit _ _ _ _ = _
      unfold Rdr.visit
      rw [e1]
    simp only [Rdr.runs, hc, hd1, this]

/-- One point, at (1, 2) -/
def exPointArr : AArray := .mk 1 0 0 [none] [.mk 1 0 0 [none, some (Dbl.bytes dbl1)] [], .mk 1 0 0 [none, some (Dbl.bytes dbl2)] []]
/-- An array with one child, which is no array of points; its offset is 1. -/
def exNotPointArr : AArray := .mk 1 0 1 [none] [.mk 1 0 0 [none, some (Dbl.bytes dbl1)] []]

/-- C75 says nothing of a reader after a refused array: it shows a mixture of the arrays. A reader of points that shows one point refuses an array with
offset 1; if the point is visited now, memory behind the first array is read. -/
theorem C75_refused_mixes : ∃ r0 r r', ReaderOf 1 r0 ∧ arrayReaderSetArray exPointArr r0 = .ok () r ∧ arrayReaderSetArray exNotPointArr r = .err EINVAL r' ∧
    arrayReaderVisit recorder exParse r 0 1 [] = .ok () [.featStart, .geomStart 1 1, .coords 2 [[dbl1, dbl2]], .geomEnd, .featEnd] ∧
    arrayReaderVisit recorder exParse r' 0 1 [] = .ub := by
  refine ⟨_, _, _, ReaderOf.init (type := 1) rfl, rfl, rfl, ?_, ?_⟩
  · decide +kernel
  · decide +kernel

/-- Two readers: the first one is given an array, shows it, borrows another one, is given a third one, is visited and destroyed; the second one is of WKB
in large arrays, is never given anything and has no view. The third constructor throws. -/
def exReads : List Rdr.Call :=
  [.fromType 10002, .set 0 7 exLineArr, .view 0, .fromType 100002, .borrow 0 8 exLineArr, .view 1, .set 0 9 exLineArr, .clientRelease 8,
    .visit 0 (AReader.zero 0).wkt (AReader.zero 0).wkb, .fromType 7, .destroy 0]

example : ∃ xs s, Rdr.runs exReads Rdr.Sys.start = some (xs, s) ∧ NoCopies exReads ∧ Destroyed s 0 ∧ Alive s 1 ∧ ReaderHas s 1 100002 ∧
    s.log.count (.released 9) = 1 ∧ s.log.count (.released 7) = 0 ∧ s.log.count (.released 8) = 1 ∧ xs[5]? = some .threw ∧ xs[9]? = some .threw ∧
    xs[6]? = some .done ∧ exReads[6]? = some (.set 0 9 exLineArr) ∧ exReads[1]? = some (.set 0 7 exLineArr) ∧
    ∀ t' a', .set 0 t' a' ∉ exReads.drop 7 := by
  refine ⟨_, _, rfl, ?_, rfl, ⟨_, rfl⟩, ⟨_, _, rfl, rfl⟩, rfl, rfl, rfl, rfl, rfl, rfl, rfl, rfl, ?_⟩
  · intro c hc k e; subst e; simp [exReads] at hc
  · intro t' a'; simp [exReads]

/-- The theorems on views and visits hold of such a history: the reader shows the third array, and its features are those of that array. -/
example : ∃ xs s o p, Rdr.runs (exReads.take 9) Rdr.Sys.start = some (xs, s) ∧ s.get 0 = some (o, p) ∧
    (∃ v s', (Rdr.Call.view 0).run s = some (.shows v, s') ∧ Exposed .interleaved v 1 0 exLineArr) ∧
    (∃ s', (Rdr.Call.visit 0 (AReader.zero 0).wkt (AReader.zero 0).wkb).run s = some (.done, s')) ∧
    ∃ tr, FeaturesTrace [some (.linestring .xy [[dbl3, dbl1], [dbl2, dbl2]]), none] tr ∧
      Behaves (fun _ hd => arrayReaderVisit hd exParse p.reader 0 2) tr (.done ()) := by
  have hn : NoCopies (exReads.take 9) := by intro c hc k e; subst e; simp [exReads] at hc
  have hl : ∀ c' ∈ (exReads.take 9).drop (6 + 1), gives 0 c' = none := by
    intro c hc
    simp only [exReads, List.take, List.drop, List.mem_cons, List.not_mem_nil, or_false] at hc
    rcases hc with rfl | rfl <;> rfl
  obtain ⟨xs, s, o, p, hr, hs, ht, hx⟩ : ∃ xs s o p, Rdr.runs (exReads.take 9) Rdr.Sys.start = some (xs, s) ∧ s.get 0 = some (o, p) ∧
      p.reader.type = 10002 ∧ xs[6]? = some .done := ⟨_, _, _, _, rfl, rfl, rfl, rfl⟩
  obtain ⟨v, s', h1, -, h2, -⟩ := C75_view_native _ xs s hr hn 6 0 9 (.set 0 9 exLineArr) exLineArr rfl rfl hx hl 2 .xy .interleaved (by decide)
    ⟨o, p, hs, ht⟩
  obtain ⟨tr, h3, h4⟩ := C75_visit_native _ xs s hr hn 6 0 9 (.set 0 9 exLineArr) exLineArr rfl rfl hx hl 2 .xy .interleaved (by decide) o p hs ht 0
    [some (.linestring .xy [[dbl3, dbl1], [dbl2, dbl2]]), none] exLine_features exParse
  exact ⟨xs, s, o, p, hr, hs, ⟨v, s', h1, h2⟩, C75_visit_allowed _ xs s hr hn 6 0 9 exLineArr rfl hx hl ⟨o, (Rdr.get_spec hs).1⟩ _ _, tr, h3, h4⟩

/-- Of the schema of linestrings of XYZ coordinates, interleaved, a reader of that type is made. -/
example (s : Rdr.Sys) : ∃ ext v, firstValue "ARROW:extension:name" exSchema = some ext ∧ Describes ext exSchema v ∧ v.type = 11002 ∧
    ∃ s', (Rdr.Call.fromSchema exSchema).run s = some (.done, s') := by
  have hv : schemaViewInit exSchema exSView = .ok () ⟨some (str "geoarrow.linestring"), none, 11002, 2, 2, 2⟩ := by decide +kernel
  rcases C04_view_exact_partial exSchema exSchema_formats exSchema_fits exSView with ⟨ext, v, h1, h2, h3⟩ | ⟨-, v, h3⟩
  · rw [hv, Res.ok.injEq] at h3
    have e : v.type = 11002 := by rw [← h3.2]
    exact ⟨ext, v, h1, h2, e, by rw [(C75_from_schema exSchema exSchema_formats exSchema_fits s).1 _ v h1 h2, e]; exact ⟨_, rfl⟩⟩
  · rw [hv] at h3
    cases h3

/-- Large arrays of WKT are read element by element, and the reader has no view of them. -/
def exLargeReads : List Rdr.Call := [.fromType 100004, .set 0 3 exLargeArr]

example : ∃ xs s o p, Rdr.runs exLargeReads Rdr.Sys.start = some (xs, s) ∧ NoCopies exLargeReads ∧ xs[1]? = some .done ∧ s.get 0 = some (o, p) ∧
    p.reader.type = wktId .offsets64 ∧ (Rdr.Call.view 0).run s = some (.threw, s) ∧ (∀ c' ∈ exLargeReads.drop (1 + 1), gives 0 c' = none) ∧
    gives 0 (.set 0 3 exLargeArr) = some (3, exLargeArr) ∧ ElementAt .offsets64 exLargeArr 0 (some (str "POINT (1 2)")) := by
  have hn : NoCopies exLargeReads := by intro c hc k e; subst e; simp [exLargeReads] at hc
  obtain ⟨xs, s, o, p, hr, hs, ht, hx⟩ : ∃ xs s o p, Rdr.runs exLargeReads Rdr.Sys.start = some (xs, s) ∧ s.get 0 = some (o, p) ∧
      p.reader.type = 100004 ∧ xs[1]? = some .done := ⟨_, _, _, _, rfl, rfl, rfl, rfl⟩
  refine ⟨xs, s, o, p, hr, hn, hx, hs, ht, C75_no_view _ xs s hr hn 0 100004 (by decide) ⟨o, p, hs, ht⟩, by simp [exLargeReads], rfl, ?_⟩
  exact ⟨Or.inl rfl, _, 0, 11, rfl, by decide +kernel, by decide +kernel, .inl ⟨_, rfl, by decide, by decide +kernel, by decide +kernel⟩⟩

end Verif
