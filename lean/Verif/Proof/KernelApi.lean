import Verif.Proof.CppDataType
import Verif.Proof.FormatWkt
import Verif.Proof.KernelTypes
import Verif.Props.ArrayWriter
import Verif.Props.CppDataType
import Verif.Spec.KernelApi
/-!
# Kernels from their names to their results
-/
namespace Verif
open Spec

/-! ## Names -/

theorem kernelNamed_iff (name : List Byte) : (kernelNamed name).isSome ↔ name ∈ kernelNames := by
  unfold kernelNamed kernelNames
  simp only [List.mem_cons, List.not_mem_nil, or_false]
  constructor
  · intro h
    repeat' split at h
    all_goals simp_all
  · rintro (rfl | rfl | rfl | rfl | rfl | rfl | rfl | rfl) <;> decide

theorem kernelInit_inv {env : KEnv} {name : List Byte} {k : KObj} (h : kernelInit env name = .ok k) :
    ∃ n, kernelNamed name = some n ∧
      k = { name := n, reader := none, writer := none, visitor := none, wkt := wktWriterInit env.rawT, types := typesZero, box := boxZero } := by
  unfold kernelInit at h
  cases hn : kernelNamed name with
  | none => rw [hn] at h; cases h
  | some n => rw [hn] at h; cases h; exact ⟨n, rfl, rfl⟩

/-! ## Views of the input -/

theorem view_of_inputType {s : ASchema} {type : Int} (h : InputType s type) :
    ∃ v, v.type = type ∧ v.extMetadata = firstValue "ARROW:extension:metadata" s ∧ type ≠ 0 ∧ type ∈ nativeTypes ++ serializedTypes ∧
      ∀ v0, schemaViewInit s v0 = .ok () v := by
  obtain ⟨ext, v, h1, h2, rfl⟩ := h
  obtain ⟨na, hna⟩ := naInit_of_describes h2
  obtain ⟨-, -, -, -, -, hx, -⟩ := naInit_inv hna
  rw [metadataGet_first, h1] at hx
  have hm : v.type ∈ nativeTypes ++ serializedTypes := (describes_parts h2).1
  refine ⟨v, rfl, h2.2.2.1, ?_, hm, ?_⟩
  · intro h0
    rw [h0] at hm
    exact absurd hm (by decide)
  · intro v0
    unfold schemaViewInit
    rw [M.bind_ok (m := svNa s) (by unfold svNa; rw [hna]; rfl), hx]
    exact svInternal_ok hna h2 v0

theorem readers_exist : ∀ t ∈ nativeTypes ++ serializedTypes, (arrayReaderInit t).isSome := by decide +kernel

theorem reader_of_inputType {s : ASchema} {type : Int} (h : InputType s type) :
    ∃ r, arrayReaderInitFromSchema s = some r ∧ ReaderOf type r := by
  obtain ⟨v, rfl, -, -, hm, hv⟩ := view_of_inputType h
  obtain ⟨r, hr⟩ := Option.isSome_iff_exists.mp (readers_exist _ hm)
  have h1 : arrayReaderInitFromSchema s = some r := by
    unfold arrayReaderInitFromSchema
    rw [hv]
    exact hr
  exact ⟨r, h1, .init hr⟩

/-- `start` of a kernel that has a visitor. -/
theorem start_run {s : ASchema} {type : Int} (h : InputType s type) (env : KEnv) (print : Nat → Dbl → List Byte)
    (options : List (List Byte × List Byte)) (k : KObj) (hk : ¬ (k.name = .void ∨ k.name = .voidAgg)) :
    ∃ r v, ReaderOf type r ∧ v.extMetadata = firstValue "ARROW:extension:metadata" s ∧ 
      kernelStart env print s options k = kernelFinishStart env print s v options { k with reader := some r } := by
  obtain ⟨v, h1, h2, h3, -, hv⟩ := view_of_inputType h
  obtain ⟨r, h4, h5⟩ := reader_of_inputType h
  refine ⟨r, v, h5, h2, ?_⟩
  unfold kernelStart
  rw [if_neg hk, hv]
  dsimp only
  rw [if_neg (by rw [h1]; exact h3), h4]

/-! ## Running on a part -/

section
variable {σ α β : Type} {r : AReader} {part : σ} {put : σ → KObj → KObj} {m : M (Kernel σ) α} {f : α → β} {k k' : KObj}

theorem onPart_run {a : α} {kk : Kernel σ} (h : m ⟨r, part⟩ = .ok a kk) :
    (do let b ← onPart r part put m; pure (f b) : M KObj β) k = .ok (f a) (put kk.vis { k with reader := some kk.reader }) := by
  rw [M.bind_ok (m := onPart r part put m) (a := a) (s' := put kk.vis { k with reader := some kk.reader })]
  · rfl
  · unfold onPart; rw [h]

theorem onPart_err {rc : Code} {kk : Kernel σ} (h : m ⟨r, part⟩ = .err rc kk) :
    (do let b ← onPart r part put m; pure (f b) : M KObj β) k = .err rc (put kk.vis { k with reader := some kk.reader }) := by
  rw [M.bind_err (m := onPart r part put m) (rc := rc) (s' := put kk.vis { k with reader := some kk.reader })]
  unfold onPart; rw [h]

theorem onPart_ub (h : m ⟨r, part⟩ = .ub) : (do let b ← onPart r part put m; pure (f b) : M KObj β) k = .ub := by
  rw [M.bind_ub (m := onPart r part put m)]
  unfold onPart; rw [h]

theorem onPart_state (h : ((do let b ← onPart r part put m; pure (f b) : M KObj β) k).state? = some k') :
    ∃ kk, (m ⟨r, part⟩).state? = some kk ∧ k' = put kk.vis { k with reader := some kk.reader } := by
  cases hm : m ⟨r, part⟩ with
  | ok a kk => rw [onPart_run hm] at h; cases h; exact ⟨kk, rfl, rfl⟩
  | err rc kk => rw [onPart_err hm] at h; cases h; exact ⟨kk, rfl, rfl⟩
  | ub => rw [onPart_ub hm] at h; cases h

theorem onPart_ok {o : β} (h : (do let b ← onPart r part put m; pure (f b) : M KObj β) k = .ok o k') :
    ∃ a kk, m ⟨r, part⟩ = .ok a kk ∧ o = f a ∧ k' = put kk.vis { k with reader := some kk.reader } := by
  cases hm : m ⟨r, part⟩ with
  | ok a kk => rw [onPart_run hm] at h; cases h; exact ⟨a, kk, rfl, rfl, rfl⟩
  | err rc kk => rw [onPart_err hm] at h; cases h
  | ub => rw [onPart_ub hm] at h; cases h
end

/-! ## box -/

/-- The result does not depend on the kernel. -/
theorem schemaBox_any (env : KEnv) (md : Option (List Byte)) :
    (∃ out, ∀ k, schemaBox env md k = .ok out k) ∨ (∃ rc, ∀ k, schemaBox env md k = .err rc k) ∨ (∀ k, schemaBox env md k = .ub) := by
  unfold schemaBox
  cases metadataViewInit env.after ((md.getD []).length + 1) (md.getD []) with
  | err => exact .inr (.inl ⟨_, fun _ => rfl⟩)
  | oob => exact .inr (.inr fun _ => rfl)
  | stuck => exact .inr (.inr fun _ => rfl)
  | ok w rest =>
    dsimp only
    by_cases hw : w.edge ≠ 0
    · rw [if_pos hw]; exact .inr (.inl ⟨_, fun _ => rfl⟩)
    · rw [if_neg hw]
      cases schemaInitExtension 990 with
      | error rc => exact .inr (.inl ⟨_, fun _ => rfl⟩)
      | ok s =>
        dsimp only
        cases schemaSetMetadata env.heap s w with
        | none => exact .inr (.inr fun _ => rfl)
        | some s' => exact .inl ⟨_, fun _ => rfl⟩

theorem schemaBox_state {env : KEnv} {md : Option (List Byte)} {k k' : KObj} (h : (schemaBox env md k').state? = some k) : k = k' := by
  rcases schemaBox_any env md with ⟨out, e⟩ | ⟨rc, e⟩ | e
  · rw [e] at h; cases h; rfl
  · rw [e] at h; cases h; rfl
  · rw [e] at h; cases h

theorem named_box : kernelNamed (str "box") = some .box := by decide

theorem start_box {env env' : KEnv} {print : Nat → Dbl → List Byte} {s : ASchema} {options : List (List Byte × List Byte)} {type : Int}
    (hs : InputType s type) {k0 k : KObj} {out : ASchema} (h0 : kernelInit env (str "box") = .ok k0)
    (h : kernelStart env' print s options k0 = .ok out k) :
    k.name = .box ∧ ∃ r, k.reader = some r ∧ ReaderOf type r ∧ k.box = boxZero := by
  obtain ⟨n, hn, rfl⟩ := kernelInit_inv h0
  rw [named_box] at hn
  cases hn
  obtain ⟨r, v, h1, -, h3⟩ := start_run hs env' print options
    { name := .box, reader := none, writer := none, visitor := none, wkt := wktWriterInit env.rawT, types := typesZero, box := boxZero }
    (by rintro (h | h) <;> cases h)
  rw [h3] at h
  unfold kernelFinishStart at h
  rw [M.bind_run, M.get_run] at h
  dsimp only at h
  rw [schemaBox_state (k := k) (by rw [h]; rfl)]
  exact ⟨rfl, r, rfl, h1, rfl⟩

theorem push_box {env : KEnv} {parse : List Byte → Option Dbl} {print : Nat → Dbl → List Byte} {scratch : Int → WktR × WkbR} {a : AArray} {w : Bool}
    {k : KObj} {r : AReader} (hn : k.name = .box) (hr : k.reader = some r) :
    kernelPush env parse print scratch a w k =
      if w then
        (do let b ← onPart r k.box (fun s k => { k with box := s }) (boxPush env.junk parse scratch a)
            pure (some (AOut.native b)) : M KObj (Option AOut)) k
      else .ub := by
  unfold kernelPush
  rw [hn, hr]

theorem finish_box {w : Bool} {k : KObj} (hn : k.name = .box) : kernelFinish w k = if w then .err EINVAL k else .ok none k := by
  unfold kernelFinish
  rw [hn]

theorem finish_box_state {w : Bool} {k k' : KObj} (hn : k.name = .box) (h : (kernelFinish w k).state? = some k') : k' = k := by
  rw [finish_box hn] at h
  cases w <;> cases h <;> rfl

section
variable {parse : List Byte → Option Dbl} {print : Nat → Dbl → List Byte} {s : ASchema} {options : List (List Byte × List Byte)} {k : KObj} {type : Int}

theorem kernelOf_box (hs : InputType s type) (h : KernelOf parse print (str "box") s options k) :
    k.name = .box ∧ ∃ r, k.reader = some r ∧ BoxKernelOf parse type ⟨r, k.box⟩ := by
  induction h with
  | start h0 h1 =>
    obtain ⟨g1, r, g2, g3, g4⟩ := start_box hs h0 h1
    exact ⟨g1, r, g2, by rw [g4]; exact .start g3⟩
  | push _ hp ih =>
    obtain ⟨g1, r, g2, g3⟩ := ih
    rw [push_box g1 g2] at hp
    split at hp
    · obtain ⟨kk, e1, rfl⟩ := onPart_state hp
      exact ⟨g1, _, rfl, .push g3 e1⟩
    · cases hp
  | finish _ hp ih =>
    rw [finish_box_state ih.1 hp]
    exact ih

theorem kernelReady_box (hs : InputType s type) (h : KernelReady parse print (str "box") s options k) :
    k.name = .box ∧ ∃ r, k.reader = some r ∧ BoxKernelStart parse type ⟨r, k.box⟩ := by
  induction h with
  | start h0 h1 =>
    obtain ⟨g1, r, g2, g3, g4⟩ := start_box hs h0 h1
    exact ⟨g1, r, g2, by rw [g4]; exact .start g3⟩
  | push hk hp =>
    obtain ⟨g1, r, g2, g3⟩ := kernelOf_box hs hk
    rw [push_box g1 g2] at hp
    split at hp
    · obtain ⟨o, kk, e1, -, rfl⟩ := onPart_ok hp
      exact ⟨g1, _, rfl, .push g3 e1⟩
    · cases hp
  | finish _ hp ih =>
    rw [finish_box_state ih.1 hp]
    exact ih
end

/-! ## The other kernels: start -/

/-- The kernel that `GeoArrowKernelInit` makes. -/
def newKernel (env : KEnv) (n : KName) : KObj :=
  { name := n, reader := none, writer := none, visitor := none, wkt := wktWriterInit env.rawT, types := typesZero, box := boxZero }

theorem kernelInit_new {env : KEnv} {name : List Byte} {n : KName} (hn : kernelNamed name = some n) : kernelInit env name = .ok (newKernel env n) := by
  unfold kernelInit
  rw [hn]
  rfl

section
variable {env env' : KEnv} {parse : List Byte → Option Dbl} {print : Nat → Dbl → List Byte} {s : ASchema} {options : List (List Byte × List Byte)} {type : Int}
  {k0 k : KObj} {out : ASchema}

/-- `start` of a new kernel with a visitor. -/
theorem start_new {name : List Byte} {n : KName} (hn : kernelNamed name = some n) (hv : ¬ (n = .void ∨ n = .voidAgg)) (hs : InputType s type)
    (h0 : kernelInit env name = .ok k0) :
    ∃ r v, ReaderOf type r ∧ v.extMetadata = firstValue "ARROW:extension:metadata" s ∧
      kernelStart env' print s options k0 = kernelFinishStart env' print s v options { newKernel env n with reader := some r } := by
  rw [kernelInit_new hn] at h0
  cases h0
  exact start_run hs env' print options (newKernel env n) hv

theorem start_boxAgg (hs : InputType s type) (h0 : kernelInit env (str "box_agg") = .ok k0) (h : kernelStart env' print s options k0 = .ok out k) :
    k.name = .boxAgg ∧ ∃ r, k.reader = some r ∧ ReaderOf type r ∧ k.box = boxAggStart := by
  obtain ⟨r, v, h1, -, h3⟩ := start_new (env' := env') (print := print) (options := options) (n := .boxAgg) (by decide) (by decide) hs h0
  rw [h3] at h
  unfold kernelFinishStart at h
  rw [M.bind_run, M.get_run] at h
  dsimp only [newKernel] at h
  rw [M.bind_run, M.modify_run] at h
  dsimp only at h
  rw [schemaBox_state (k := k) (by rw [h]; rfl)]
  exact ⟨rfl, r, rfl, h1, rfl⟩

theorem start_types (hs : InputType s type) (h0 : kernelInit env (str "unique_geometry_types_agg") = .ok k0)
    (h : kernelStart env' print s options k0 = .ok out k) :
    k.name = .uniqueTypesAgg ∧ ∃ r, k.reader = some r ∧ ReaderOf type r ∧ k.types = typesZero := by
  obtain ⟨r, v, h1, -, h3⟩ := start_new (env' := env') (print := print) (options := options) (n := .uniqueTypesAgg) (by decide) (by decide) hs h0
  rw [h3] at h
  unfold kernelFinishStart at h
  rw [M.bind_run, M.get_run] at h
  dsimp only [newKernel] at h
  cases h
  exact ⟨rfl, r, rfl, h1, rfl⟩

theorem start_visit (hs : InputType s type) (h0 : kernelInit env (str "visit_void_agg") = .ok k0)
    (h : kernelStart env' print s options k0 = .ok out k) : k.name = .visitVoidAgg ∧ ∃ r, k.reader = some r ∧ ReaderOf type r := by
  obtain ⟨r, v, h1, -, h3⟩ := start_new (env' := env') (print := print) (options := options) (n := .visitVoidAgg) (by decide) (by decide) hs h0
  rw [h3] at h
  unfold kernelFinishStart at h
  rw [M.bind_run, M.get_run] at h
  dsimp only [newKernel] at h
  cases h
  exact ⟨rfl, r, rfl, h1⟩

theorem start_format (hs : InputType s type) (h0 : kernelInit env (str "format_wkt") = .ok k0)
    (h : kernelStart env' print s options k0 = .ok out k) :
    k.name = .formatWkt ∧ ∃ r, k.reader = some r ∧ ReaderOf type r ∧ k.wkt = formatWktStart options (wktWriterInit env.rawT) := by
  obtain ⟨r, v, h1, -, h3⟩ := start_new (env' := env') (print := print) (options := options) (n := .formatWkt) (by decide) (by decide) hs h0
  rw [h3] at h
  unfold kernelFinishStart at h
  rw [M.bind_run, M.get_run] at h
  dsimp only [newKernel] at h
  rw [M.bind_run, M.modify_run] at h
  cases h
  exact ⟨rfl, r, rfl, h1, rfl⟩

theorem start_as (hs : InputType s type) (h0 : kernelInit env (str "as_geoarrow") = .ok k0)
    (h : kernelStart env' print s options k0 = .ok out k) :
    k.name = .asGeoarrow ∧ ∃ r hd w, k.reader = some r ∧ ReaderOf type r ∧ k.visitor = some hd ∧ k.writer = some w ∧
      asGeoarrowStart env'.junk print env'.rawT env'.rawB options none = some (.ok (hd, w)) := by
  obtain ⟨r, v, h1, -, h3⟩ := start_new (env' := env') (print := print) (options := options) (n := .asGeoarrow) (by decide) (by decide) hs h0
  rw [h3] at h
  unfold kernelFinishStart at h
  rw [M.bind_run, M.get_run] at h
  dsimp only [newKernel] at h
  unfold asGeoarrowFinishStart at h
  unfold asGeoarrowStart
  cases ha : kernelArg options (str "type") with
  | none => rw [ha] at h; cases h
  | some t =>
    rw [ha] at h
    dsimp only at h ⊢
    rw [if_neg (by decide)] at h
    rw [if_neg (by decide)]
    cases hi : arrayWriterInit env'.junk env'.rawT env'.rawB t with
    | error rc => rw [hi] at h; cases h
    | ok w0 =>
      rw [hi] at h
      dsimp only at h ⊢
      cases hv : arrayWriterInitVisitor env'.junk print w0 with
      | ub => rw [hv] at h; cases h
      | err rc w => rw [hv] at h; cases h
      | ok hd w =>
        rw [hv] at h
        dsimp only at h ⊢
        cases hsch : asGeoarrowSchema t s with
        | error rc => rw [hsch] at h; cases h
        | ok o =>
          rw [hsch] at h
          cases h
          exact ⟨rfl, r, hd, w, rfl, h1, rfl, rfl, rfl⟩
end

/-! ## box_agg -/

theorem boxFinish_state {s s' : BoxS} {out : AArray} (h : boxFinish s = .ok out s') :
    s' = { s with validity := Bitmap.init, values0 := [], values1 := [], values2 := [], values3 := [], nullCount := 0 } := by
  unfold boxFinish at h
  rw [M.bind_run, M.get_run] at h
  dsimp only at h
  rw [M.bind_run, M.modify_run] at h
  dsimp only at h
  by_cases h1 : naTreeMinimal boxTree (boxArray s) = false
  · rw [if_pos h1] at h; cases h
  · rw [if_neg h1] at h
    obtain ⟨b, s1, h2, h3⟩ := M.bind_eq_ok.mp h
    have : s1 = { s with validity := Bitmap.init, values0 := [], values1 := [], values2 := [], values3 := [] } := by
      cases hd : naTreeDefault boxTree (boxArray s) with
      | none => rw [hd] at h2; cases h2
      | some b' => rw [hd] at h2; cases h2; rfl
    cases b with
    | false => cases h3
    | true =>
      rw [if_pos rfl, M.bind_run, M.modify_run] at h3
      cases h3
      rw [this]

/-- Finishing box_agg leaves its state as it was. -/
theorem boxAggFinish_run (r : AReader) (cs : List (Dims × Coord)) :
    ∃ out, boxAggFinish ⟨r, boxAggStart.ext cs⟩ = .ok out ⟨r, boxAggStart.ext cs⟩ ∧ OneBox out cs := by
  obtain ⟨s, h2, h3⟩ := boxAgg_pending cs
  obtain ⟨s', h4, h5⟩ := boxFinish_run h3
  have h6 : (do boxFlush; boxFinish : M BoxS AArray) (boxAggStart.ext cs) = .ok ((boxArray s).withNullCount s.nullCount) s' := by
    rw [M.bind_ok h2, h4]
  have h7 : s' = boxAggStart.ext cs := by
    rw [boxFinish_state h4]
    cases h2
    rfl
  refine ⟨_, ?_, oneBox_of h5⟩
  unfold boxAggFinish onVis
  dsimp only
  rw [h6, h7]

section
variable {parse : List Byte → Option Dbl} {print : Nat → Dbl → List Byte} {s : ASchema} {options : List (List Byte × List Byte)} {k : KObj}

theorem push_boxAgg {env : KEnv} {scratch : Int → WktR × WkbR} {a : AArray} {w : Bool} {r : AReader} (hn : k.name = .boxAgg) (hr : k.reader = some r) :
    kernelPush env parse print scratch a w k =
      (do onPart r k.box (fun s k => { k with box := s }) (boxAggPush parse scratch a); pure none : M KObj (Option AOut)) k := by
  unfold kernelPush
  rw [hn, hr]

theorem finish_boxAgg {cs : List (Dims × Coord)} (hn : k.name = .boxAgg) (hb : k.box = boxAggStart.ext cs) :
    ∃ out, kernelFinish true k = .ok (some (.native out)) k ∧ OneBox out cs := by
  obtain ⟨out, h1, h2⟩ := boxAggFinish_run (k.reader.getD (AReader.zero 0)) cs
  refine ⟨out, ?_, h2⟩
  unfold kernelFinish
  rw [hn]
  dsimp only
  rw [if_pos rfl, hb, h1]
  dsimp only
  rw [← hb, ← hn]

theorem fed_boxAgg (hpe : parse [] = none) (hE : ∀ w, parse (69 :: w) = none) {kind : ArrayKind} (hs : InputType s kind.id) {ps : List Pushed}
    (h : Fed parse print (str "box_agg") s options kind ps k) :
    k.name = .boxAgg ∧ ∃ r, k.reader = some r ∧ ReaderOf kind.id r ∧ k.box = boxAggStart.ext (featureCoords (allFeatures ps)) := by
  induction h with
  | start h0 h1 =>
    obtain ⟨g1, r, g2, g3, g4⟩ := start_boxAgg hs h0 h1
    exact ⟨g1, r, g2, g3, by rw [g4]; rfl⟩
  | push _ hf hp ih =>
    obtain ⟨g1, r, g2, g3, g4⟩ := ih
    rw [push_boxAgg g1 g2] at hp
    obtain ⟨o, kk, e1, -, rfl⟩ := onPart_ok (f := fun _ => none) hp
    obtain ⟨r1, s1, hset, _, _, _⟩ := push_inv e1
    rw [boxAggPush_run hpe hE g3 hset hf] at e1
    cases e1
    refine ⟨g1, _, rfl, readerOf_set g3 hset _, ?_⟩
    dsimp only
    rw [g4, ← BoxS.ext_append]
    congr 1
    unfold allFeatures featureCoords
    simp only [List.flatMap_append, List.flatMap_cons, List.flatMap_nil, List.append_nil]
  | @finish w ps k k' _ hp ih =>
    obtain ⟨g1, r, g2, g3, g4⟩ := ih
    cases w with
    | false =>
      unfold kernelFinish at hp
      rw [g1] at hp
      cases hp
    | true =>
      obtain ⟨out, e1, -⟩ := finish_boxAgg g1 g4
      rw [e1] at hp
      cases hp
      exact ⟨g1, r, g2, g3, g4⟩

/-! ## unique_geometry_types_agg -/

theorem push_types {env : KEnv} {scratch : Int → WktR × WkbR} {a : AArray} {w : Bool} {r : AReader} (hn : k.name = .uniqueTypesAgg)
    (hr : k.reader = some r) :
    kernelPush env parse print scratch a w k =
      (do onPart r k.types (fun s k => { k with types := s }) (typesPush parse scratch a); pure none : M KObj (Option AOut)) k := by
  unfold kernelPush
  rw [hn, hr]

theorem finish_types (hn : k.name = .uniqueTypesAgg) : ∃ out vs, kernelFinish true k = .ok (some (.native out)) k ∧ IntArray out vs ∧ vs.Pairwise (· < ·) ∧
    ∀ c, c ∈ vs ↔ ∃ j, j < 40 ∧ k.types.mask.getLsbD j = true ∧ typeCodes[j]? = some c := by
  obtain ⟨out, vs, h1, h2⟩ := typesFinish_run ⟨k.reader.getD (AReader.zero 0), k.types⟩
  refine ⟨out, vs, ?_, h2⟩
  unfold kernelFinish
  rw [hn]
  dsimp only
  rw [if_pos rfl, h1]
  dsimp only
  rw [← hn]

theorem fed_types (hpe : parse [] = none) (hE : ∀ w, parse (69 :: w) = none) {kind : ArrayKind} (hs : InputType s kind.id) {ps : List Pushed}
    (h : Fed parse print (str "unique_geometry_types_agg") s options kind ps k) :
    k.name = .uniqueTypesAgg ∧ ∃ r, k.reader = some r ∧ ReaderOf kind.id r ∧ k.types.mask = (allFeatures ps).foldl maskAfter 0 := by
  induction h with
  | start h0 h1 =>
    obtain ⟨g1, r, g2, g3, g4⟩ := start_types hs h0 h1
    exact ⟨g1, r, g2, g3, by rw [g4]; rfl⟩
  | @push env w ps p k o k' _ hf hp ih =>
    obtain ⟨g1, r, g2, g3, g4⟩ := ih
    rw [push_types g1 g2] at hp
    obtain ⟨o, kk, e1, -, rfl⟩ := onPart_ok (f := fun _ => none) hp
    obtain ⟨r1, hset⟩ := typesPush_set e1
    obtain ⟨s', e2, e3⟩ := typesPush_run hpe hE g3 hset hf p.scratch
    rw [e2] at e1
    cases e1
    refine ⟨g1, _, rfl, readerOf_set g3 hset _, ?_⟩
    dsimp only
    rw [e3]
    dsimp only
    rw [g4, ← List.foldl_append]
    unfold allFeatures
    simp only [List.flatMap_append, List.flatMap_cons, List.flatMap_nil, List.append_nil]
  | @finish w ps k k' _ hp ih =>
    obtain ⟨g1, r, g2, g3, g4⟩ := ih
    cases w with
    | false =>
      unfold kernelFinish at hp
      rw [g1] at hp
      cases hp
    | true =>
      obtain ⟨out, vs, e1, -⟩ := finish_types g1
      rw [e1] at hp
      cases hp
      exact ⟨g1, r, g2, g3, g4⟩

/-! ## format_wkt -/

theorem push_format {env : KEnv} {scratch : Int → WktR × WkbR} {a : AArray} {w : Bool} {r : AReader} (hn : k.name = .formatWkt)
    (hr : k.reader = some r) :
    kernelPush env parse print scratch a w k =
      if w then
        (do let b ← onPart r k.wkt.priv (fun p k => { k with wkt := { k.wkt with priv := p } }) (formatWktPush print parse scratch a)
            pure (some (AOut.bin b)) : M KObj (Option AOut)) k
      else .ub := by
  unfold kernelPush
  rw [hn, hr]

theorem finish_format_state {w : Bool} {k' : KObj} (hn : k.name = .formatWkt) (h : (kernelFinish w k).state? = some k') : k' = k := by
  unfold kernelFinish at h
  rw [hn] at h
  cases w <;> cases h <;> rfl

theorem kernelOf_format {p max : Int} {type : Int} (hs : InputType s type) (hp : OptionIs options (str "precision") 16 p)
    (hm : OptionIs options (str "max_element_size_bytes") (-1) max) (h : KernelOf parse print (str "format_wkt") s options k) :
    k.name = .formatWkt ∧ ∃ r, k.reader = some r ∧ FwKernelOf parse print type p max ⟨r, k.wkt.priv⟩ := by
  induction h with
  | start h0 h1 =>
    obtain ⟨g1, r, g2, g3, g4⟩ := start_format hs h0 h1
    exact ⟨g1, r, g2, by rw [g4]; exact .start hp hm g3⟩
  | push _ hq ih =>
    obtain ⟨g1, r, g2, g3⟩ := ih
    rw [push_format g1 g2] at hq
    split at hq
    · obtain ⟨kk, e1, rfl⟩ := onPart_state hq
      exact ⟨g1, _, rfl, .push g3 e1⟩
    · cases hq
  | finish _ hq ih =>
    rw [finish_format_state ih.1 hq]
    exact ih

theorem kernelReady_format {p max : Int} {type : Int} (hs : InputType s type) (hp : OptionIs options (str "precision") 16 p)
    (hm : OptionIs options (str "max_element_size_bytes") (-1) max) (h : KernelReady parse print (str "format_wkt") s options k) :
    k.name = .formatWkt ∧ ∃ r, k.reader = some r ∧ FwKernelStart parse print type p max ⟨r, k.wkt.priv⟩ := by
  induction h with
  | start h0 h1 =>
    obtain ⟨g1, r, g2, g3, g4⟩ := start_format hs h0 h1
    exact ⟨g1, r, g2, by rw [g4]; exact .start hp hm g3⟩
  | push hk hq =>
    obtain ⟨g1, r, g2, g3⟩ := kernelOf_format hs hp hm hk
    rw [push_format g1 g2] at hq
    split at hq
    · obtain ⟨o, kk, e1, -, rfl⟩ := onPart_ok hq
      exact ⟨g1, _, rfl, .push g3 e1⟩
    · cases hq
  | finish _ hq ih =>
    rw [finish_format_state ih.1 hq]
    exact ih

/-! ## as_geoarrow -/

theorem push_as {env : KEnv} {scratch : Int → WktR × WkbR} {a : AArray} {w : Bool} {r : AReader} {h : Handler AWriter} {wr : AWriter}
    (hn : k.name = .asGeoarrow) (hr : k.reader = some r) (hv : k.visitor = some h) (hw : k.writer = some wr) :
    kernelPush env parse print scratch a w k =
      if w then
        (do let o ← onPart r wr (fun w k => { k with writer := some w }) (asGeoarrowPush h env.junk parse scratch a)
            pure (some o) : M KObj (Option AOut)) k
      else .ub := by
  unfold kernelPush
  rw [hn, hr]
  dsimp only
  congr 1
  rw [M.bind_run, M.bind_run]
  unfold asGeoarrowPushAny
  rw [hw, hv]
  rfl

theorem finish_as_state {w : Bool} {k' : KObj} (hn : k.name = .asGeoarrow) (h : (kernelFinish w k).state? = some k') : k' = k := by
  unfold kernelFinish at h
  rw [hn] at h
  cases w <;> cases h <;> rfl

theorem kernelOf_as {type outType : Int} (hs : InputType s type) (ho : HasNumber options (str "type") outType)
    (h : KernelOf parse print (str "as_geoarrow") s options k) :
    k.name = .asGeoarrow ∧ ∃ r hd w, k.reader = some r ∧ k.visitor = some hd ∧ k.writer = some w ∧ AsKernelOf parse print type outType hd ⟨r, w⟩ := by
  induction h with
  | start h0 h1 =>
    obtain ⟨g1, r, hd, w, g2, g3, g4, g5, g6⟩ := start_as hs h0 h1
    exact ⟨g1, r, hd, w, g2, g4, g5, .start ho g6 g3⟩
  | push _ hq ih =>
    obtain ⟨g1, r, hd, w, g2, g4, g5, g6⟩ := ih
    rw [push_as g1 g2 g4 g5] at hq
    split at hq
    · obtain ⟨kk, e1, rfl⟩ := onPart_state hq
      exact ⟨g1, _, _, _, rfl, g4, rfl, .push g6 e1⟩
    · cases hq
  | finish _ hq ih =>
    rw [finish_as_state ih.1 hq]
    exact ih

theorem kernelReady_as {type outType : Int} (hs : InputType s type) (ho : HasNumber options (str "type") outType)
    (h : KernelReady parse print (str "as_geoarrow") s options k) :
    k.name = .asGeoarrow ∧ ∃ r hd w, k.reader = some r ∧ k.visitor = some hd ∧ k.writer = some w ∧ AsKernelStart parse print type outType hd ⟨r, w⟩ := by
  induction h with
  | start h0 h1 =>
    obtain ⟨g1, r, hd, w, g2, g3, g4, g5, g6⟩ := start_as hs h0 h1
    exact ⟨g1, r, hd, w, g2, g4, g5, .start ho g6 g3⟩
  | push hk hq =>
    obtain ⟨g1, r, hd, w, g2, g4, g5, g6⟩ := kernelOf_as hs ho hk
    rw [push_as g1 g2 g4 g5] at hq
    split at hq
    · obtain ⟨o, kk, e1, -, rfl⟩ := onPart_ok hq
      exact ⟨g1, _, _, _, rfl, g4, rfl, .push g6 e1⟩
    · cases hq
  | finish _ hq ih =>
    rw [finish_as_state ih.1 hq]
    exact ih

theorem asKernelOf_reader {type outType : Int} {h : Handler AWriter} {k : Kernel AWriter} (hk : AsKernelOf parse print type outType h k) :
    ReaderOf type k.reader := by
  induction hk with
  | start _ _ hr => exact hr
  | push _ hp ih => exact push_reader ih hp

/-! ## visit_void_agg -/

theorem push_visit {env : KEnv} {scratch : Int → WktR × WkbR} {a : AArray} {w : Bool} {r : AReader} (hn : k.name = .visitVoidAgg)
    (hr : k.reader = some r) :
    kernelPush env parse print scratch a w k =
      (do onPart r () (fun _ k => k) (kernelPushBatch voidHandler (pure ()) parse scratch a); pure none : M KObj (Option AOut)) k := by
  unfold kernelPush
  rw [hn, hr]

theorem finish_visit_state {w : Bool} {k' : KObj} (hn : k.name = .visitVoidAgg) (h : (kernelFinish w k).state? = some k') : k' = k := by
  unfold kernelFinish at h
  rw [hn] at h
  cases w <;> cases h <;> rfl

theorem kernelOf_visit {type : Int} (hs : InputType s type) (h : KernelOf parse print (str "visit_void_agg") s options k) :
    k.name = .visitVoidAgg ∧ ∃ r, k.reader = some r ∧ ReaderOf type r := by
  induction h with
  | start h0 h1 => exact start_visit hs h0 h1
  | push _ hp ih =>
    obtain ⟨g1, r, g2, g3⟩ := ih
    rw [push_visit g1 g2] at hp
    obtain ⟨kk, e1, rfl⟩ := onPart_state (f := fun _ => none) hp
    exact ⟨g1, _, rfl, push_reader (k := ⟨r, ()⟩) g3 e1⟩
  | finish _ hp ih =>
    rw [finish_visit_state ih.1 hp]
    exact ih

theorem feed_voidHandler {σ : Type} : ∀ (t : List Event) (s : σ), feed voidHandler t s = .ok () s
  | [], _ => rfl
  | _ :: t, s => feed_voidHandler t s

/-- Pushing to visit_void_agg is reading. -/
theorem push_void {r r' : AReader} {a : AArray} {scratch : Int → WktR × WkbR} {t : List Event} {o : Outcome Unit}
    (hs : arrayReaderSetArray a r = .ok () r') (hv : Behaves (fun _ h => arrayReaderVisit h parse r' 0 a.length) t o) :
    kernelPushBatch voidHandler (pure ()) parse scratch a (⟨r, ()⟩ : Kernel Unit) =
      match o with
      | .done _ => .ok () ⟨r'.after (scratch 0), ()⟩
      | .fail rc => .err rc ⟨r'.after (scratch 0), ()⟩
      | .crash => .ub := by
  rw [push_eq hs]
  unfold onVis
  dsimp only
  have h1 : arrayReaderVisit voidHandler parse r' 0 a.length () = replay voidHandler t o () := hv Unit voidHandler ()
  rw [M.bind_run, h1, replay, feed_voidHandler]
  cases o <;> rfl
end

end Verif
